import Verif.Lemmas.Strings
/-!
# C10: characters round-trip
-/

namespace Ron

variable [Env]

/-- Serializing any character and reading the literal gives it back; exactly the literal is consumed. -/
theorem C10_roundtrip (s : Ser) (hq : s.Quiet) (c : Char) :
    ∃ w, Emits (ser (.char c)) s w ∧ ∀ (d : St) (r : Text), d.rest = w ++ r → RunsW charLit d c r := by
  refine ⟨charText c, .of ?_, fun d r hd => charLit_ok hd⟩
  rw [ser, serChar_quiet hq]

omit [Env] in
/-- Characters with different code points have different literals. -/
theorem C10_injective (c c' : Char) (h : charText c = charText c') : c = c' := by
  have h1 := charLit_ok (s := St.init (charText c)) (c := c) (r := []) (by simp [St.init])
  have h2 := charLit_ok (s := St.init (charText c)) (c := c') (r := []) (by simp [St.init, h])
  obtain ⟨s1, e1, -⟩ := h1
  obtain ⟨s2, e2, -⟩ := h2
  rw [e1] at e2; cases e2; rfl

/-- Non-vacuity: the quote and the backslash are escaped, a newline is written as it is. -/
example : charText '\'' = c!"'\\''" ∧ charText '\\' = c!"'\\\\'" ∧ charText '\n' = c!"'\n'" := by decide

end Ron
