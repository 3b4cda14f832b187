import Verif.Lemmas.Witness
/-!
# C03: integer literals denote their mathematical value or are rejected

`integer (.one T)` is the reader used for the integer type `T`.  Literals and their value are those of
`Verif.Spec.IntLit`.
-/

namespace Ron

variable [Env]

/-- A literal without a suffix, or with the suffix of the target type, is read as exactly its mathematical value if that
fits the type and is rejected as out of bounds otherwise. -/
theorem C03_exact_or_rejected (s : St) (l : IntLit) (r : Text) (t : IntTy) (hs : s.rest = l.text ++ r) (hv : l.Valid)
    (hr : NoIdentStart r) (ht : t.Avail) (hsf : l.suffix = none ∨ l.suffix = some t) :
    (t.InRange l.value → RunsW (integer (.one t)) s (t, l.value) r) ∧
    (¬ t.InRange l.value → Fails (integer (.one t)) s .integerOutOfBounds) := by
  obtain ⟨p, hp⟩ := integer_lit (tg := .one t) hs hv hr (by
    intro t' h; rcases hsf with h' | h' <;> rw [h'] at h <;> cases h; exact ht)
  have hlt : litType (.one t) (decide (l.sign = .minus)) l.suffix = t := by
    rcases hsf with h' | h' <;> rw [h'] <;> rfl
  rw [hlt] at hp
  constructor
  · intro hin
    rw [if_pos hin] at hp
    refine ⟨_, ?_, ?_, KeepsW.step s p r⟩
    · rw [hp]
      rcases hsf with h' | h' <;> rw [h']
      · rfl
      · simp [IntTarget.tryFrom]
    · rfl
  · intro hin
    rw [if_neg hin] at hp
    exact ⟨_, hp⟩

/-- Whatever integer is accepted (byte literals `b'..'` aside) was written by a valid literal with exactly this value,
and the value fits the target type: nothing wraps, no digit is dropped. -/
theorem C03_accepted_is_exact (s s' : St) (t t' : IntTy) (v : Int) (hb : startsWith s.rest c!"b'" = false)
    (h : integer (.one t) s = .ok (t', v) s') :
    t' = t ∧ t.InRange v ∧
    ∃ l : IntLit, l.Valid ∧ s.rest = l.text ++ s'.rest ∧ l.value = v ∧ (l.suffix = none ∨ l.suffix = some t) := by
  obtain ⟨l, h1, h2, h3, h4, h5, h6, -⟩ := integer_sound hb h
  rcases hsf : l.suffix with _ | t1
  · obtain ⟨e, -⟩ := h5 hsf
    have e' : t' = t ∧ v = v := by simpa [intResult] using e
    rw [hsf] at h4
    exact ⟨e'.1, h4, l, h1, h2, h3.symm, .inl hsf⟩
  · obtain ⟨e1, -, e2, -⟩ := h6 t1 hsf
    have e3 : t = t1 := by simpa using e2
    rw [hsf] at h4
    subst e1 e3
    exact ⟨rfl, h4, l, h1, h2, h3.symm, .inr hsf⟩

/-- Positional value, digit by digit: `0x_` bodies with underscores included. -/
example : (IntLit.mk .minus .hex c!"8_0" none).Valid ∧ (IntLit.mk .minus .hex c!"8_0" none).value = -128 ∧
    (IntLit.mk .minus .hex c!"8_0" none).text = c!"-0x8_0" ∧ IntTy.InRange .i8 (-128) ∧ ¬ IntTy.InRange .i8 (-129) := by
  refine ⟨⟨by decide, by decide, ?_⟩, by decide, rfl, by decide, by decide⟩
  intro c hc
  simp only [List.mem_cons, List.not_mem_nil, or_false] at hc
  rcases hc with rfl | rfl | rfl
  · exact .inr ⟨8, by decide, by decide⟩
  · exact .inl rfl
  · exact .inr ⟨0, by decide, by decide⟩

/-- The hypotheses about the rest and the type are met, e.g. by a literal in a list. -/
example : NoIdentStart c!", 7]" ∧ IntTy.Avail .i64 := by
  refine ⟨?_, by intro h; rcases h with h | h <;> cases h⟩
  intro c r h
  cases h
  rw [Env.xidCont_ascii _ (by decide)]; decide

end Ron
