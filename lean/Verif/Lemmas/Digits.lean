import Verif.Lemmas.Number
import Verif.Lemmas.Write
/-! Printing integers. -/

set_option linter.unusedSimpArgs false

namespace Ron

theorem posValue_append (b : Nat) (xs : List Nat) (d : Nat) : posValue b (xs ++ [d]) = posValue b xs * b + d := by
  induction xs with
  | nil => simp [posValue]
  | cons x xs ih =>
    simp only [List.cons_append, posValue, ih, List.length_append, List.length_singleton, Nat.pow_succ]
    grind

theorem hexVal_digitChar : ∀ d : Nat, d < 16 → hexVal d.digitChar = some d := by
  have : ∀ d : Fin 16, hexVal d.val.digitChar = some d.val := by decide
  intro d hd; exact this ⟨d, hd⟩

theorem digitChar_ne_us : ∀ d : Nat, d < 16 → d.digitChar ≠ '_' := by
  intro d hd h
  have := hexVal_digitChar d hd
  rw [h, hexVal_underscore] at this; cases this

theorem litDigits_append (a b : Text) : litDigits (a ++ b) = litDigits a ++ litDigits b := by
  simp [litDigits]

/-- The digits printed for `n` are digits of the base and denote `n`. -/
theorem toDigits_spec {b : Nat} (hb : 1 < b) (hb16 : b ≤ 16) (n : Nat) :
    posValue b (litDigits (Nat.toDigits b n)) = n ∧
    (∀ c ∈ Nat.toDigits b n, ∃ d, hexVal c = some d ∧ d < b) := by
  induction n using Nat.strongRecOn with
  | ind n ih =>
    rw [Nat.toDigits_eq_if hb]
    split
    · rename_i h
      have h1 := hexVal_digitChar n (by omega)
      refine ⟨by rw [litDigits_cons [] h1]; simp [litDigits, posValue], ?_⟩
      intro c hc
      simp at hc; subst hc
      exact ⟨n, h1, h⟩
    · rename_i h
      have hlt : n % b < b := Nat.mod_lt _ (by omega)
      have h1 := hexVal_digitChar (n % b) (by omega)
      obtain ⟨g1, g2⟩ := ih (n / b) (Nat.div_lt_self (by omega) hb)
      constructor
      · rw [litDigits_append, litDigits_cons [] h1]
        rw [show litDigits [] = [] from rfl, posValue_append, g1]
        exact Nat.div_add_mod' n b
      · intro c hc
        rcases List.mem_append.mp hc with hc | hc
        · exact g2 c hc
        · simp at hc; subst hc; exact ⟨_, h1, hlt⟩

theorem natText_value (n : Nat) : posValue 10 (litDigits (natText n)) = n := (toDigits_spec (by omega) (by omega) n).1

theorem natText_ne_nil (n : Nat) : natText n ≠ [] := Nat.toDigits_ne_nil

theorem natText_digit (n : Nat) : ∀ c ∈ natText n, isDigit c = true := by
  intro c hc
  obtain ⟨d, hd, hlt⟩ := (toDigits_spec (by omega) (by omega) n).2 c hc
  exact hexVal_digit hd hlt

theorem natText_valid (n : Nat) : ValidBody 10 (natText n) := by
  have h := (toDigits_spec (b := 10) (by omega) (by omega) n).2
  refine ⟨natText_ne_nil n, ?_, fun c hc => .inr (h c hc)⟩
  intro hh
  have : '_' ∈ natText n := List.mem_of_mem_head? hh
  obtain ⟨d, hd, _⟩ := h _ this
  rw [hexVal_underscore] at hd; cases hd

/-- The literal the serializer prints for an integer. -/
def litOf (v : Int) (sfx : Option IntTy) : IntLit :=
  ⟨if v < 0 then .minus else .none, .dec, natText v.natAbs, sfx⟩

theorem litOf_text (v : Int) (sfx : Option IntTy) : (litOf v sfx).text = intText v ++ suffixText sfx := by
  unfold litOf IntLit.text intText
  split <;> simp [LitSign.text, LitBase.pre]

theorem litOf_valid (v : Int) (sfx : Option IntTy) : (litOf v sfx).Valid := natText_valid _

theorem litOf_value (v : Int) (sfx : Option IntTy) : (litOf v sfx).value = v := by
  unfold litOf IntLit.value
  simp only [LitBase.base, natText_value]
  split <;> simp [LitSign.apply] <;> omega

variable [Env]

omit [Env] in
theorem serInt_quiet {s : Ser} (h : s.Quiet) (t : IntTy) (v : Int) :
    serInt t v s = .ok () (s.put ((litOf v (if s.numberSuffixes then some t else none)).text)) := by
  have e : serInt t v s = (write (intText v) >>= fun _ => wget >>= fun s => if s.numberSuffixes then write t.suffix else pure ()) s := rfl
  rw [e]
  simp only [wbind_apply, write_quiet h, wget_apply]
  rw [writeIf_quiet (h.put _)]
  simp only [Ser.put_put, litOf_text, Ser.put_numberSuffixes]
  by_cases hs : s.numberSuffixes <;> simp [hs, suffixText]

end Ron
