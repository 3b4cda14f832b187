import Verif.Lemmas.Witness
/-!
# C04: integers survive serialization and deserialization
-/

namespace Ron

variable [Env]

/-- Serialize, then read at the same type: the value comes back and exactly the written text is consumed.
This holds for every serializer state (suffixes or not) whose writer does not fail, and every rest of the input that does
not begin with an identifier character. -/
theorem C04_roundtrip (s : Ser) (hq : s.Quiet) (t : IntTy) (v : Int) (ht : t.Avail) (hv : t.InRange v) :
    ∃ w, Emits (ser (.num (.int t v))) s w ∧
      ∀ (d : St) (r : Text), d.rest = w ++ r → NoIdentStart r → RunsW (integer (.one t)) d (t, v) r := by
  refine ⟨(litOf v (if s.numberSuffixes then some t else none)).text,
    ⟨s.put (litOf v (if s.numberSuffixes then some t else none)).text, ?_, rfl⟩, ?_⟩
  · rw [ser, serNumber, serInt_quiet hq]
  · intro d r hd hr
    obtain ⟨p, hp⟩ := integer_lit (tg := .one t) hd (litOf_valid _ _) hr (by
      intro t' h
      have : (if s.numberSuffixes = true then some t else none) = some t' := h
      split at this <;> cases this; exact ht)
    refine ⟨_, ?_, ?_, KeepsW.step d p r⟩
    · rw [hp, litOf_value]
      by_cases hs : s.numberSuffixes
      · rw [if_pos (by simp [litOf, hs, litType]; exact hv)]
        simp [litOf, hs, IntTarget.tryFrom]
      · rw [if_pos (by simp [litOf, hs, litType, intTypeOf]; exact hv)]
        simp [litOf, hs, intResult]
    · rfl

omit [Env] in
/-- Two integers of a type that print alike are equal. -/
theorem C04_injective (v v' : Int) (h : intText v = intText v') : v = v' := by
  have e := litOf_value v none
  have e' := litOf_value v' none
  have key : ∀ w : Int, ((litOf w none).text.head? = some '-' ↔ w < 0) ∧
      (w < 0 → intText w = '-' :: natText w.natAbs) ∧ (¬ w < 0 → intText w = natText w.natAbs) := by
    intro w
    refine ⟨?_, fun h => by simp [intText, h], fun h => by simp [intText, h]⟩
    rw [litOf_text]
    by_cases hw : w < 0
    · simp [intText, hw]
    · simp only [intText, hw, if_false, iff_false]
      cases hx : natText w.natAbs with
      | nil => exact absurd hx (natText_ne_nil _)
      | cons c u =>
        have := natText_digit w.natAbs c (by rw [hx]; simp)
        simp [suffixText]
        rintro rfl; revert this; decide
  have hneg : v < 0 ↔ v' < 0 := by
    rw [← (key v).1, ← (key v').1, litOf_text, litOf_text, h]
  have habs : natText v.natAbs = natText v'.natAbs := by
    by_cases hv : v < 0
    · have := (key v).2.1 hv; have h' := (key v').2.1 (hneg.mp hv)
      rw [h] at this; rw [this] at h'; exact (List.cons.inj h').2
    · have := (key v).2.2 hv; have h' := (key v').2.2 (fun x => hv (hneg.mpr x))
      rw [h] at this; rw [this] at h'; exact h'
  have : v.natAbs = v'.natAbs := by
    rw [← natText_value v.natAbs, habs, natText_value]
  omega

/-- Non-vacuity: a serializer with suffixes, and the extreme value of a type. -/
example : (Ser.init {} (some { numberSuffixes := true }) {}).Quiet ∧
    (Ser.init {} (some { numberSuffixes := true }) {}).numberSuffixes = true ∧ IntTy.InRange .i64 (-9223372036854775808) :=
  ⟨rfl, rfl, by decide⟩

end Ron
