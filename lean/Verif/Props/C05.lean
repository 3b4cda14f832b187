import Verif.Lemmas.Witness
/-!
# C05: a type suffix on an integer is binding
-/

namespace Ron

variable [Env]

/-- A literal with suffix `S` is never read at another type `T`: the result is an error, `InvalidValueForType` naming
the literal if the value fits `S`. -/
theorem C05_other_type_rejected (s : St) (l : IntLit) (r : Text) (S T : IntTy) (hs : s.rest = l.text ++ r)
    (hv : l.Valid) (hr : NoIdentStart r) (hS : l.suffix = some S) (ha : S.Avail) (hne : S ≠ T) :
    (S.InRange l.value → Fails (integer (.one T)) s (.invalidValueForType (intExpected T) l.text)) ∧
    (¬ S.InRange l.value → Fails (integer (.one T)) s .integerOutOfBounds) := by
  obtain ⟨p, hp⟩ := integer_lit (tg := .one T) hs hv hr (by intro t' h; rw [hS] at h; cases h; exact ha)
  rw [hS] at hp
  constructor
  · intro hin
    rw [if_pos (by exact hin)] at hp
    refine ⟨{ s with prev := p, rest := r }, ?_⟩
    rw [hp]
    simp only [IntTarget.tryFrom, hne, if_false, fail]
  · intro hin
    rw [if_neg (by exact hin)] at hp
    exact ⟨_, hp⟩

/-- A self-describing read of a literal with suffix `S` yields exactly type `S` and the value. -/
theorem C05_self_describing (s : St) (l : IntLit) (r : Text) (S : IntTy) (hs : s.rest = l.text ++ r)
    (hv : l.Valid) (hr : NumFollow r) (hS : l.suffix = some S) (ha : S.Avail) (hin : S.InRange l.value) :
    RunsW anyNumber s (.int S l.value) r := by
  have := anyNumber_lit hs hv hr (by intro t' h; rw [hS] at h; cases h; exact ha)
    (by rw [hS]; exact hin)
  rw [hS] at this
  exact this

/-- If a typed read succeeds then a suffix present in the text is the suffix of the target type. -/
theorem C05_accepted_suffix (s s' : St) (T t : IntTy) (v : Int) (l : IntLit) (r : Text) (hs : s.rest = l.text ++ r)
    (hv : l.Valid) (hr : NoIdentStart r) (S : IntTy) (hS : l.suffix = some S) (ha : S.Avail)
    (h : integer (.one T) s = .ok (t, v) s') : S = T := by
  by_cases hne : S = T
  · exact hne
  · have := C05_other_type_rejected s l r S T hs hv hr hS ha hne
    by_cases hin : S.InRange l.value
    · obtain ⟨_, e⟩ := this.1 hin; rw [h] at e; cases e
    · obtain ⟨_, e⟩ := this.2 hin; rw [h] at e; cases e

/-- Non-vacuity: `300u16` for the targets `u8` and `i32`. -/
example : (IntLit.mk .none .dec c!"300" (some .u16)).text = c!"300u16" ∧
    (IntLit.mk .none .dec c!"300" (some .u16)).value = 300 ∧ IntTy.InRange .u16 300 ∧ IntTy.u16 ≠ IntTy.i32 ∧
    IntTy.Avail .u16 := by
  refine ⟨rfl, by decide, by decide, by decide, ?_⟩
  intro h; rcases h with h | h <;> cases h

end Ron
