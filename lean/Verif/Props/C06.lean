import Verif.Lemmas.Witness
/-!
# C06: unsuffixed integers read into a `Value` get the smallest fitting type
-/

namespace Ron

variable [Env]

/-- `t` is the narrowest available type of the given signedness that holds `v`. -/
def IsSmallest (signed : Bool) (v : Int) (t : IntTy) : Prop :=
  t.Avail ∧ t.signed = signed ∧ t.InRange v ∧
  ∀ t' : IntTy, t'.Avail → t'.signed = signed → t'.InRange v → t.bits ≤ t'.bits

theorem smallestS_spec (v : Int) (h : largeS.InRange v) : IsSmallest true v (smallestS v) := by
  unfold smallestS
  unfold largeS at h
  have hr : ∀ t : IntTy, t.InRange v = (t.min ≤ v ∧ v ≤ t.max) := fun _ => rfl
  cases hi : Env.int128 <;> rw [hi] at h <;> simp only [Bool.false_eq_true, ↓reduceIte, Bool.not_false, Bool.not_true] at h ⊢
  all_goals
    split
    · refine ⟨by simp [IntTy.Avail], rfl, by assumption, ?_⟩
      intro t' _ hs _; cases t' <;> simp_all [IntTy.bits, IntTy.signed]
    split
    · refine ⟨by simp [IntTy.Avail], rfl, by assumption, ?_⟩
      intro t' _ hs _; cases t' <;> simp_all [IntTy.bits, IntTy.signed]
    split
    · refine ⟨by simp [IntTy.Avail], rfl, by assumption, ?_⟩
      intro t' _ hs _; cases t' <;> simp_all [IntTy.bits, IntTy.signed]
  · refine ⟨by simp [IntTy.Avail], rfl, h, ?_⟩
    intro t' ha hs hh; cases t' <;> simp_all [IntTy.bits, IntTy.signed, IntTy.Avail]
  split
  · refine ⟨by simp [IntTy.Avail], rfl, by assumption, ?_⟩
    intro t' ha hs hh; cases t' <;> simp_all [IntTy.bits, IntTy.signed, IntTy.Avail]
  · refine ⟨by simp [IntTy.Avail, hi], rfl, h, ?_⟩
    intro t' ha hs hh; cases t' <;> simp_all [IntTy.bits, IntTy.signed, IntTy.Avail]

theorem smallestU_spec (v : Int) (h : largeU.InRange v) : IsSmallest false v (smallestU v) := by
  unfold smallestU
  unfold largeU at h
  cases hi : Env.int128 <;> rw [hi] at h <;> simp only [Bool.false_eq_true, ↓reduceIte, Bool.not_false, Bool.not_true] at h ⊢
  all_goals
    split
    · refine ⟨by simp [IntTy.Avail], rfl, by assumption, ?_⟩
      intro t' _ hs _; cases t' <;> simp_all [IntTy.bits, IntTy.signed]
    split
    · refine ⟨by simp [IntTy.Avail], rfl, by assumption, ?_⟩
      intro t' _ hs _; cases t' <;> simp_all [IntTy.bits, IntTy.signed]
    split
    · refine ⟨by simp [IntTy.Avail], rfl, by assumption, ?_⟩
      intro t' _ hs _; cases t' <;> simp_all [IntTy.bits, IntTy.signed]
  · refine ⟨by simp [IntTy.Avail], rfl, h, ?_⟩
    intro t' ha hs hh; cases t' <;> simp_all [IntTy.bits, IntTy.signed, IntTy.Avail]
  split
  · refine ⟨by simp [IntTy.Avail], rfl, by assumption, ?_⟩
    intro t' ha hs hh; cases t' <;> simp_all [IntTy.bits, IntTy.signed, IntTy.Avail]
  · refine ⟨by simp [IntTy.Avail, hi], rfl, h, ?_⟩
    intro t' ha hs hh; cases t' <;> simp_all [IntTy.bits, IntTy.signed, IntTy.Avail]

/-- A self-describing read of an unsuffixed literal gives the exact value in the narrowest type that holds it: signed
if the literal has a minus sign, unsigned otherwise.  The hypothesis says that some available type holds it. -/
theorem C06_smallest_type (s : St) (l : IntLit) (r : Text) (hs : s.rest = l.text ++ r) (hv : l.Valid)
    (hr : NumFollow r) (hn : l.suffix = none)
    (hin : ∃ t : IntTy, t.Avail ∧ t.signed = decide (l.sign = .minus) ∧ t.InRange l.value) :
    ∃ t, IsSmallest (decide (l.sign = .minus)) l.value t ∧ RunsW anyNumber s (.int t l.value) r := by
  obtain ⟨t0, h1, h2, h3⟩ := hin
  have hin' : (litType .any (decide (l.sign = .minus)) l.suffix).InRange l.value := by
    rw [hn]
    unfold litType intTypeOf largeS largeU
    simp only [Option.getD_none]
    cases hm : decide (l.sign = .minus) <;> rw [hm] at h2 <;> cases hi : Env.int128 <;>
      cases t0 <;> simp_all [IntTy.Avail, IntTy.signed, IntTy.InRange, IntTy.min, IntTy.max, IntTy.bits] <;> omega
  have h := anyNumber_lit hs hv hr (by intro t' h; rw [hn] at h; cases h) hin'
  rw [hn] at h hin'
  by_cases hm : l.sign = .minus
  · simp only [hm, decide_true, litType, intTypeOf, Option.getD_none, ↓reduceIte] at hin' h ⊢
    exact ⟨_, smallestS_spec _ hin', h⟩
  · simp only [hm, decide_false, litType, intTypeOf, Option.getD_none, Bool.false_eq_true, ↓reduceIte] at hin' h ⊢
    exact ⟨_, smallestU_spec _ hin', h⟩

/-- The narrowest type is unique. -/
theorem C06_unique (signed : Bool) (v : Int) (t t' : IntTy) (h : IsSmallest signed v t) (h' : IsSmallest signed v t') :
    t = t' := by
  obtain ⟨a1, a2, a3, a4⟩ := h
  obtain ⟨b1, b2, b3, b4⟩ := h'
  have h1 := a4 t' b1 b2 b3
  have h2 := b4 t a1 a2 a3
  cases signed <;> cases t <;> cases t' <;> simp_all [IntTy.bits, IntTy.signed]

/-- Non-vacuity: 256 and -129 need 16 bits, in a list. -/
example : IsSmallest false 256 .u16 ∧ IsSmallest true (-129) .i16 ∧ NumFollow c!", 1" := by
  refine ⟨⟨by simp [IntTy.Avail], rfl, by decide, ?_⟩, ⟨by simp [IntTy.Avail], rfl, by decide, ?_⟩, ?_⟩
  · intro t ha hs hr; cases t <;> first | (exfalso; revert hr; decide) | (cases hs; done) | decide
  · intro t ha hs hr; cases t <;> first | (exfalso; revert hr; decide) | (cases hs; done) | decide
  · refine ⟨?_, ?_⟩
    · intro c r h; cases h; rw [Env.xidCont_ascii _ (by decide)]; decide
    · intro c r h; cases h; simp

end Ron
