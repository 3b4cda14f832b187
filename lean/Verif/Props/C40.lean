import Verif.Lemmas.Float
import Verif.Lemmas.Witness
/-!
# C40: float literals are passed to the standard parser without underscores

`float .f32`, `float .f64` and `float .any` are the readers of `f32`, `f64` and of a float in untyped position.  `FloatRun t r`
says that `t` is the literal at the front of `t ++ r`.
-/

set_option linter.unusedSimpArgs false

namespace Ron

variable [Env]

/-- What the standard library parser makes of a text at a float type. -/
def stdFloat (tg : FloatTarget) (t : Text) : Option Number :=
  match tg with
  | .f32 => (Env.parse32 t).map .f32
  | .f64 => (Env.parse64 t).map .f64
  | .any => (Env.parse64 t).map fun b => if Env.widen (Env.narrow b) = b then .f32 (Env.narrow b) else .f64 b

/-- A literal with underscores in allowed places denotes what the standard parser makes of it without underscores. -/
theorem C40_value (tg : FloatTarget) (s : St) (t r : Text) (hs : s.rest = t ++ r) (h : FloatRun t r) (hu : UnderscoresOk t)
    (hf : ∀ r', r ≠ 'f' :: r') :
    (∀ v, stdFloat tg (plainFloat t) = some v → RunsW (float tg) s v r) ∧
    (stdFloat tg (plainFloat t) = none → Fails (float tg) s .expectedFloat) := by
  have key := float_plain tg hs h hu hf
  cases tg with
  | f32 =>
    simp only [stdFloat, FloatTarget.parse] at key ⊢
    cases hp : Env.parse32 (plainFloat t) with
    | none => rw [hp] at key; exact ⟨by simp, fun _ => ⟨_, key⟩⟩
    | some b =>
      rw [hp] at key
      refine ⟨?_, by simp⟩
      intro v hv; simp at hv; subst hv
      exact ⟨_, key, rfl, .step _ _ _⟩
  | f64 =>
    simp only [stdFloat, FloatTarget.parse] at key ⊢
    cases hp : Env.parse64 (plainFloat t) with
    | none => rw [hp] at key; exact ⟨by simp, fun _ => ⟨_, key⟩⟩
    | some b =>
      rw [hp] at key
      refine ⟨?_, by simp⟩
      intro v hv; simp at hv; subst hv
      exact ⟨_, key, rfl, .step _ _ _⟩
  | any =>
    simp only [stdFloat, FloatTarget.parse] at key ⊢
    cases hp : Env.parse64 (plainFloat t) with
    | none => rw [hp] at key; exact ⟨by simp, fun _ => ⟨_, key⟩⟩
    | some b =>
      rw [hp] at key
      refine ⟨?_, by simp⟩
      intro v hv
      simp only [Option.map_some, Option.some.injEq] at hv
      refine ⟨{ s with prev := s.rest, rest := r }, ?_, rfl, .step _ _ _⟩
      rw [key, ← hv]
      by_cases hw : Env.widen (Env.narrow b) = b <;> simp [hw]

/-- Two literals that differ only in underscores denote the same number. -/
theorem C40_underscores_ignored (tg : FloatTarget) (s s' : St) (t t' r r' : Text) (hs : s.rest = t ++ r) (hs' : s'.rest = t' ++ r')
    (h : FloatRun t r) (h' : FloatRun t' r') (hu : UnderscoresOk t) (hu' : UnderscoresOk t')
    (hf : ∀ q, r ≠ 'f' :: q) (hf' : ∀ q, r' ≠ 'f' :: q) (he : plainFloat t = plainFloat t') (v : Number) :
    RunsW (float tg) s v r ↔ RunsW (float tg) s' v r' := by
  have key := C40_value tg s t r hs h hu hf
  have key' := C40_value tg s' t' r' hs' h' hu' hf'
  rw [← he] at key'
  cases hp : stdFloat tg (plainFloat t) with
  | none =>
    obtain ⟨x, hx⟩ := key.2 hp
    obtain ⟨x', hx'⟩ := key'.2 hp
    constructor
    · rintro ⟨y, hy, -⟩; rw [hx] at hy; cases hy
    · rintro ⟨y, hy, -⟩; rw [hx'] at hy; cases hy
  | some w =>
    obtain ⟨x, hx, hx2⟩ := key.1 w hp
    obtain ⟨x', hx', hx2'⟩ := key'.1 w hp
    constructor
    · rintro ⟨y, hy, -⟩; rw [hx] at hy; cases hy; exact ⟨x', hx', hx2'⟩
    · rintro ⟨y, hy, -⟩; rw [hx'] at hy; cases hy; exact ⟨x, hx, hx2⟩

/-- A literal with an underscore at the beginning, or after the point or a sign without a digit in between, is rejected. -/
theorem C40_misplaced_underscore (tg : FloatTarget) (s : St) (t r : Text) (hs : s.rest = t ++ r) (h : FloatRun t r)
    (hu : ¬ UnderscoresOk t) : Fails (float tg) s .underscoreAtBeginning ∨ Fails (float tg) s .floatUnderscore := by
  obtain ⟨e, s', h1, h2⟩ := float_underscore tg hs h hu
  rcases h2 with rfl | rfl
  · exact .inl ⟨_, h1⟩
  · exact .inr ⟨_, h1⟩

/-- A literal with the suffix `f32` or `f64` is read as a number of that type. -/
theorem C40_suffix_value (tg : FloatTarget) (is32 : Bool) (s : St) (t r : Text) (hs : s.rest = t ++ ((if is32 then c!"f32" else c!"f64") ++ r))
    (h : FloatRun t ((if is32 then c!"f32" else c!"f64") ++ r)) (hu : UnderscoresOk t) (hr : NoIdentStart r)
    (ht : tg = .any ∨ tg = (if is32 then .f32 else .f64)) :
    (∀ v, stdFloat (if is32 then .f32 else .f64) (plainFloat t) = some v → RunsW (float tg) s v r) ∧
    (stdFloat (if is32 then .f32 else .f64) (plainFloat t) = none → Fails (float tg) s .expectedFloat) := by
  obtain ⟨s', h1, h2, h3⟩ := float_suffixed (is32 := is32) tg hs h hu hr
  cases is32 with
  | true =>
    simp only [↓reduceIte, stdFloat] at h3 ⊢
    cases hp : Env.parse32 (plainFloat t) with
    | none => rw [hp] at h3; exact ⟨by simp, fun _ => h3⟩
    | some b =>
      rw [hp] at h3
      refine ⟨?_, by simp⟩
      intro v hv; simp at hv; subst hv
      refine ⟨s', ?_, h1, h2⟩
      rcases ht with rfl | rfl <;> exact h3
  | false =>
    simp only [Bool.false_eq_true, ↓reduceIte, stdFloat] at h3 ⊢
    cases hp : Env.parse64 (plainFloat t) with
    | none => rw [hp] at h3; exact ⟨by simp, fun _ => h3⟩
    | some b =>
      rw [hp] at h3
      refine ⟨?_, by simp⟩
      intro v hv; simp at hv; subst hv
      refine ⟨s', ?_, h1, h2⟩
      rcases ht with rfl | rfl <;> exact h3

/-- A literal with a suffix is never accepted at the other float type. -/
theorem C40_suffix_binding (is32 : Bool) (s : St) (t r : Text) (hs : s.rest = t ++ ((if is32 then c!"f32" else c!"f64") ++ r))
    (h : FloatRun t ((if is32 then c!"f32" else c!"f64") ++ r)) (hu : UnderscoresOk t) (hr : NoIdentStart r) :
    ∃ e, Fails (float (if is32 then .f64 else .f32)) s e := by
  obtain ⟨s', h1, h2, h3⟩ := float_suffixed (is32 := is32) (if is32 then .f64 else .f32) hs h hu hr
  cases is32 with
  | true =>
    simp only [↓reduceIte] at h3 ⊢
    cases hp : Env.parse32 (plainFloat t) with
    | none => rw [hp] at h3; exact ⟨_, h3⟩
    | some b => rw [hp] at h3; exact ⟨_, _, h3⟩
  | false =>
    simp only [Bool.false_eq_true, ↓reduceIte] at h3 ⊢
    cases hp : Env.parse64 (plainFloat t) with
    | none => rw [hp] at h3; exact ⟨_, h3⟩
    | some b => rw [hp] at h3; exact ⟨_, _, h3⟩

/-- Non-vacuity: `1_0.5_e3` before a comma is such a literal and equals `10.5e3`. -/
example : FloatRun c!"1_0.5_e3" c!"," ∧ UnderscoresOk c!"1_0.5_e3" ∧ plainFloat c!"1_0.5_e3" = c!"10.5e3" := by
  refine ⟨⟨by decide, by decide, by decide, by decide, ?_, .inl ?_⟩, ?_, by decide⟩
  · rintro ⟨p, q, h⟩
    have := congrArg (fun l => (l.drop p.length).take 2) h
    simp at this
    have hl := congrArg List.length h
    simp at hl
    have hp : p.length ≤ 6 := by omega
    generalize p.length = n at this hp
    have : n = 0 ∨ n = 1 ∨ n = 2 ∨ n = 3 ∨ n = 4 ∨ n = 5 ∨ n = 6 := by omega
    rcases this with rfl | rfl | rfl | rfl | rfl | rfl | rfl <;> simp at *
  · intro c r' h; cases h; decide
  · intro p q h
    have hl := congrArg List.length h
    have h2 := congrArg (fun l => l.drop p.length) h
    have h3 := congrArg (fun l => l.take p.length) h
    simp at h2 hl h3
    have hp : p.length ≤ 7 := by omega
    have : p.length = 0 ∨ p.length = 1 ∨ p.length = 2 ∨ p.length = 3 ∨ p.length = 4 ∨ p.length = 5 ∨ p.length = 6 ∨ p.length = 7 := by omega
    rcases this with h | h | h | h | h | h | h | h <;> rw [h] at h2 h3 <;> simp at h2 h3
    · exact ⟨[], '1', [], h3.symm, by decide, by decide⟩
    · exact ⟨c!"1_0.", '5', [], h3.symm, by decide, by decide⟩

/-- Non-vacuity: `1._5` has a misplaced underscore. -/
example : ¬ UnderscoresOk c!"1._5" := by
  intro h
  obtain ⟨p1, c, p2, h1, h2, h3⟩ := h c!"1." c!"5" rfl
  cases p1 with
  | nil => simp at h1; rw [← h1.2] at h3; simp at h3
  | cons x p1 =>
    cases p1 with
    | nil => simp at h1; rw [← h1.2.1] at h2; revert h2; decide
    | cons y p1 => simp at h1

end Ron
