import Verif.Lemmas.FloatSer
import Verif.Lemmas.Witness
/-!
# C42: floats survive serialization and deserialization
-/

namespace Ron

variable [Env]

omit [Env] in
/-- `canon` only identifies NaNs of the same sign. -/
theorem F32.canon_spec (b : F32) : (b.isNan = false → b.canon = b) ∧
    (b.isNan = true → b.canon.isNan = true ∧ b.canon.isNeg = b.isNeg) := by
  refine ⟨fun h => by simp [F32.canon, h], fun h => ?_⟩
  cases hs : b.isNeg <;> simp [F32.canon, h, hs] <;> decide

omit [Env] in
theorem F64.canon_spec (b : F64) : (b.isNan = false → b.canon = b) ∧
    (b.isNan = true → b.canon.isNan = true ∧ b.canon.isNeg = b.isNeg) := by
  refine ⟨fun h => by simp [F64.canon, h], fun h => ?_⟩
  cases hs : b.isNeg <;> simp [F64.canon, h, hs] <;> decide

/-- Every `f32` that is not a NaN, including zeros of both signs, subnormals and infinities, comes back bit by bit, with or without
number suffixes, and exactly the written text is consumed. -/
theorem C42_f32 (s : Ser) (hq : s.Quiet) (b : F32) (hb : b.isNan = false) :
    ∃ w, Emits (ser (.num (.f32 b))) s w ∧
      ∀ (d : St) (r : Text), d.rest = w ++ r → NumFollow r → RunsW (float .f32) d (.f32 b) r := by
  refine ⟨f32Text b ++ (if s.numberSuffixes then floatSuffix true else []), ⟨_, by rw [ser, serNumber, serF32_quiet hq], rfl⟩, ?_⟩
  intro d r hd hr
  have := float_read32 b s.numberSuffixes (s := d) (r := r) (by rw [hd]; simp) hr
  rwa [(F32.canon_spec b).1 hb] at this

/-- A NaN comes back as a NaN of the same sign. -/
theorem C42_f32_nan (s : Ser) (hq : s.Quiet) (b : F32) (hb : b.isNan = true) :
    ∃ w b', Emits (ser (.num (.f32 b))) s w ∧ b'.isNan = true ∧ b'.isNeg = b.isNeg ∧
      ∀ (d : St) (r : Text), d.rest = w ++ r → NumFollow r → RunsW (float .f32) d (.f32 b') r := by
  refine ⟨f32Text b ++ (if s.numberSuffixes then floatSuffix true else []), b.canon,
    ⟨_, by rw [ser, serNumber, serF32_quiet hq], rfl⟩, ((F32.canon_spec b).2 hb).1, ((F32.canon_spec b).2 hb).2, ?_⟩
  intro d r hd hr
  exact float_read32 b s.numberSuffixes (s := d) (r := r) (by rw [hd]; simp) hr

theorem C42_f64 (s : Ser) (hq : s.Quiet) (b : F64) (hb : b.isNan = false) :
    ∃ w, Emits (ser (.num (.f64 b))) s w ∧
      ∀ (d : St) (r : Text), d.rest = w ++ r → NumFollow r → RunsW (float .f64) d (.f64 b) r := by
  refine ⟨f64Text b ++ (if s.numberSuffixes then floatSuffix false else []), ⟨_, by rw [ser, serNumber, serF64_quiet hq], rfl⟩, ?_⟩
  intro d r hd hr
  have := float_read64 b s.numberSuffixes (s := d) (r := r) (by rw [hd]; simp) hr
  rwa [(F64.canon_spec b).1 hb] at this

theorem C42_f64_nan (s : Ser) (hq : s.Quiet) (b : F64) (hb : b.isNan = true) :
    ∃ w b', Emits (ser (.num (.f64 b))) s w ∧ b'.isNan = true ∧ b'.isNeg = b.isNeg ∧
      ∀ (d : St) (r : Text), d.rest = w ++ r → NumFollow r → RunsW (float .f64) d (.f64 b') r := by
  refine ⟨f64Text b ++ (if s.numberSuffixes then floatSuffix false else []), b.canon,
    ⟨_, by rw [ser, serNumber, serF64_quiet hq], rfl⟩, ((F64.canon_spec b).2 hb).1, ((F64.canon_spec b).2 hb).2, ?_⟩
  intro d r hd hr
  exact float_read64 b s.numberSuffixes (s := d) (r := r) (by rw [hd]; simp) hr

/-- With number suffixes a float read in untyped position keeps its type and its bits. -/
theorem C42_untyped_suffix (s : Ser) (hq : s.Quiet) (hs : s.numberSuffixes = true) (n : Number)
    (hn : ∃ b : F32, n = .f32 b ∧ b.isNan = false ∨ ∃ b : F64, n = .f64 b ∧ b.isNan = false) :
    ∃ w, Emits (ser (.num n)) s w ∧
      ∀ (d : St) (r : Text), d.rest = w ++ r → NumFollow r → RunsW anyNumber d n r := by
  refine ⟨n.text true, ⟨_, by rw [ser, serNumber_quiet hq, hs], rfl⟩, ?_⟩
  intro d r hd hr
  have := anyNumber_read n true (by obtain ⟨b, h | ⟨b, h⟩⟩ := hn <;> rw [h.1] <;> trivial) hd hr
  obtain ⟨b, h | ⟨b, h⟩⟩ := hn
  · rw [h.1] at this ⊢; simpa [Number.canon, (F32.canon_spec b).1 h.2] using this
  · rw [h.1] at this ⊢; simpa [Number.canon, (F64.canon_spec b).1 h.2] using this

/-- Non-vacuity: negative zero, the smallest subnormal and infinity are not NaNs; a NaN exists; a follow exists. -/
example : F32.isNan 0x80000000#32 = false ∧ F32.isNan 1#32 = false ∧ F64.isNan F64.inf = false ∧ F64.isNan F64.negNan = true ∧
    (Ser.init {} (some { numberSuffixes := true }) {}).Quiet ∧ @NumFollow (asciiEnv true false) c!", 1]" := by
  refine ⟨by decide, by decide, by decide, by decide, rfl, ?_⟩
  refine ⟨?_, ?_⟩ <;> intro c r h <;> cases h
  · decide
  · exact .inl (by decide)

end Ron
