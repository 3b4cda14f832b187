import Verif.Lemmas.ValueOrd
import Verif.Lemmas.ValueHash
/-!
# C27: Numbers and Values are totally ordered and Eq/Ord/Hash agree
-/
set_option linter.unusedSimpArgs false

namespace Ron

/-- The laws of Rust's `Ord` and `Eq` traits for a comparison `cmp` and an equality `eq`. -/
structure LawfulOrd {α : Type} (cmp : α → α → Ordering) (eq : α → α → Bool) : Prop where
  refl : ∀ a, cmp a a = .eq
  oriented : ∀ a b, cmp b a = (cmp a b).swap
  transLe : ∀ a b c, cmp a b ≠ .gt → cmp b c ≠ .gt → cmp a c ≠ .gt
  transLt : ∀ a b c, cmp a b = .lt → cmp b c = .lt → cmp a c = .lt
  eqCmp : ∀ a b, eq a b = true ↔ cmp a b = .eq
  identical : ∀ a b, cmp a b = .eq ↔ a = b

theorem lawfulOrd_of {α : Type} {cmp : α → α → Ordering} {eq : α → α → Bool} (h1 : ∀ a b, cmp a b = .eq ↔ a = b)
    (h2 : ∀ a b, cmp b a = (cmp a b).swap) (h3 : ∀ a b c, cmp a b ≠ .gt → cmp b c ≠ .gt → cmp a c ≠ .gt)
    (h4 : ∀ a b, eq a b = true ↔ a = b) : LawfulOrd cmp eq where
  refl a := (h1 a a).2 rfl
  oriented := h2
  transLe := h3
  transLt a b c ha hb := by
    have := h3 a b c (by simp [ha]) (by simp [hb])
    cases h : cmp a c with
    | lt => rfl
    | gt => exact absurd h this
    | eq =>
      have := (h1 _ _).1 h; subst this
      rw [h2, ha] at hb; simp [Ordering.swap] at hb
  eqCmp a b := (h4 a b).trans (h1 a b).symm
  identical := h1

/-- `Number` is totally ordered; `==` holds exactly when `cmp` is `Equal`, which holds only for identical numbers (the
same variant and the same integer or float bits, so it includes NaNs and tells the zeros apart). -/
theorem C27_number_order : LawfulOrd Number.cmp Number.eqv :=
  lawfulOrd_of Number.cmp_eq_iff Number.cmp_swap Number.cmp_trans Number.eqv_iff

/-- `Value` is totally ordered; `==` holds exactly when `cmp` is `Equal`. -/
theorem C27_value_order : LawfulOrd Value.cmp Value.eqv :=
  lawfulOrd_of Value.cmp_eq_iff Value.cmp_swap Value.cmp_trans Value.eqv_iff

/-- `Map` is totally ordered; `==` holds exactly when `cmp` is `Equal`. -/
theorem C27_map_order : LawfulOrd cmpEntries (fun a b => (cmpEntries a b).isEq) := by
  have e : ∀ a b : List (Value × Value), cmpEntries a b = (Value.map a).cmp (.map b) := fun a b => by rw [Value.cmp]
  refine lawfulOrd_of (fun a b => ?_) (fun a b => ?_) (fun a b c => ?_) (fun a b => ?_)
  · rw [e, Value.cmp_eq_iff]; simp
  · rw [e, e, Value.cmp_swap]
  · rw [e, e, e]; exact Value.cmp_trans _ _ _
  · rw [e, Ordering.isEq_iff_eq_eq, Value.cmp_eq_iff]; simp

/-- Equal numbers, values and maps make the same calls on the hasher. -/
theorem C27_hash (a b : Number) (v w : Value) (m n : List (Value × Value)) :
    (a.eqv b = true → a.hash = b.hash) ∧ (v.eqv w = true → v.hash = w.hash) ∧
    ((cmpEntries m n).isEq = true → hashEntries m = hashEntries n) := by
  refine ⟨fun h => by rw [(Number.eqv_iff a b).1 h], fun h => by rw [Value.eqv_eq h], fun h => ?_⟩
  rw [(C27_map_order.identical m n).1 (Ordering.isEq_iff_eq_eq.1 h)]

/-- Different numbers, different values without maps, and different maps of such values make different calls on the hasher. -/
theorem C27_hash_distinct (a b : Number) (v w : Value) (hv : v.mapFree) (hw : w.mapFree) (m n : List (Value × Value))
    (hm : ∀ e ∈ m, e.1.mapFree ∧ e.2.mapFree) (hn : ∀ e ∈ n, e.1.mapFree ∧ e.2.mapFree) :
    (a.hash = b.hash → a.eqv b = true) ∧ (v.hash = w.hash → v.eqv w = true) ∧
    ((Value.map m).hash = (Value.map n).hash → (Value.map m).eqv (.map n) = true) := by
  have hf : HashFresh [] := fun c r' h => nomatch h
  refine ⟨fun h => ?_, fun h => ?_, fun h => ?_⟩
  · exact (Number.eqv_iff a b).2 (Number.hash_inj (r := []) (r' := []) (by simpa using h)).1
  · exact (Value.eqv_iff v w).2 (Value.hash_inj hv hw hf hf (by simpa using h)).1
  · refine (Value.eqv_iff _ _).2 ?_
    rw [Value.hash, Value.hash] at h
    rw [hashEntries_inj hm hn (List.cons.inj h).2]

/-- Not so for maps in maps, whose length is not hashed: `{{}: true, "b": ()}` and `{{true: "b"}: ()}` always collide. -/
theorem C27_maps_collide : ∃ v w : Value, v.eqv w = false ∧ v.hash = w.hash :=
  ⟨.map [(.map [], .bool true), (.str c!"b", .unit)], .map [(.map [(.bool true, .str c!"b")], .unit)], by decide, by decide⟩

/-- Non-vacuity of `C27_hash_distinct`: a nested value. -/
example : (Value.seq [.some (.str c!"a"), .seq [.unit, .num (.int .i8 (-1))]]).mapFree := by
  simp [Value.mapFree, valuesMapFree]

theorem signed_compare (M x y : Nat) (hx : x < 2 * M) (hy : y < 2 * M) :
    (compare (if x < M then (x : Int) else -1 - ((x - M : Nat) : Int)) (if y < M then (y : Int) else -1 - ((y - M : Nat) : Int))) =
      if (decide (x ≥ M) = decide (y ≥ M)) then
        (if x ≥ M then compare (y % M) (x % M) else compare (x % M) (y % M))
      else if x ≥ M then .lt else .gt := by
  have hm : ∀ z, z < 2 * M → z % M = if z < M then z else z - M := by
    intro z hz
    split
    · exact Nat.mod_eq_of_lt (by omega)
    · rw [Nat.mod_eq_sub_mod (by omega), Nat.mod_eq_of_lt (by omega)]
  rw [hm x hx, hm y hy]
  simp only [compare_int, compare_nat]
  by_cases h1 : x < M <;> by_cases h2 : y < M <;> simp [h1, h2] <;>
    (repeat' split) <;> first | rfl | omega

/-- The order of `f32`: negative numbers come before positive ones; two positive numbers compare by their bits
(exponent before mantissa), two negative ones the other way round.  So `-NaN < -inf < -1 < -0 < 0 < 1 < inf < NaN`. -/
theorem C27_f32_total_order (a b : F32) :
    (Number.f32 a).cmp (.f32 b) =
      if a.isNeg = b.isNeg then
        (if a.isNeg then compare (b.toNat % 2 ^ 31) (a.toNat % 2 ^ 31) else compare (a.toNat % 2 ^ 31) (b.toNat % 2 ^ 31))
      else if a.isNeg then .lt else .gt := by
  have ha := a.isLt; have hb := b.isLt
  have := signed_compare (2 ^ 31) a.toNat b.toNat (by omega) (by omega)
  simp only [Number.cmp, Number.rank, compare_nat 10 10, compare_nat 11 11, Nat.lt_irrefl, if_false, if_true, F32.totalKey, F32.isNeg,
    decide_eq_true_eq]
  exact this

/-- The order of `f64`, in the same words. -/
theorem C27_f64_total_order (a b : F64) :
    (Number.f64 a).cmp (.f64 b) =
      if a.isNeg = b.isNeg then
        (if a.isNeg then compare (b.toNat % 2 ^ 63) (a.toNat % 2 ^ 63) else compare (a.toNat % 2 ^ 63) (b.toNat % 2 ^ 63))
      else if a.isNeg then .lt else .gt := by
  have ha := a.isLt; have hb := b.isLt
  have := signed_compare (2 ^ 63) a.toNat b.toNat (by omega) (by omega)
  simp only [Number.cmp, Number.rank, compare_nat 10 10, compare_nat 11 11, Nat.lt_irrefl, if_false, if_true, F64.totalKey, F64.isNeg,
    decide_eq_true_eq]
  exact this

/-- Integers of one type compare by value, sequences lexicographically, options with `None` first, and values of
different kinds in the order Bool, Char, Map, Number, Option, String, Bytes, Seq, Unit. -/
theorem C27_structure (t : IntTy) (x y : Int) (v w : Value) (as bs : List Value) (c : Bool) (ch : Char)
    (m : List (Value × Value)) (n : Number) (s : Text) (b : List UInt8) :
    (Number.int t x).cmp (.int t y) = compare x y ∧
    (Value.seq (v :: as)).cmp (.seq (w :: bs)) = (v.cmp w).then ((Value.seq as).cmp (.seq bs)) ∧
    (Value.seq []).cmp (.seq (w :: bs)) = .lt ∧
    Value.none.cmp (.some v) = .lt ∧ (Value.some v).cmp (.some w) = v.cmp w ∧
    [Value.bool c, .char ch, .map m, .num n, .some v, .str s, .bytes b, .seq as, .unit].Pairwise (·.cmp · = .lt) := by
  refine ⟨by cases t <;> rfl, ?_, ?_, ?_, ?_, ?_⟩ <;> simp [Number.cmp, Value.cmp, cmpValues, Value.rank, compare_nat]

/-- Non-vacuity: NaN is equal to itself, the zeros differ, and `-0 < 0 < NaN`. -/
example : (Number.f32 F32.nan).eqv (.f32 F32.nan) = true ∧ (Number.f32 0#32).eqv (.f32 0x80000000#32) = false ∧
    (Number.f32 0x80000000#32).cmp (.f32 0#32) = .lt ∧ (Number.f32 0#32).cmp (.f32 F32.nan) = .lt ∧
    (Value.seq [.unit, .num (.int .u8 3)]).cmp (.seq [.unit, .num (.int .u8 4)]) = .lt := by decide

end Ron
