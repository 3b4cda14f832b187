import Verif.Spec.Ron
import Verif.Model.De
/-!
# Specification of typed data

`HasTy D n T v`: the data `v` belongs to the type `T`, whose references are resolved by `D`; `n` bounds the depth of the
derivation.  Covered are all types of the serde data model except `Value` and `RawValue` (they have properties of their own).
-/

namespace Ron

variable [Env]

/-- `v` has type `T`. -/
def HasTy (D : Nat → Ty) : Nat → Ty → SVal → Prop
  | 0, _, _ => False
  | _ + 1, .bool, v => ∃ b, v = .bool b
  | _ + 1, .int t, v => ∃ i, v = .num (.int t i) ∧ t.Avail ∧ t.InRange i
  | _ + 1, .f32, v => ∃ b : F32, v = .num (.f32 b) ∧ b.canon = b
  | _ + 1, .f64, v => ∃ b : F64, v = .num (.f64 b) ∧ b.canon = b
  | _ + 1, .char, v => ∃ c, v = .char c
  | _ + 1, .str, v => ∃ t, v = .str t
  | _ + 1, .bytes, v => ∃ b, v = .bytes b
  | _ + 1, .unit, v => v = .unit
  | _ + 1, .unitStruct name, v => v = .unitStruct name
  | n + 1, .newtype name T, v => ∃ u, v = .newtypeStruct name u ∧ HasTy D n T u
  | n + 1, .option T, v => v = .none ∨ ∃ u, v = .some u ∧ HasTy D n T u
  | n + 1, .seq T, v => ∃ vs, v = .seq (some vs.length) vs ∧ ∀ u ∈ vs, HasTy D n T u
  | n + 1, .tuple Ts, v => ∃ vs, v = .tuple vs ∧ All2 (HasTy D n) Ts vs
  | n + 1, .tupleStruct name Ts, v => ∃ vs, v = .tupleStruct name vs ∧ All2 (HasTy D n) Ts vs
  | n + 1, .map K V, v => ∃ kvs, v = .map (some kvs.length) kvs ∧ ∀ e ∈ kvs, HasTy D n K e.1 ∧ HasTy D n V e.2
  | n + 1, .struct name _ fields, v => ∃ fs, v = .struct name fs ∧ (fields.map Prod.fst).Nodup ∧
      All2 (fun F f => F.1 = f.1 ∧ HasTy D n F.2 f.2) fields fs
  | n + 1, .enum name variants, v => ∃ id k, (id, k) ∈ variants ∧ (variants.map Prod.fst).Nodup ∧
      match k with
      | .unit => v = .unitVariant name id
      | .newtype T => ∃ u, v = .newtypeVariant name id u ∧ HasTy D n T u
      | .tuple Ts => ∃ vs, v = .tupleVariant name id vs ∧ All2 (HasTy D n) Ts vs
      | .struct _ fields => ∃ fs, v = .structVariant name id fs ∧ (fields.map Prod.fst).Nodup ∧
          All2 (fun F f => F.1 = f.1 ∧ HasTy D n F.2 f.2) fields fs
  | n + 1, .ref i, v => HasTy D n (D i) v
  | _ + 1, .value, _ => False
  | _ + 1, .raw, _ => False

mutual
/-- The recursion budget that reading data as its own type needs: one level for the content of an option or a newtype, one for
a compound value and one more for its items, and one for an enum with one more for the name of its variant. -/
def SVal.cost : SVal → Nat
  | .some v => v.cost + 1
  | .newtypeStruct _ v => v.cost + 1
  | .unitVariant _ _ => 2
  | .newtypeVariant _ _ v => v.cost + 2
  | .seq _ vs => costAll vs + 1
  | .tuple vs => costAll vs + 1
  | .tupleStruct _ vs => costAll vs + 1
  | .tupleVariant _ _ vs => costAll vs + 2
  | .map _ kvs => costEntries kvs + 1
  | .struct _ fs => costFields fs + 1
  | .structVariant _ _ fs => costFields fs + 2
  | _ => 0
/-- Items. -/
def costAll : List SVal → Nat
  | [] => 0
  | v :: vs => max (v.cost + 1) (costAll vs)
/-- Map entries. -/
def costEntries : List (SVal × SVal) → Nat
  | [] => 0
  | (k, v) :: kvs => max (max k.cost v.cost + 1) (costEntries kvs)
/-- Struct fields. -/
def costFields : List (Text × SVal) → Nat
  | [] => 0
  | (_, v) :: fs => max (v.cost + 1) (costFields fs)
end

end Ron
