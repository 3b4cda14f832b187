import Verif.Spec.HasTy
import Verif.Spec.Fit
import Verif.Spec.Reread
/-!
# What data a type has

`Typed D n T v` is membership of data in a type, for all types of the model.
-/

namespace Ron

mutual
/-- `p` holds of all the types that `T` is built from (references are looked up elsewhere). -/
def Ty.Parts (p : Ty → Prop) : Ty → Prop
  | .newtype _ t => p t ∧ t.Parts p
  | .option t => p t ∧ t.Parts p
  | .seq t => p t ∧ t.Parts p
  | .tuple ts => PartsAll p ts
  | .tupleStruct _ ts => PartsAll p ts
  | .map k v => (p k ∧ k.Parts p) ∧ (p v ∧ v.Parts p)
  | .struct _ _ fs => PartsFields p fs
  | .enum _ vs => PartsVariants p vs
  | _ => True
def PartsAll (p : Ty → Prop) : List Ty → Prop
  | [] => True
  | t :: ts => (p t ∧ t.Parts p) ∧ PartsAll p ts
def PartsFields (p : Ty → Prop) : List (Text × Ty) → Prop
  | [] => True
  | (_, t) :: fs => (p t ∧ t.Parts p) ∧ PartsFields p fs
def PartsVariants (p : Ty → Prop) : List (Text × Variant) → Prop
  | [] => True
  | (_, v) :: vs => v.Parts p ∧ PartsVariants p vs
def Variant.Parts (p : Ty → Prop) : Variant → Prop
  | .unit => True
  | .newtype t => p t ∧ t.Parts p
  | .tuple ts => PartsAll p ts
  | .struct _ fs => PartsFields p fs
end

/-- `p` holds of `T` and of all the types it is built from. -/
def Ty.Every (p : Ty → Prop) (T : Ty) : Prop := p T ∧ T.Parts p

/-- Fields have different names, and so have variants (Rust accepts no others). -/
def Ty.Distinct : Ty → Prop
  | .struct _ _ fs => (fs.map Prod.fst).Nodup
  | .enum _ vs => (vs.map Prod.fst).Nodup ∧ ∀ e ∈ vs, ∀ d fs, e.2 = .struct d fs → (fs.map Prod.fst).Nodup
  | _ => True

variable [Env]

/-- `v` is data of type `T`, whose references are resolved by `D`; `n` bounds the depth of the derivation.  The text of a raw value is
by itself a document (for the default options). -/
def Typed (D : Nat → Ty) : Nat → Ty → SVal → Prop
  | 0, _, _ => False
  | _ + 1, .bool, v => ∃ b, v = .bool b
  | _ + 1, .int t, v => ∃ i, v = .num (.int t i) ∧ t.InRange i
  | _ + 1, .f32, v => ∃ b : F32, v = .num (.f32 b)
  | _ + 1, .f64, v => ∃ b : F64, v = .num (.f64 b)
  | _ + 1, .char, v => ∃ c, v = .char c
  | _ + 1, .str, v => ∃ t, v = .str t
  | _ + 1, .bytes, v => ∃ b, v = .bytes b
  | _ + 1, .unit, v => v = .unit
  | _ + 1, .unitStruct name, v => v = .unitStruct name
  | n + 1, .newtype name T, v => ∃ u, v = .newtypeStruct name u ∧ Typed D n T u
  | n + 1, .option T, v => v = .none ∨ ∃ u, v = .some u ∧ Typed D n T u
  | n + 1, .seq T, v => ∃ vs, v = .seq (some vs.length) vs ∧ ∀ u ∈ vs, Typed D n T u
  | n + 1, .tuple Ts, v => ∃ vs, v = .tuple vs ∧ All2 (Typed D n) Ts vs
  | n + 1, .tupleStruct name Ts, v => ∃ vs, v = .tupleStruct name vs ∧ All2 (Typed D n) Ts vs
  | n + 1, .map K V, v => ∃ kvs, v = .map (some kvs.length) kvs ∧ ∀ e ∈ kvs, Typed D n K e.1 ∧ Typed D n V e.2
  | n + 1, .struct name _ fields, v => ∃ fs, v = .struct name fs ∧ All2 (fun F f => F.1 = f.1 ∧ Typed D n F.2 f.2) fields fs
  | n + 1, .enum name variants, v => ∃ id k, (id, k) ∈ variants ∧
      match k with
      | .unit => v = .unitVariant name id
      | .newtype T => ∃ u, v = .newtypeVariant name id u ∧ Typed D n T u
      | .tuple Ts => ∃ vs, v = .tupleVariant name id vs ∧ All2 (Typed D n) Ts vs
      | .struct _ fields => ∃ fs, v = .structVariant name id fs ∧ All2 (fun F f => F.1 = f.1 ∧ Typed D n F.2 f.2) fields fs
  | n + 1, .ref i, v => Typed D n (D i) v
  | _ + 1, .value, v => ∃ V : Value, v = V.toS ∧ V.Holds Number.WF
  | _ + 1, .raw, v => ∃ t, v = .raw t ∧ ∃ V, fromStr {} deValue t = .ok V

/-- The names of a type are possible identifiers, its integer type exists in this build, and it is no `Value` or `RawValue`. -/
def Ty.Fit : Ty → Prop
  | .int t => t.Avail
  | .unitStruct name => RawName name
  | .newtype name _ => RawName name
  | .tupleStruct name _ => RawName name
  | .struct name _ fs => RawName name ∧ ∀ e ∈ fs, RawName e.1
  | .enum name vs => RawName name ∧ ∀ e ∈ vs, RawName e.1 ∧ ∀ d fs, e.2 = .struct d fs → ∀ x ∈ fs, RawName x.1
  | .value => False
  | .raw => False
  | _ => True

mutual
/-- No float is a NaN with a payload. -/
def SVal.Canon : SVal → Prop
  | .num n => n.canon = n
  | .some v => v.Canon
  | .newtypeStruct _ v => v.Canon
  | .newtypeVariant _ _ v => v.Canon
  | .seq _ vs => CanonAll vs
  | .tuple vs => CanonAll vs
  | .tupleStruct _ vs => CanonAll vs
  | .tupleVariant _ _ vs => CanonAll vs
  | .map _ kvs => CanonEntries kvs
  | .struct _ fs => CanonFields fs
  | .structVariant _ _ fs => CanonFields fs
  | _ => True
def CanonAll : List SVal → Prop
  | [] => True
  | v :: vs => v.Canon ∧ CanonAll vs
def CanonEntries : List (SVal × SVal) → Prop
  | [] => True
  | (k, v) :: kvs => (k.Canon ∧ v.Canon) ∧ CanonEntries kvs
def CanonFields : List (Text × SVal) → Prop
  | [] => True
  | (_, v) :: fs => v.Canon ∧ CanonFields fs
end

end Ron
