import Verif.Model.FieldAttrs
import Verif.Spec.Rend
import Verif.Spec.Lang
import Verif.Spec.HasTy
/-!
# Structs with attributes as text

What names a field is read by, what a text of such a struct looks like, and what value it stands for.
-/

namespace Ron

/-- The field is read under this name. -/
inductive AField.Takes (F : AField) : Text → Prop
  | name : F.skipDe = false → F.Takes F.name
  | alias {key : Text} : F.skipDe = false → key ∈ F.aliases → F.Takes key

/-- No name stands for two fields, and the fields have names of their own in Rust. -/
def Apart (fields : List AField) : Prop :=
  fields.Pairwise fun F G => F.id ≠ G.id ∧ ∀ key, F.Takes key → ¬ G.Takes key

/-- The entries of the text of a struct: a value for a field, or a value of at most `n` levels under an unknown name. -/
inductive AItem
  | field (F : AField) (v : SVal)
  | other (n : Nat)

/-- The text of an entry. -/
def FaText [Env] (x : Exts) (sfx : Bool) (fields : List AField) (e : Text) : AItem → Prop
  | .field F v => F ∈ fields ∧ ∃ key kt vt, F.Takes key ∧ NameTok key kt ∧ Rend x sfx false v vt ∧ Entry kt vt e
  | .other n => x.unwrapVariantNewtypes = false ∧ ∃ key kt vt V, (∀ F ∈ fields, ¬ F.Takes key) ∧ NameTok key kt ∧ Lang n vt V ∧ Entry kt vt e

/-- The entries have values of the types of their fields, and there are no unknown names if they are denied. -/
def FaTyped [Env] (D : Nat → Ty) (n : Nat) (deny : Bool) (its : List AItem) : Prop :=
  ∀ it ∈ its, match it with
    | .field F v => HasTy D n F.ty v
    | .other _ => deny = false

/-- The recursion budget that the value of an entry takes. -/
def AItem.levels : AItem → Nat
  | .field _ v => v.cost
  | .other n => n

/-- The Rust names of the fields that have an entry. -/
def faIds : List AItem → List Text
  | [] => []
  | .field F _ :: its => F.id :: faIds its
  | .other _ :: its => faIds its

/-- What a field without an entry is. -/
def AField.Absent (F : AField) (v : SVal) : Prop :=
  F.dflt = some v ∨ (F.dflt = none ∧ (∃ T, F.ty = .option T) ∧ v = .none)

/-- The values that the entries stand for. -/
def Stand (fields : List AField) (its : List AItem) (vs : List SVal) : Prop :=
  All2 (fun F v => AItem.field F v ∈ its ∨ (F.id ∉ faIds its ∧ F.Absent v)) fields vs

/-- What comes back of the values of the fields if those to be skipped are not written: the others must be written under a name they are
read by. -/
def Reset : List AField → List SVal → List SVal → Prop
  | [], [], [] => True
  | F :: Fs, v :: vs, u :: us => ((F.skipIf v = false ∧ F.Takes F.out ∧ u = v) ∨ (F.skipIf v = true ∧ F.Absent u)) ∧ Reset Fs vs us
  | _, _, _ => False

/-- The values of the fields that are written have the types of the fields. -/
def FaTypes [Env] (D : Nat → Ty) (n : Nat) : List AField → List SVal → Prop :=
  All2 fun F v => F.skipIf v = false → HasTy D n F.ty v

end Ron
