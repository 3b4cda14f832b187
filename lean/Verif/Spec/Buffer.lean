import Verif.Spec.Content
import Verif.Spec.Range
import Verif.Spec.HasTy
/-!
# Data in serde's buffer

Which data survive being written, buffered as `Content` and read from there, and as what they are buffered.
-/

namespace Ron

variable [Env]

/-- What `Some` around content is buffered as if `Some` is not written (`implicit_some`): it is gone, except around an option. -/
def Content.inSome : Content → Content
  | .none => .some .none
  | .some c => .some (.some c)
  | c => c

mutual
/-- What the data, written under the extensions `x`, are buffered as.  Names of structs are lost, names of variants are kept; numbers lose
their type. -/
def SVal.content (x : Exts) : SVal → Content
  | .bool b => .bool b
  | .num n => .num n.untyped
  | .char c => .char c
  | .str t => .str t
  | .bytes b => .bytes b
  | .none => .none
  | .some v => if x.implicitSome then (v.content x).inSome else .some (v.content x)
  | .unit => .unit
  | .unitStruct _ => .unit
  | .unitVariant _ m => .str m
  | .newtypeStruct _ v => v.content x
  | .newtypeVariant _ m v => .map [(.str m, v.content x)]
  | .seq _ vs => .seq (contents x vs)
  | .tuple vs => .seq (contents x vs)
  | .tupleStruct _ vs => .seq (contents x vs)
  | .tupleVariant _ m vs => .map [(.str m, .seq (contents x vs))]
  | .map _ kvs => .map (contentEntries x kvs)
  | .struct _ fs => .map (contentFieldsOf x fs)
  | .structVariant _ m fs => .map [(.str m, .map (contentFieldsOf x fs))]
  | .raw t => .str t
/-- Elements. -/
def contents (x : Exts) : List SVal → List Content
  | [] => []
  | v :: vs => v.content x :: contents x vs
/-- Entries. -/
def contentEntries (x : Exts) : List (SVal × SVal) → List (Content × Content)
  | [] => []
  | (k, v) :: kvs => (k.content x, v.content x) :: contentEntries x kvs
/-- Fields. -/
def contentFieldsOf (x : Exts) : List (Text × SVal) → List (Content × Content)
  | [] => []
  | (k, v) :: fs => (.str k, v.content x) :: contentFieldsOf x fs
end

mutual
/-- The data have no 128-bit integers and no raw values, numbers keep their value, tuples and structs are not empty and tuple variants
have at least two fields.  There are newtype structs only with `unwrap_newtypes`, structs only without `explicit_struct_names`, and with
`implicit_some` there is no unit in an option. -/
def SVal.Buffers (x : Exts) : SVal → Prop
  | .num n => n.Small ∧ n.Keeps false
  | .some v => v.Buffers x ∧ (x.implicitSome = true → v.content x ≠ .unit)
  | .unitStruct _ => x.explicitStructNames = false
  | .newtypeStruct _ v => x.unwrapNewtypes = true ∧ v.Buffers x
  | .newtypeVariant _ _ v => v.Buffers x
  | .seq _ vs => BuffersAll x vs
  | .tuple vs => vs ≠ [] ∧ BuffersAll x vs
  | .tupleStruct _ vs => (x.explicitStructNames = false ∧ vs ≠ []) ∧ BuffersAll x vs
  | .tupleVariant _ _ vs => 2 ≤ vs.length ∧ BuffersAll x vs
  | .map _ kvs => BuffersEntries x kvs
  | .struct _ fs => (x.explicitStructNames = false ∧ fs ≠ []) ∧ BuffersFields x fs
  | .structVariant _ _ fs => fs ≠ [] ∧ BuffersFields x fs
  | .raw _ => False
  | _ => True
/-- Elements. -/
def BuffersAll (x : Exts) : List SVal → Prop
  | [] => True
  | v :: vs => v.Buffers x ∧ BuffersAll x vs
/-- Entries. -/
def BuffersEntries (x : Exts) : List (SVal × SVal) → Prop
  | [] => True
  | (k, v) :: kvs => (k.Buffers x ∧ v.Buffers x) ∧ BuffersEntries x kvs
/-- Fields. -/
def BuffersFields (x : Exts) : List (Text × SVal) → Prop
  | [] => True
  | (_, v) :: fs => v.Buffers x ∧ BuffersFields x fs
end

end Ron
