import Verif.Model.Adjacent
import Verif.Spec.Rend
import Verif.Spec.Lang
import Verif.Spec.Buffer
/-!
# Adjacently tagged data as text

A struct with a field for the tag, which is the name of a variant, and a field for its content.  Other fields may stand between them.
-/

namespace Ron

variable [Env]

/-- The variant of a value and its content, as data of their own. -/
def adjParts : SVal → Option (Text × Option SVal)
  | .unitVariant _ id => some (id, none)
  | .newtypeVariant _ id v => some (id, some v)
  | .tupleVariant _ id vs => some (id, some (.tuple vs))
  | .structVariant _ id fs => some (id, some (.struct id fs))
  | _ => none

/-- The entries of a map that stands for a struct: a field, or a key that is not the name of one and a value of `n` levels. -/
inductive StrItem
  | field (key : Text) (v : SVal)
  | other (key : Text) (n : Nat)

/-- The key. -/
def StrItem.key : StrItem → Text
  | .field k _ => k
  | .other k _ => k

/-- The text of an entry: the key is a string. -/
def StrText (x : Exts) (sfx : Bool) (e : Text) : StrItem → Prop
  | .field k v => ∃ kt vt, StrLit kt k ∧ Rend x sfx false v vt ∧ Entry kt vt e
  | .other k n => x.unwrapVariantNewtypes = false ∧ ∃ kt vt V, StrLit kt k ∧ Lang n vt V ∧ Entry kt vt e

/-- The recursion budget that the value of an entry takes. -/
def StrItem.levels : StrItem → Nat
  | .field _ v => v.cost
  | .other _ n => n

/-- The recursion budget that the entries take. -/
def strLevels : List StrItem → Nat
  | [] => 0
  | i :: is => max (i.levels + 1) (strLevels is)

/-- The fields among the entries. -/
def strFields : List StrItem → List (Text × SVal)
  | [] => []
  | .field k v :: is => (k, v) :: strFields is
  | .other _ _ :: is => strFields is

/-- The values have the types of the fields; other keys are not the name of one, and there are some only if they are not denied. -/
def StrFits (D : Nat → Ty) (n : Nat) (deny : Bool) (fields : List (Text × Ty)) (is : List StrItem) : Prop :=
  ∀ i ∈ is, match i with
    | .field k v => ∃ T, (k, T) ∈ fields ∧ HasTy D n T v
    | .other k _ => k ∉ fields.map Prod.fst ∧ deny = false

/-- The fields of the struct: the tag, the content as data, as a map that stands for a struct,
or as serde's buffer holds it, and fields with other names and a value of
`n` levels. -/
inductive AdjItem
  | tag (id : Text)
  | typed (u : SVal)
  | mapped (is : List StrItem)
  | buffered (c : Content)
  | other (n : Nat)

/-- The text of a field. -/
def AdjText (x : Exts) (sfx : Bool) (tag content : Text) (e : Text) : AdjItem → Prop
  | .tag id => ∃ kt vt, NameTok tag kt ∧ NameTok id vt ∧ Entry kt vt e
  | .typed u => ∃ kt vt, NameTok content kt ∧ Rend x sfx false u vt ∧ Entry kt vt e
  | .mapped is => ∃ kt vt ts, NameTok content kt ∧ All2 (StrText x sfx) ts is ∧ Delim '{' '}' ts vt ∧ Entry kt vt e
  | .buffered c => x.unwrapVariantNewtypes = false ∧ ∃ kt vt, NameTok content kt ∧ CText c vt ∧ Entry kt vt e
  | .other n => x.unwrapVariantNewtypes = false ∧ ∃ key kt vt V, key ≠ tag ∧ key ≠ content ∧ NameTok key kt ∧ Lang n vt V ∧ Entry kt vt e

/-- The recursion budget that the value of a field takes. -/
def AdjItem.levels : AdjItem → Nat
  | .tag _ => 2
  | .typed u => u.cost
  | .mapped is => strLevels is + 1
  | .buffered c => c.levels
  | .other n => n

/-- The recursion budget that the struct takes. -/
def adjLevels : List AdjItem → Nat
  | [] => 0
  | i :: is => max (i.levels + 1) (adjLevels is)

/-- Is it the tag or the content? -/
def AdjItem.known : AdjItem → Bool
  | .other _ => false
  | _ => true

/-- The names of the structs that have a notation of their own. -/
def rangeLike : List Text := [c!"Range", c!"RangeInclusive", c!"RangeFrom", c!"RangeTo", c!"RangeToInclusive"]

/-- The content can be told from `()` and from the notation of ranges. -/
def AdjTold : SVal → Prop
  | .structVariant _ id fs => fs ≠ [] ∧ id ∉ rangeLike
  | _ => True

end Ron
