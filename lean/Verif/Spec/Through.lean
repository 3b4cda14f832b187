import Verif.Spec.SelfDesc
import Verif.Spec.Reread
import Verif.Model.ValueDe
/-!
# Data that survives the way through an untyped `Value`

A `Value` has no enums, no names and no types of numbers; structs, tuples and tuple structs without content look like a unit.
-/

namespace Ron

variable [Env]

mutual
/-- The data has no enums and no raw values, nothing is an empty struct or tuple, numbers keep their value, and the entries of maps are
such that a `Map` keeps them all, in their order. -/
def SVal.Through (x : Exts) (sfx : Bool) : SVal → Prop
  | .num n => n.Keeps sfx
  | .some v => v.Through x sfx
  | .unitVariant _ _ => False
  | .newtypeStruct _ v => v.Through x sfx
  | .newtypeVariant _ _ _ => False
  | .seq _ vs => ThroughAll x sfx vs
  | .tuple vs => vs ≠ [] ∧ ThroughAll x sfx vs
  | .tupleStruct _ vs => vs ≠ [] ∧ ThroughAll x sfx vs
  | .tupleVariant _ _ _ => False
  | .map _ kvs => (∀ es, SelfDescEntries x sfx kvs es → MapInv es) ∧ ThroughEntries x sfx kvs
  | .struct _ fs => fs ≠ [] ∧ ThroughFields x sfx fs
  | .structVariant _ _ _ => False
  | .raw _ => False
  | _ => True
/-- Elements. -/
def ThroughAll (x : Exts) (sfx : Bool) : List SVal → Prop
  | [] => True
  | v :: vs => v.Through x sfx ∧ ThroughAll x sfx vs
/-- Entries. -/
def ThroughEntries (x : Exts) (sfx : Bool) : List (SVal × SVal) → Prop
  | [] => True
  | (k, v) :: kvs => (k.Through x sfx ∧ v.Through x sfx) ∧ ThroughEntries x sfx kvs
/-- Fields. -/
def ThroughFields (x : Exts) (sfx : Bool) : List (Text × SVal) → Prop
  | [] => True
  | (_, v) :: fs => v.Through x sfx ∧ ThroughFields x sfx fs
end

end Ron
