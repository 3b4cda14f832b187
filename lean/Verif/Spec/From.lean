import Verif.Model.From
import Verif.Spec.Reread
/-!
# Which data a `Value` keeps as they are
-/

namespace Ron

variable [Env]

mutual
/-- No byte array, and the pairs of a container come in the order of a `Map`: with distinct keys, and with `BTreeMap`s sorted. -/
def RData.Kept : RData → Prop
  | .byteArray _ => False
  | .some v => v.Kept
  | .seq vs => keptAll vs
  | .pairs kvs => MapInv (rentries kvs) ∧ keptEntries kvs
  | _ => True
/-- Items. -/
def keptAll : List RData → Prop
  | [] => True
  | v :: vs => v.Kept ∧ keptAll vs
/-- Pairs. -/
def keptEntries : List (RData × RData) → Prop
  | [] => True
  | (k, v) :: kvs => (k.Kept ∧ v.Kept) ∧ keptEntries kvs
end

mutual
/-- Numbers as Rust has them (in the range of their type; `p` may restrict them further), and `Map`s as the API builds them. -/
def RData.Real (p : Number → Prop) : RData → Prop
  | .num n => p n
  | .some v => v.Real p
  | .seq vs => realAll p vs
  | .map m => (Value.map m).Holds p
  | .pairs kvs => realEntries p kvs
  | _ => True
/-- Items. -/
def realAll (p : Number → Prop) : List RData → Prop
  | [] => True
  | v :: vs => v.Real p ∧ realAll p vs
/-- Pairs. -/
def realEntries (p : Number → Prop) : List (RData × RData) → Prop
  | [] => True
  | (k, v) :: kvs => (k.Real p ∧ v.Real p) ∧ realEntries p kvs
end

end Ron
