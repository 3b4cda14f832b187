import Verif.Lemmas.FloatSer
import Verif.Lemmas.MapOps
/-!
# Round trips of a `Value`
-/

namespace Ron

variable [Env]

mutual
/-- The value with every number replaced; maps are built anew from their entries. -/
def Value.mapNum (f : Number → Number) : Value → Value
  | .num n => .num (f n)
  | .some v => .some (v.mapNum f)
  | .seq vs => .seq (mapNumAll f vs)
  | .map m => .map (mapOfList (mapNumEntries f m))
  | v => v
def mapNumAll (f : Number → Number) : List Value → List Value
  | [] => []
  | v :: vs => v.mapNum f :: mapNumAll f vs
def mapNumEntries (f : Number → Number) : List (Value × Value) → List (Value × Value)
  | [] => []
  | (k, v) :: m => (k.mapNum f, v.mapNum f) :: mapNumEntries f m
end

mutual
/-- Every number satisfies `p`, every map is one that can be built (distinct keys, in order without `indexmap`). -/
def Value.Holds (p : Number → Prop) : Value → Prop
  | .num n => p n
  | .some v => v.Holds p
  | .seq vs => HoldsAll p vs
  | .map m => MapInv m ∧ HoldsEntries p m
  | _ => True
def HoldsAll (p : Number → Prop) : List Value → Prop
  | [] => True
  | v :: vs => v.Holds p ∧ HoldsAll p vs
def HoldsEntries (p : Number → Prop) : List (Value × Value) → Prop
  | [] => True
  | (k, v) :: m => (k.Holds p ∧ v.Holds p) ∧ HoldsEntries p m
end

mutual
/-- The recursion budget for reading a value: one level for an option, one for an empty compound, two for the elements
of any other. -/
def Value.levels : Value → Nat
  | .some v => v.levels + 1
  | .seq vs => valueLevels vs
  | .map m => entryLevels m
  | _ => 0
def valueLevels : List Value → Nat
  | [] => 1
  | v :: vs => max (v.levels + 2) (valueLevels vs)
def entryLevels : List (Value × Value) → Nat
  | [] => 1
  | (k, v) :: m => max (max k.levels v.levels + 2) (entryLevels m)
end

end Ron
