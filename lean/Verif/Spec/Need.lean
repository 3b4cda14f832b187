import Verif.Spec.Fit
import Verif.Spec.Docs
/-! The recursion limit serialization needs. -/

namespace Ron

mutual
/-- The number of compounds in the data, itself included (ranges in compact syntax count one). -/
def SVal.compounds (ranges : Bool) : SVal → Nat
  | .some v => v.compounds ranges
  | .newtypeStruct _ v => v.compounds ranges
  | .newtypeVariant _ _ v => v.compounds ranges
  | .seq _ vs => compoundsAll ranges vs + 1
  | .tuple vs => compoundsAll ranges vs + 1
  | .tupleStruct _ vs => compoundsAll ranges vs + 1
  | .tupleVariant _ _ vs => compoundsAll ranges vs + 1
  | .map _ kvs => compoundsEntries ranges kvs + 1
  | .struct name fs => if ranges && numericRange name fs then 1 else compoundsFields ranges fs + 1
  | .structVariant _ _ fs => compoundsFields ranges fs + 1
  | _ => 0
/-- The number of compounds in elements. -/
def compoundsAll (ranges : Bool) : List SVal → Nat
  | [] => 0
  | v :: vs => v.compounds ranges + compoundsAll ranges vs
/-- The number of compounds in entries. -/
def compoundsEntries (ranges : Bool) : List (SVal × SVal) → Nat
  | [] => 0
  | (k, v) :: kvs => k.compounds ranges + (v.compounds ranges + compoundsEntries ranges kvs)
/-- The number of compounds in fields. -/
def compoundsFields (ranges : Bool) : List (Text × SVal) → Nat
  | [] => 0
  | (_, v) :: fs => v.compounds ranges + compoundsFields ranges fs
end

mutual
/-- The smallest recursion limit with which the data can be serialized, given that every compound that has been finished
raises the limit by one for what follows it. -/
def SVal.need (ranges : Bool) : SVal → Nat
  | .some v => v.need ranges + 1
  | .newtypeStruct _ v => v.need ranges + 1
  | .newtypeVariant _ _ v => v.need ranges + 1
  | .seq _ vs => needAll ranges vs
  | .tuple vs => needAll ranges vs
  | .tupleStruct _ vs => needAll ranges vs
  | .tupleVariant _ _ vs => needAll ranges vs
  | .map _ kvs => needEntries ranges kvs
  | .struct name fs => if ranges && numericRange name fs then 0 else needFields ranges fs
  | .structVariant _ _ fs => needFields ranges fs
  | .raw _ => 1
  | _ => 0
/-- What elements need. -/
def needAll (ranges : Bool) : List SVal → Nat
  | [] => 0
  | v :: vs => max (v.need ranges + 1) (needAll ranges vs - v.compounds ranges)
/-- What entries need. -/
def needEntries (ranges : Bool) : List (SVal × SVal) → Nat
  | [] => 0
  | (k, v) :: kvs => max (k.need ranges + 1)
      (max (v.need ranges + 1) (needEntries ranges kvs - v.compounds ranges) - k.compounds ranges)
/-- What fields need. -/
def needFields (ranges : Bool) : List (Text × SVal) → Nat
  | [] => 0
  | (_, v) :: fs => max (v.need ranges + 1) (needFields ranges fs - v.compounds ranges)
end

mutual
/-- The nesting of the data that is reached before any compound has been finished. -/
def SVal.front (ranges : Bool) : SVal → Nat
  | .some v => v.front ranges + 1
  | .newtypeStruct _ v => v.front ranges + 1
  | .newtypeVariant _ _ v => v.front ranges + 1
  | .seq _ vs => frontAll ranges vs
  | .tuple vs => frontAll ranges vs
  | .tupleStruct _ vs => frontAll ranges vs
  | .tupleVariant _ _ vs => frontAll ranges vs
  | .map _ kvs => frontEntries ranges kvs
  | .struct name fs => if ranges && numericRange name fs then 0 else frontFields ranges fs
  | .structVariant _ _ fs => frontFields ranges fs
  | .raw _ => 1
  | _ => 0
/-- Elements up to the first one with a compound in it. -/
def frontAll (ranges : Bool) : List SVal → Nat
  | [] => 0
  | v :: vs => max (v.front ranges + 1) (if v.compounds ranges = 0 then frontAll ranges vs else 0)
/-- Entries up to the first key or value with a compound in it. -/
def frontEntries (ranges : Bool) : List (SVal × SVal) → Nat
  | [] => 0
  | (k, v) :: kvs => max (k.front ranges + 1) (if k.compounds ranges = 0 then
      max (v.front ranges + 1) (if v.compounds ranges = 0 then frontEntries ranges kvs else 0) else 0)
/-- Fields up to the first one with a compound in it. -/
def frontFields (ranges : Bool) : List (Text × SVal) → Nat
  | [] => 0
  | (_, v) :: fs => max (v.front ranges + 1) (if v.compounds ranges = 0 then frontFields ranges fs else 0)
end

end Ron
