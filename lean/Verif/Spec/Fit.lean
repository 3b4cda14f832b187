import Verif.Lemmas.Ident
/-!
# Data that can be serialized

Every name is a possible identifier, and the nesting is within the budget of the serializer.
-/

namespace Ron

variable [Env]

mutual
/-- Every name of a type, variant or field is a possible identifier. -/
def SVal.Named : SVal → Prop
  | .some v => v.Named
  | .unitStruct n => RawName n
  | .unitVariant n m => RawName n ∧ RawName m
  | .newtypeStruct n v => RawName n ∧ v.Named
  | .newtypeVariant n m v => RawName n ∧ RawName m ∧ v.Named
  | .seq _ vs => NamedAll vs
  | .tuple vs => NamedAll vs
  | .tupleStruct n vs => RawName n ∧ NamedAll vs
  | .tupleVariant n m vs => RawName n ∧ RawName m ∧ NamedAll vs
  | .map _ kvs => NamedEntries kvs
  | .struct n fs => RawName n ∧ NamedFields fs
  | .structVariant n m fs => RawName n ∧ RawName m ∧ NamedFields fs
  | _ => True
def NamedAll : List SVal → Prop
  | [] => True
  | v :: vs => v.Named ∧ NamedAll vs
def NamedEntries : List (SVal × SVal) → Prop
  | [] => True
  | (k, v) :: kvs => (k.Named ∧ v.Named) ∧ NamedEntries kvs
def NamedFields : List (Text × SVal) → Prop
  | [] => True
  | (k, v) :: fs => (RawName k ∧ v.Named) ∧ NamedFields fs
end

mutual
/-- The nesting of the data: each option, newtype and compound around it counts one. -/
def SVal.nesting : SVal → Nat
  | .some v => v.nesting + 1
  | .newtypeStruct _ v => v.nesting + 1
  | .newtypeVariant _ _ v => v.nesting + 1
  | .seq _ vs => nestingAll vs
  | .tuple vs => nestingAll vs
  | .tupleStruct _ vs => nestingAll vs
  | .tupleVariant _ _ vs => nestingAll vs
  | .map _ kvs => nestingEntries kvs
  | .struct _ fs => nestingFields fs
  | .structVariant _ _ fs => nestingFields fs
  | .raw _ => 1
  | _ => 0
def nestingAll : List SVal → Nat
  | [] => 0
  | v :: vs => max (v.nesting + 1) (nestingAll vs)
def nestingEntries : List (SVal × SVal) → Nat
  | [] => 0
  | (k, v) :: kvs => max (max (k.nesting + 1) (v.nesting + 1)) (nestingEntries kvs)
def nestingFields : List (Text × SVal) → Nat
  | [] => 0
  | (_, v) :: fs => max (v.nesting + 1) (nestingFields fs)
end

end Ron
