import Verif.Spec.Rend
/-!
# What typed data looks like when it is read as a `Value`

Names of structs and variants are lost, structs become maps with string keys, everything in parentheses or brackets
becomes a sequence.  The only choice left open is the empty pair of parentheses: a unit, or an empty sequence if a name
or layout tells it from `()`.
-/

namespace Ron

variable [Env]

mutual
/-- `SelfDesc x sfx v V`: reading a rendering of `v` as a `Value` may give `V`. -/
def SelfDesc (x : Exts) (sfx : Bool) : SVal → Value → Prop
  | .bool b, V => V = .bool b
  | .num n, V => V = .num (if sfx then n.canon else n.untyped)
  | .char c, V => V = .char c
  | .str t, V => V = .str t
  | .bytes b, V => V = .bytes b
  | .none, V => V = .none
  | .some v, V => (∃ V', SelfDesc x sfx v V' ∧ V = .some V') ∨ (x.implicitSome = true ∧ SelfDesc x sfx v V)
  | .unit, V => V = .unit
  | .unitStruct _, V => V = .unit
  | .unitVariant _ _, V => V = .unit
  | .newtypeStruct _ v, V =>
    if x.unwrapNewtypes then SelfDesc x sfx v V else ∃ V', SelfDesc x sfx v V' ∧ V = .seq [V']
  | .newtypeVariant _ _ v, V => ∃ V', SelfDesc x sfx v V' ∧ V = .seq [V']
  | .seq _ vs, V => ∃ Vs, SelfDescAll x sfx vs Vs ∧ V = .seq Vs
  | .tuple vs, V => (∃ Vs, SelfDescAll x sfx vs Vs ∧ V = .seq Vs) ∨ (vs = [] ∧ V = .unit)
  | .tupleStruct _ vs, V => (∃ Vs, SelfDescAll x sfx vs Vs ∧ V = .seq Vs) ∨ (vs = [] ∧ V = .unit)
  | .tupleVariant _ _ vs, V => ∃ Vs, SelfDescAll x sfx vs Vs ∧ V = .seq Vs
  | .map _ kvs, V => ∃ es, SelfDescEntries x sfx kvs es ∧ V = .map (mapOfList es)
  | .struct _ fs, V =>
    (fs ≠ [] ∧ ∃ es, SelfDescFields x sfx fs es ∧ V = .map (mapOfList es)) ∨ (fs = [] ∧ (V = .unit ∨ V = .seq []))
  | .structVariant _ _ fs, V =>
    (fs ≠ [] ∧ ∃ es, SelfDescFields x sfx fs es ∧ V = .map (mapOfList es)) ∨ (fs = [] ∧ V = .seq [])
  | .raw _, _ => False
/-- Elements. -/
def SelfDescAll (x : Exts) (sfx : Bool) : List SVal → List Value → Prop
  | [], [] => True
  | v :: vs, V :: Vs => SelfDesc x sfx v V ∧ SelfDescAll x sfx vs Vs
  | _, _ => False
/-- Entries. -/
def SelfDescEntries (x : Exts) (sfx : Bool) : List (SVal × SVal) → List (Value × Value) → Prop
  | [], [] => True
  | (k, v) :: kvs, (K, V) :: es => (SelfDesc x sfx k K ∧ SelfDesc x sfx v V) ∧ SelfDescEntries x sfx kvs es
  | _, _ => False
/-- Fields. -/
def SelfDescFields (x : Exts) (sfx : Bool) : List (Text × SVal) → List (Value × Value) → Prop
  | [], [] => True
  | (k, v) :: fs, (K, V) :: es => (K = .str k ∧ SelfDesc x sfx v V) ∧ SelfDescFields x sfx fs es
  | _, _ => False
end

mutual
/-- The recursion budget that reading the data as a `Value` takes: one level for an option, one for a compound, two
for its elements. -/
def SVal.levels (x : Exts) : SVal → Nat
  | .some v => v.levels x + 1
  | .newtypeStruct _ v => if x.unwrapNewtypes then v.levels x else v.levels x + 2
  | .newtypeVariant _ _ v => v.levels x + 2
  | .seq _ vs => levelsAll x vs
  | .tuple vs => levelsAll x vs
  | .tupleStruct _ vs => levelsAll x vs
  | .tupleVariant _ _ vs => levelsAll x vs
  | .map _ kvs => levelsEntries x kvs
  | .struct _ fs => levelsFields x fs
  | .structVariant _ _ fs => levelsFields x fs
  | _ => 0
/-- Of a list of elements: at least 1. -/
def levelsAll (x : Exts) : List SVal → Nat
  | [] => 1
  | v :: vs => max (v.levels x + 2) (levelsAll x vs)
def levelsEntries (x : Exts) : List (SVal × SVal) → Nat
  | [] => 1
  | (k, v) :: kvs => max (max (k.levels x) (v.levels x) + 2) (levelsEntries x kvs)
def levelsFields (x : Exts) : List (Text × SVal) → Nat
  | [] => 1
  | (_, v) :: fs => max (v.levels x + 2) (levelsFields x fs)
end

end Ron
