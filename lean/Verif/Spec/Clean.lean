import Verif.Spec.Fit
import Verif.Spec.Rend
/-!
# Data the text of which is a rendering

`SVal.Clean rg wx`: numbers are in the range of their type and there are no raw values.  With compact ranges (`rg`) the bounds of a
range are numbers that keep their value when read without a type and are not written as words; other bounds are allowed only
if the range may then be written as a struct without its name and within parentheses.  With both `implicit_some` and
`unwrap_variant_newtypes` (`wx`) no newtype variant holds an option of a tuple the first item of which is itself an option: such a
tuple loses its `Some` and its parentheses, so that its text starts with the text of the inner option.
-/

namespace Ron

variable [Env]

/-- An option, or a newtype around one. -/
def SVal.isOption : SVal → Bool
  | .none => true
  | .some _ => true
  | .newtypeStruct _ v => v.isOption
  | _ => false

/-- The first of the items is no option. -/
def firstOk : List SVal → Bool
  | [] => true
  | v :: _ => !v.isOption

/-- The content of a newtype variant (`deep = false`) or of options inside of it (`deep = true`). -/
def SVal.OptOk : Bool → SVal → Prop
  | _, .some v => v.OptOk true
  | true, .tuple vs => firstOk vs = true
  | true, .tupleStruct _ vs => firstOk vs = true
  | _, _ => True

/-- How ranges are written: as structs, or compactly (without `explicit_struct_names` and `unwrap_variant_newtypes`, or with one of
them). -/
inductive Ranges
  | structs | compact | compactStrict
deriving DecidableEq

/-- The struct is a range that can be written and read back compactly. -/
def GoodRange (name : Text) (fs : List (Text × SVal)) : Prop := ∃ w, RangeRend false name fs w

/-- The fields of a range with numbers as bounds, which `compact_ranges` prints as `start..end`. -/
def numericRange (name : Text) : List (Text × SVal) → Bool
  | [(k, .num _)] =>
    (k == c!"start" && name == c!"RangeFrom") || (k == c!"end" && (name == c!"RangeTo" || name == c!"RangeToInclusive"))
  | [(k, .num _), (k', .num _)] => k == c!"start" && k' == c!"end" && (name == c!"Range" || name == c!"RangeInclusive")
  | _ => false

mutual
/-- Data that is written in the grammar. -/
def SVal.Clean (rg : Ranges) (wx : Bool) : SVal → Prop
  | .num n => n.WF
  | .some v => v.Clean rg wx
  | .newtypeStruct _ v => v.Clean rg wx
  | .newtypeVariant _ _ v => (wx = true → v.OptOk false) ∧ v.Clean rg wx
  | .seq _ vs => CleanAll rg wx vs
  | .tuple vs => CleanAll rg wx vs
  | .tupleStruct _ vs => CleanAll rg wx vs
  | .tupleVariant _ _ vs => CleanAll rg wx vs
  | .map _ kvs => CleanEntries rg wx kvs
  | .struct n fs => (rg ≠ .structs → rangeKindOf n fs.length = Option.none ∨ GoodRange n fs ∨ (rg = .compact ∧ numericRange n fs = false)) ∧
      CleanFields rg wx fs
  | .structVariant _ _ fs => CleanFields rg wx fs
  | .raw _ => False
  | _ => True
/-- Items. -/
def CleanAll (rg : Ranges) (wx : Bool) : List SVal → Prop
  | [] => True
  | v :: vs => v.Clean rg wx ∧ CleanAll rg wx vs
/-- Map entries. -/
def CleanEntries (rg : Ranges) (wx : Bool) : List (SVal × SVal) → Prop
  | [] => True
  | (k, v) :: kvs => (k.Clean rg wx ∧ v.Clean rg wx) ∧ CleanEntries rg wx kvs
/-- Struct fields. -/
def CleanFields (rg : Ranges) (wx : Bool) : List (Text × SVal) → Prop
  | [] => True
  | (_, v) :: fs => v.Clean rg wx ∧ CleanFields rg wx fs
end

end Ron
