import Verif.Model.De
/-!
What the extensions are about: pairs of settings that differ in some of them, and the types that some of them cannot concern.
-/

namespace Ron

/-- Which extensions may differ between two settings. -/
structure Differ where
  implicitSome : Bool := false
  explicitNames : Bool := false
  newtypes : Bool := false
  variants : Bool := false
  /-- `explicit_struct_names`, in both directions. -/
  names : Bool := false

/-- Two settings of the extensions that differ at most in what `d` says; the second one is not the stricter one: it has
`implicit_some` if the first has it, and it does not have `explicit_struct_names` if the first has not. -/
structure Differ.Pair (d : Differ) (x y : Exts) : Prop where
  implicitSome : (x.implicitSome = true → y.implicitSome = true) ∧ (d.implicitSome = false → x.implicitSome = y.implicitSome)
  explicitNames : d.names = false → (y.explicitStructNames = true → x.explicitStructNames = true) ∧
    (d.explicitNames = false → x.explicitStructNames = y.explicitStructNames)
  newtypes : d.newtypes = false → x.unwrapNewtypes = y.unwrapNewtypes
  variants : d.variants = false → x.unwrapVariantNewtypes = y.unwrapVariantNewtypes

/-- The errors with which only the stricter setting can fail. -/
def Differ.Blames (d : Differ) (e : Err) : Prop :=
  (d.implicitSome = true ∧ e = .expectedOption) ∨ (d.explicitNames = true ∧ ∃ n, e = .expectedStructName n)

mutual
/-- A type without newtype structs. -/
def Ty.NoNewtype : Ty → Prop
  | .newtype _ _ => False
  | .option t => t.NoNewtype
  | .seq t => t.NoNewtype
  | .tuple ts => NoNewtypes ts
  | .tupleStruct _ ts => NoNewtypes ts
  | .map k v => k.NoNewtype ∧ v.NoNewtype
  | .struct _ _ fs => NoNewtypeFields fs
  | .enum _ vs => NoNewtypeVariants vs
  | _ => True
/-- The elements of a tuple type. -/
def NoNewtypes : List Ty → Prop
  | [] => True
  | t :: ts => t.NoNewtype ∧ NoNewtypes ts
/-- The fields of a struct type. -/
def NoNewtypeFields : List (Text × Ty) → Prop
  | [] => True
  | (_, t) :: fs => t.NoNewtype ∧ NoNewtypeFields fs
/-- The variants of an enum type. -/
def NoNewtypeVariants : List (Text × Variant) → Prop
  | [] => True
  | (_, v) :: vs => v.NoNewtype ∧ NoNewtypeVariants vs
/-- A variant. -/
def Variant.NoNewtype : Variant → Prop
  | .unit => True
  | .newtype t => t.NoNewtype
  | .tuple ts => NoNewtypes ts
  | .struct _ fs => NoNewtypeFields fs
end

mutual
/-- A type without structs (and newtype, tuple and unit structs). -/
def Ty.NoStruct : Ty → Prop
  | .newtype _ _ => False
  | .tupleStruct _ _ => False
  | .unitStruct _ => False
  | .struct _ _ _ => False
  | .option t => t.NoStruct
  | .seq t => t.NoStruct
  | .tuple ts => NoStructs ts
  | .map k v => k.NoStruct ∧ v.NoStruct
  | .enum _ vs => NoStructVariants vs
  | _ => True
/-- The elements of a tuple type. -/
def NoStructs : List Ty → Prop
  | [] => True
  | t :: ts => t.NoStruct ∧ NoStructs ts
/-- The fields of a struct variant. -/
def NoStructFields : List (Text × Ty) → Prop
  | [] => True
  | (_, t) :: fs => t.NoStruct ∧ NoStructFields fs
/-- The variants of an enum type. -/
def NoStructVariants : List (Text × Variant) → Prop
  | [] => True
  | (_, v) :: vs => v.NoStruct ∧ NoStructVariants vs
/-- A variant (its name is not optional). -/
def Variant.NoStruct : Variant → Prop
  | .unit => True
  | .newtype t => t.NoStruct
  | .tuple ts => NoStructs ts
  | .struct _ fs => NoStructFields fs
end

mutual
/-- A type without newtype variants, options and self-describing data (which has options): no `Value`, no raw value, and no
struct with unknown fields. -/
def Ty.NoVariant : Ty → Prop
  | .value => False
  | .raw => False
  | .option _ => False
  | .newtype _ t => t.NoVariant
  | .seq t => t.NoVariant
  | .tuple ts => NoVariants ts
  | .tupleStruct _ ts => NoVariants ts
  | .map k v => k.NoVariant ∧ v.NoVariant
  | .struct _ deny fs => deny = true ∧ NoVariantFields fs
  | .enum _ vs => NoVariantVariants vs
  | _ => True
/-- The elements of a tuple type. -/
def NoVariants : List Ty → Prop
  | [] => True
  | t :: ts => t.NoVariant ∧ NoVariants ts
/-- The fields of a struct type. -/
def NoVariantFields : List (Text × Ty) → Prop
  | [] => True
  | (_, t) :: fs => t.NoVariant ∧ NoVariantFields fs
/-- The variants of an enum type. -/
def NoVariantVariants : List (Text × Variant) → Prop
  | [] => True
  | (_, v) :: vs => v.NoVariant ∧ NoVariantVariants vs
/-- A variant. -/
def Variant.NoVariant : Variant → Prop
  | .unit => True
  | .newtype _ => False
  | .tuple ts => NoVariants ts
  | .struct deny fs => deny = true ∧ NoVariantFields fs
end

end Ron
