import Verif.Spec.TyLang
/-!
# Types the texts of which show where they end

A text of such a type ends with a bracket or a quote, or is one of a few words.
-/

namespace Ron

/-- The variant has data. -/
def Variant.HasData : Variant → Prop
  | .unit => False
  | _ => True

/-- Strings, characters, byte strings, sequences, tuples, maps, structs other than the ranges of std, enums all variants of which have
data, booleans and units; options unless `Some` may be left out; newtypes, which if they are unwrapped have to hold such a type. -/
inductive Closed (D : Nat → Ty) (x : Exts) : Nat → Ty → Prop
  | bool {f : Nat} : Closed D x (f + 1) .bool
  | unit {f : Nat} : Closed D x (f + 1) .unit
  | char {f : Nat} : Closed D x (f + 1) .char
  | str {f : Nat} : Closed D x (f + 1) .str
  | bytes {f : Nat} : Closed D x (f + 1) .bytes
  | option {f : Nat} {T : Ty} : x.implicitSome = false → Closed D x (f + 1) (.option T)
  | seq {f : Nat} {T : Ty} : Closed D x (f + 1) (.seq T)
  | tuple {f : Nat} {Ts : List Ty} : Closed D x (f + 1) (.tuple Ts)
  | tupleStruct {f : Nat} {name : Text} {Ts : List Ty} : Closed D x (f + 1) (.tupleStruct name Ts)
  | map {f : Nat} {K V : Ty} : Closed D x (f + 1) (.map K V)
  | struct {f : Nat} {name : Text} {deny : Bool} {fields : List (Text × Ty)} : ¬ RangeLike name (fields.map Prod.fst) →
      Closed D x (f + 1) (.struct name deny fields)
  | enum {f : Nat} {name : Text} {variants : List (Text × Variant)} : (∀ e ∈ variants, e.2.HasData) → Closed D x (f + 1) (.enum name variants)
  | newtype {f : Nat} {name : Text} {T : Ty} : x.unwrapNewtypes = false → Closed D x (f + 1) (.newtype name T)
  | unwrapped {f : Nat} {name : Text} {T : Ty} : x.unwrapNewtypes = true → Closed D x f T → Closed D x (f + 1) (.newtype name T)
  | ref {f i : Nat} : Closed D x f (D i) → Closed D x (f + 1) (.ref i)

end Ron
