import Verif.Spec.Layout
import Verif.Spec.Strings
/-!
# Specification of document attributes
-/

namespace Ron

/-- The names of the four extensions. -/
inductive ExtNamed : Text → Exts → Prop
  | unwrapNewtypes : ExtNamed c!"unwrap_newtypes" ⟨true, false, false, false⟩
  | implicitSome : ExtNamed c!"implicit_some" ⟨false, true, false, false⟩
  | unwrapVariantNewtypes : ExtNamed c!"unwrap_variant_newtypes" ⟨false, false, true, false⟩
  | explicitStructNames : ExtNamed c!"explicit_struct_names" ⟨false, false, false, true⟩

/-- An identifier, written plainly or with `r#`. -/
inductive IdentTok (id : Text) : Text → Prop
  | plain : IdentTok id id
  | raw : IdentTok id ('r' :: '#' :: id)

/-- The list inside `enable(..)`, with the layout after it. -/
inductive ExtList : Text → Exts → Prop
  | last {id tok l : Text} {e : Exts} : ExtNamed id e → IdentTok id tok → Layout l → ExtList (tok ++ l) e
  | lastComma {id tok l l' : Text} {e : Exts} : ExtNamed id e → IdentTok id tok → Layout l → Layout l' →
      ExtList (tok ++ (l ++ ',' :: l')) e
  | more {id tok l l' t : Text} {e e' : Exts} : ExtNamed id e → IdentTok id tok → Layout l → Layout l' → ExtList t e' →
      ExtList (tok ++ (l ++ ',' :: (l' ++ t))) (e.union e')

/-- The beginning `#![` of an attribute, with layout after each token. -/
inductive AttrOpen : Text → Prop
  | mk {l1 l2 l3 : Text} : Layout l1 → Layout l2 → Layout l3 → AttrOpen ('#' :: (l1 ++ '!' :: (l2 ++ '[' :: l3)))

/-- One attribute with the layout after it, and the extensions it enables. -/
inductive Attr : Text → Exts → Prop
  | enable {o l4 l5 t l6 l7 : Text} {e : Exts} : AttrOpen o → Layout l4 → Layout l5 → ExtList t e → Layout l6 → Layout l7 →
      Attr (o ++ (c!"enable" ++ (l4 ++ '(' :: (l5 ++ (t ++ ')' :: (l6 ++ ']' :: l7)))))) e
  | info {o key l4 l5 t v l6 l7 : Text} : AttrOpen o → key = c!"type" ∨ key = c!"schema" → Layout l4 → Layout l5 →
      StrLit t v → Layout l6 → Layout l7 →
      Attr (o ++ (key ++ (l4 ++ '=' :: (l5 ++ (t ++ (l6 ++ ']' :: l7)))))) ⟨false, false, false, false⟩

/-- A sequence of attributes. -/
inductive Attrs : Text → Exts → Prop
  | nil : Attrs [] ⟨false, false, false, false⟩
  | cons {a t : Text} {e e' : Exts} : Attr a e → Attrs t e' → Attrs (a ++ t) (e.union e')

end Ron
