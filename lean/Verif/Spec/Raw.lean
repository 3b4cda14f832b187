import Verif.Spec.Lang
/-!
# Specification of raw values
-/

namespace Ron

/-- A text that means `v` by `E`, with layout around it. -/
def Pad (E : Text → Value → Prop) (t : Text) (v : Value) : Prop :=
  ∃ l w l', t = l ++ (w ++ l') ∧ Layout l ∧ E w v ∧ Layout l'

/-- The first token is not that of an attribute. -/
def NoAttr (t : Text) : Prop := ∀ l u, Layout l → t ≠ l ++ '#' :: u

/-- Texts with commas between them. -/
def joinComma : List Text → Text
  | [] => []
  | [t] => t
  | t :: ts => t ++ ',' :: joinComma ts

end Ron
