import Verif.Spec.Ron
/-!
# What stands before an item of a list
-/

namespace Ron

/-- The text before an item: layout, or items and the comma after them. -/
inductive Before : List Text → Text → Prop
  | nil {a : Text} : Layout a → Before [] a
  | items {a b a' u : Text} {ts : List Text} : Layout a → Body ts u → Layout b → Layout a' → Before ts (a ++ (u ++ (b ++ ',' :: a')))

end Ron
