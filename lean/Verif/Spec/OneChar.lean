import Verif.Spec.Strings
/-!
# Specification of character and byte literals
-/

namespace Ron

/-- The text after a backslash in a character literal. -/
inductive CharEsc : Text → Char → Prop
  | simple {c : Char} {n : Nat} : simpleEsc c = some n → CharEsc [c] (Char.ofNat n)
  | hex {c1 c2 : Char} {d1 d2 : Nat} : hexVal c1 = some d1 → hexVal c2 = some d2 → d1 * 16 + d2 < 128 →
      CharEsc ['x', c1, c2] (Char.ofNat (d1 * 16 + d2))
  | uni {ds : Text} {ch : Char} : ds ≠ [] → ds.length ≤ 6 → (∀ c ∈ ds, ∃ d, hexVal c = some d) →
      ch.toNat = posValue 16 (litDigits ds) → CharEsc ('u' :: '{' :: ds ++ ['}']) ch

/-- The text after a backslash in a byte literal. -/
inductive ByteEsc : Text → Nat → Prop
  | simple {c : Char} {n : Nat} : simpleEsc c = some n → ByteEsc [c] n
  | hex {c1 c2 : Char} {d1 d2 : Nat} : hexVal c1 = some d1 → hexVal c2 = some d2 → ByteEsc ['x', c1, c2] (d1 * 16 + d2)

/-- A character literal and its value.  Every character but the backslash stands for itself, the apostrophe included. -/
inductive CharLit : Text → Char → Prop
  | plain {c : Char} : c ≠ '\\' → CharLit ['\'', c, '\''] c
  | esc {e : Text} {c : Char} : CharEsc e c → CharLit ('\'' :: '\\' :: (e ++ ['\''])) c

/-- A byte literal and its value. -/
inductive ByteLit : Text → Nat → Prop
  | plain {c : Char} : c ≠ '\\' → c.toNat < 128 → ByteLit ['b', '\'', c, '\''] c.toNat
  | esc {e : Text} {n : Nat} : ByteEsc e n → ByteLit ('b' :: '\'' :: '\\' :: (e ++ ['\''])) n

end Ron
