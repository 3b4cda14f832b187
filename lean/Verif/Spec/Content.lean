import Verif.Spec.Ron
import Verif.Model.Content
/-!
# Specification of buffered RON text

`CText c w`: the text `w` is buffered as the content `c` (serde's `Content`).  Other than in `Den`, the names of variants are kept:
a unit variant is a string, any other variant a map with one entry.  Only white space is allowed as layout, and no
trailing comma in a newtype variant: comments and trailing commas mislead the reader here (see C51).
-/

namespace Ron

/-- White space only. -/
def Blank (l : Text) : Prop := ∀ c ∈ l, c ∈ ronWhitespace

/-- Comma separated items. -/
inductive BBody : List Text → Text → Prop
  | one {t : Text} : BBody [t] t
  | cons {t b a u : Text} {ts : List Text} : Blank b → Blank a → BBody ts u → BBody (t :: ts) (t ++ (b ++ ',' :: (a ++ u)))

/-- White space and at most one comma. -/
inductive BTail : Text → Prop
  | plain {b : Text} : Blank b → BTail b
  | comma {b c : Text} : Blank b → Blank c → BTail (b ++ ',' :: c)

/-- A delimited list of items. -/
inductive BDelim (o c : Char) : List Text → Text → Prop
  | nil {a : Text} : Blank a → BDelim o c [] (o :: (a ++ [c]))
  | items {a u t : Text} {ts : List Text} : Blank a → BBody ts u → BTail t → BDelim o c ts (o :: (a ++ (u ++ (t ++ [c]))))

/-- `key : value`. -/
inductive BEntry (k v : Text) : Text → Prop
  | mk {l l' : Text} : Blank l → Blank l' → BEntry k v (k ++ (l ++ ':' :: (l' ++ v)))

/-- Not a 128-bit integer. -/
def Number.Small : Number → Prop
  | .int t _ => t.bits ≠ 128
  | _ => True

variable [Env]

mutual
/-- The text `w` is buffered as the content. -/
def CText : Content → Text → Prop
  | .bool b, w => w = if b then c!"true" else c!"false"
  | .num n, w => n.Small ∧ ∃ (m : Number) (sfx : Bool), m.WF ∧ w = m.text sfx ∧ n = if sfx then m.canon else m.untyped
  | .char c, w => w = charText c
  | .str t, w => StrLit w t ∨ NameTok t w
  | .bytes b, w => BytesLit w b
  | .unit, w => w = c!"()"
  | .none, w => w = c!"None"
  | .some c, w => ∃ l a t b, Blank l ∧ Blank a ∧ CText c t ∧ BTail b ∧ w = c!"Some" ++ (l ++ '(' :: (a ++ (t ++ (b ++ [')']))))
  | .seq cs, w => ∃ ts, CTextAll cs ts ∧ (BDelim '[' ']' ts w ∨ (cs ≠ [] ∧ BDelim '(' ')' ts w))
  | .map es, w => (∃ ts, CTextEntries es ts ∧ BDelim '{' '}' ts w) ∨ (∃ ts, es ≠ [] ∧ CTextFields es ts ∧ BDelim '(' ')' ts w) ∨
      CTextVariant es w
/-- Items. -/
def CTextAll : List Content → List Text → Prop
  | [], [] => True
  | c :: cs, t :: ts => CText c t ∧ CTextAll cs ts
  | _, _ => False
/-- Map entries. -/
def CTextEntries : List (Content × Content) → List Text → Prop
  | [], [] => True
  | (k, v) :: es, t :: ts => (∃ kt vt, CText k kt ∧ CText v vt ∧ BEntry kt vt t) ∧ CTextEntries es ts
  | _, _ => False
/-- Struct fields. -/
def CTextFields : List (Content × Content) → List Text → Prop
  | [], [] => True
  | (k, v) :: es, t :: ts => (∃ id kt vt, k = .str id ∧ KeyTok id kt ∧ CText v vt ∧ BEntry kt vt t) ∧ CTextFields es ts
  | _, _ => False
/-- A variant with data: a newtype, or a tuple of two or more fields, or a struct. -/
def CTextVariant : List (Content × Content) → Text → Prop
  | [(n, c)], w => ∃ id k l d, n = .str id ∧ NameTok id k ∧ Blank l ∧ w = k ++ (l ++ d) ∧
      ((∃ a t b, Blank a ∧ CText c t ∧ Blank b ∧ d = '(' :: (a ++ (t ++ (b ++ [')'])))) ∨ CTextArgs c d)
  | _, _ => False
/-- The fields of a tuple or struct variant. -/
def CTextArgs : Content → Text → Prop
  | .seq cs, d => 2 ≤ cs.length ∧ ∃ ts, CTextAll cs ts ∧ BDelim '(' ')' ts d
  | .map fs, d => fs ≠ [] ∧ ∃ ts, CTextFields fs ts ∧ BDelim '(' ')' ts d
  | _, _ => False
end

mutual
/-- The recursion budget that reading the content takes at most: one level for an option, one for a compound, two for its elements.
(The data of a newtype variant take none, see `C51_limit_fails`.) -/
def Content.levels : Content → Nat
  | .some c => c.levels + 1
  | .seq cs => clevelsAll cs
  | .map es => clevelsEntries es
  | _ => 0
def clevelsAll : List Content → Nat
  | [] => 1
  | c :: cs => max (c.levels + 2) (clevelsAll cs)
def clevelsEntries : List (Content × Content) → Nat
  | [] => 1
  | (k, v) :: es => max (max k.levels v.levels + 2) (clevelsEntries es)
end

end Ron
