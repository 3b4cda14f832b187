import Verif.Spec.Ron
import Verif.Spec.AnyNumber
import Verif.Model.De
import Verif.Lemmas.Tokens
import Verif.Model.Open
import Verif.Spec.Attr
/-!
# The language of self-describing RON

`Lang n w v`: the text `w`, without layout around it, is a value of RON and denotes `v`; `n` bounds the levels of recursion needed.
Compound values are those of `Spec/Ron.lean`.  Numbers and ranges are those of `Spec/AnyNumber.lean`.  `LangX true` is the language
with the extension `implicit_some`, where the parentheses after `Some` may be left out.
-/

namespace Ron

variable [Env]

/-- How numbers and ranges begin: with a digit, a sign or a dot, with `b'`, or with a word for a float. -/
def NumHead (t : Text) : Prop :=
  (∃ c u, t = c :: u ∧ (isDigit c = true ∨ c ∈ ['+', '-', '.'])) ∨ (∃ u, t = 'b' :: '\'' :: u) ∨
  ∃ w v u, (w, v) ∈ floatWords ∧ t = w ++ u ∧ NoIdentStart u

/-- Values without parts. -/
inductive Tok : Text → Value → Prop
  | true : Tok c!"true" (.bool true)
  | false : Tok c!"false" (.bool false)
  | none : Tok c!"None" .none
  | unit : Tok c!"()" .unit
  | num {w : Text} {v : Value} : NumHead w → NumText w v → Tok w v
  | char {t : Text} {c : Char} : CharLit t c → Tok t (.char c)
  | str {t v : Text} : StrLit t v → Tok t (.str v)
  | bytes {t : Text} {b : List UInt8} : BytesLit t b → Tok t (.bytes b)
  | name {t n : Text} : NameTok n t → Tok t .unit

/-- Texts of values and what they denote. -/
def Lang : Nat → Text → Value → Prop := Gram Tok

/-- One level of the grammar, where `i` says whether the parentheses after `Some` may be left out.  What follows `Some` must then not
continue the word, and not begin with a parenthesis. -/
inductive LevelX (i : Bool) (S D E : Text → Value → Prop) : Text → Value → Prop
  | level {w : Text} {v : Value} : Level S D E w v → LevelX i S D E w v
  | bare {l t : Text} {v : Value} : i = true → Layout l → D t v → NoIdentStart (l ++ t) → (∀ u, t ≠ '(' :: u) →
      LevelX i S D E (c!"Some" ++ (l ++ t)) (.some v)

/-- The texts of values, from those of values without parts; the number bounds the levels of recursion. -/
def GramX (i : Bool) (S : Text → Value → Prop) : Nat → Text → Value → Prop
  | 0 => S
  | 1 => LevelX i S S (fun _ _ => False)
  | n + 2 => LevelX i S (GramX i S (n + 1)) (GramX i S n)

/-- Texts of values and what they denote, with `implicit_some` or without. -/
def LangX (i : Bool) : Nat → Text → Value → Prop := GramX i Tok

/-- A document that denotes `v` under the options `o`: layout, attributes, a value that needs no more levels than the limit allows,
layout.  `x` are the extensions that the attributes enable. -/
def DocX (o : Options) (x : Exts) (t : Text) (v : Value) : Prop :=
  ∃ l hdr w l' n, t = l ++ (hdr ++ (w ++ l')) ∧ Layout l ∧ Attrs hdr x ∧ LangX (x.union o.defaultExtensions).implicitSome n w v ∧
    (∀ m, o.recursionLimit = some m → n ≤ m) ∧ Layout l'

/-- A document that denotes `v`: layout, attributes, a value that needs no more levels than the limit allows, layout.  `x` are the
extensions that the attributes enable. -/
def DocOf (x : Exts) (limit : Option Nat) (t : Text) (v : Value) : Prop :=
  ∃ l hdr w l' n, t = l ++ (hdr ++ (w ++ l')) ∧ Layout l ∧ Attrs hdr x ∧ Lang n w v ∧ (∀ m, limit = some m → n ≤ m) ∧ Layout l'

/-- What may stand after the value: layout, and a line comment that the end of the document ends. -/
def Trail (u : Text) : Prop := Layout u ∨ ∃ l o, Layout l ∧ OpenLine o ∧ u = l ++ o

/-- None of the extensions that make text mean something else to the untyped reader. -/
def Exts.Classic (x : Exts) : Prop := x.implicitSome = false ∧ x.unwrapVariantNewtypes = false

end Ron
