import Verif.Spec.IntLit
import Verif.Model.Utf8
/-!
# Specification of string, byte string and character literals

The meaning of a literal body is a sequence of bytes.  For strings and characters the bytes are UTF-8.
-/

namespace Ron

/-- One-character escapes. -/
def simpleEsc (c : Char) : Option Nat :=
  if c = '\'' then some 39 else if c = '"' then some 34 else if c = '\\' then some 92
  else if c = 'n' then some 10 else if c = 'r' then some 13 else if c = 't' then some 9
  else if c = '0' then some 0 else none

/-- `HexSeq e bs`: `x..` escapes for the bytes `bs`, separated by backslashes. -/
inductive HexSeq : Text → List UInt8 → Prop
  | one {c1 c2 : Char} {d1 d2 : Nat} : hexVal c1 = some d1 → hexVal c2 = some d2 →
      HexSeq ['x', c1, c2] [UInt8.ofNat (d1 * 16 + d2)]
  | more {c1 c2 : Char} {d1 d2 : Nat} {e : Text} {bs : List UInt8} : hexVal c1 = some d1 → hexVal c2 = some d2 →
      HexSeq e bs → HexSeq ('x' :: c1 :: c2 :: '\\' :: e) (UInt8.ofNat (d1 * 16 + d2) :: bs)

/-- `Esc bin e bs`: the text `e` after a backslash denotes the bytes `bs` (`bin`: in a byte string). -/
inductive Esc (bin : Bool) : Text → List UInt8 → Prop
  | simple {c : Char} {n : Nat} : simpleEsc c = some n → Esc bin [c] [UInt8.ofNat n]
  | hex {c1 c2 : Char} {d1 d2 : Nat} : hexVal c1 = some d1 → hexVal c2 = some d2 →
      (bin = true ∨ d1 * 16 + d2 < 128) → Esc bin ['x', c1, c2] [UInt8.ofNat (d1 * 16 + d2)]
  | uni {ds : Text} {ch : Char} : ds ≠ [] → ds.length ≤ 6 → (∀ c ∈ ds, ∃ d, hexVal c = some d) →
      ch.toNat = posValue 16 (litDigits ds) → Esc bin ('u' :: '{' :: ds ++ ['}']) (utf8Enc ch)
  | multi {e : Text} {ch : Char} : bin = false → HexSeq e (utf8Enc ch) → Esc bin e (utf8Enc ch)

/-- `StrBody bin t bs`: between double quotes the text `t` denotes `bs`. -/
inductive StrBody (bin : Bool) : Text → List UInt8 → Prop
  | nil : StrBody bin [] []
  | plain {c : Char} {t : Text} {bs : List UInt8} : c ≠ '"' → c ≠ '\\' → StrBody bin t bs →
      StrBody bin (c :: t) (utf8Enc c ++ bs)
  | esc {e t : Text} {b bs : List UInt8} : Esc bin e b → StrBody bin t bs →
      StrBody bin ('\\' :: (e ++ t)) (b ++ bs)

/-- The closing delimiter of a raw string with `n` hashes. -/
def rawClose (n : Nat) : Text := '"' :: List.replicate n '#'

/-- A raw body: the closing delimiter does not occur in `body ++ close` before its end. -/
def RawBody (n : Nat) (body : Text) : Prop :=
  ∀ p q, body ++ rawClose n = p ++ rawClose n ++ q → q = []

/-- A string literal and its value. -/
inductive StrLit : Text → Text → Prop
  | esc {t v : Text} : StrBody false t (utf8EncAll v) → StrLit ('"' :: (t ++ ['"'])) v
  | raw {n : Nat} {v : Text} : RawBody n v → StrLit ('r' :: (List.replicate n '#' ++ '"' :: (v ++ rawClose n))) v

/-- A byte string literal and its value. -/
inductive BytesLit : Text → List UInt8 → Prop
  | esc {t : Text} {bs : List UInt8} : StrBody true t bs → BytesLit ('b' :: '"' :: (t ++ ['"'])) bs
  | raw {n : Nat} {v : Text} : RawBody n v →
      BytesLit ('b' :: 'r' :: (List.replicate n '#' ++ '"' :: (v ++ rawClose n))) (utf8EncAll v)

end Ron
