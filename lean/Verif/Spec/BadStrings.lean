import Verif.Spec.OneChar
import Verif.Spec.Base64
import Verif.Model.Base
/-!
# Specification of malformed string, byte string and character literals

Which error a malformed literal is, and which part of the text is left at that point.
-/

namespace Ron

/-- Two hexadecimal digits should follow. -/
inductive BadByte : Text → Err → Text → Prop
  | none : BadByte [] .eof []
  | one {c : Char} {d : Nat} : hexVal c = some d → BadByte [c] .eof []
  | first {c : Char} {r : Text} : hexVal c = Option.none → BadByte (c :: r) (.invalidEscape c!"Non-hex digit found") r
  | second {c1 c2 : Char} {d : Nat} {r : Text} : hexVal c1 = some d → hexVal c2 = Option.none →
      BadByte (c1 :: c2 :: r) (.invalidEscape c!"Non-hex digit found") r

/-- After the bytes `acc`, which are not a character, at most `n` more `\x..` should make it one. -/
inductive BadBytes : Nat → List UInt8 → Text → Err → Text → Prop
  | stop {n : Nat} {acc : List UInt8} {r : Text} : n = 0 ∨ ¬ c!"\\x" <+: r →
      BadBytes n acc r (.invalidEscape c!"Not a valid byte-escaped Unicode character") r
  | byte {n : Nat} {acc : List UInt8} {u r : Text} {e : Err} : BadByte u e r → BadBytes (n + 1) acc ('\\' :: 'x' :: u) e r
  | more {n : Nat} {acc : List UInt8} {c1 c2 : Char} {d1 d2 : Nat} {u r : Text} {e : Err} : hexVal c1 = some d1 → hexVal c2 = some d2 →
      (∀ ch, utf8Enc ch ≠ acc ++ [UInt8.ofNat (d1 * 16 + d2)]) → BadBytes n (acc ++ [UInt8.ofNat (d1 * 16 + d2)]) u e r →
      BadBytes (n + 1) acc ('\\' :: 'x' :: c1 :: c2 :: u) e r

/-- After `\u{` and the hexadecimal digits `ds`. -/
inductive BadUni (ds : Text) : Text → Err → Text → Prop
  | eof : ds.length < 6 → BadUni ds [] .eof []
  | hex {c : Char} {r : Text} : ds.length < 6 → c ≠ '}' → hexVal c = none → BadUni ds (c :: r) (.invalidEscape c!"Non-hex digit found") r
  | none {r : Text} : ds = [] → BadUni ds ('}' :: r) (.invalidEscape c!"Expected 1-6 digits, got 0 digits in Unicode escape") ('}' :: r)
  | close {r : Text} : ds.length = 6 → r.head? ≠ some '}' → BadUni ds r (.invalidEscape c!"No } at the end of Unicode escape") r
  | value {r : Text} : ds ≠ [] → (∀ ch : Char, ch.toNat ≠ posValue 16 (litDigits ds)) →
      BadUni ds ('}' :: r) (.invalidEscape c!"Not a valid Unicode-escaped character") r

/-- The text after a backslash is not an escape (`bin`: in a byte string, `single`: in a character). -/
inductive BadEsc (bin single : Bool) : Text → Err → Text → Prop
  | eof : BadEsc bin single [] .eof []
  | unknown {c : Char} {r : Text} : simpleEsc c = none → c ≠ 'x' → c ≠ 'u' →
      BadEsc bin single (c :: r) (.invalidEscape c!"Unknown escape character") r
  | byte {u r : Text} {e : Err} : BadByte u e r → BadEsc bin single ('x' :: u) e r
  | single {c1 c2 : Char} {d1 d2 : Nat} {r : Text} : bin = false → single = true → hexVal c1 = some d1 → hexVal c2 = some d2 → 128 ≤ d1 * 16 + d2 →
      BadEsc bin single ('x' :: c1 :: c2 :: r) (.invalidEscape c!"Not a valid byte-escaped Unicode character") r
  | bytes {c1 c2 : Char} {d1 d2 : Nat} {u r : Text} {e : Err} : bin = false → single = false → hexVal c1 = some d1 → hexVal c2 = some d2 →
      128 ≤ d1 * 16 + d2 → BadBytes 3 [UInt8.ofNat (d1 * 16 + d2)] u e r → BadEsc bin single ('x' :: c1 :: c2 :: u) e r
  | brace {r : Text} : r.head? ≠ some '{' → BadEsc bin single ('u' :: r) (.invalidEscape c!"Missing { in Unicode escape") r
  | uni {ds u r : Text} {e : Err} : ds.length ≤ 6 → (∀ c ∈ ds, ∃ d, hexVal c = some d) → BadUni ds u e r →
      BadEsc bin single ('u' :: '{' :: (ds ++ u)) e r

/-- The text after the opening quote is not the rest of a literal. -/
inductive BadBody (bin : Bool) : Text → Err → Text → Prop
  | open {u : Text} : '"' ∉ u → BadBody bin u .expectedStringEnd u
  | unclosed {t e p : Text} {bs b : List UInt8} : '"' ∈ t ++ '\\' :: (e ++ p) → StrBody bin t bs → Esc bin e b → (∀ c ∈ p, c ≠ '"' ∧ c ≠ '\\') →
      BadBody bin (t ++ '\\' :: (e ++ p)) .expectedStringEnd p
  | esc {t u r : Text} {bs : List UInt8} {e : Err} : '"' ∈ t ++ '\\' :: u → StrBody bin t bs → BadEsc bin false u e r →
      BadBody bin (t ++ '\\' :: u) e r

/-- The text after the `r` of a raw literal is not the rest of one (`miss`: the error for a missing quote). -/
inductive BadRaw (miss : Err) : Text → Err → Text → Prop
  | quote {n : Nat} {r : Text} : r.head? ≠ some '#' → r.head? ≠ some '"' → BadRaw miss (List.replicate n '#' ++ r) miss r
  | open {n : Nat} {r : Text} : (∀ p q, r ≠ p ++ rawClose n ++ q) → BadRaw miss (List.replicate n '#' ++ '"' :: r) .expectedStringEnd r

/-- The text is not a string literal followed by something. -/
inductive BadStr : Text → Err → Text → Prop
  | start {r : Text} : r.head? ≠ some '"' → r.head? ≠ some 'r' → BadStr r .expectedString r
  | esc {u r : Text} {e : Err} : BadBody false u e r → BadStr ('"' :: u) e r
  | raw {u r : Text} {e : Err} : BadRaw .expectedString u e r → BadStr ('r' :: u) e r

/-- The text is not a byte string literal followed by something.  Strings are not byte strings; a string in base64 gets a suggestion
(`found`: the error for the string and the bytes it encodes). -/
inductive BadBytesLit (found : Text → List UInt8 → Err) : Text → Err → Text → Prop
  | start {r : Text} : r.head? ≠ some '"' → r.head? ≠ some 'r' → ¬ c!"b\"" <+: r → ¬ c!"br" <+: r → BadBytesLit found r .expectedByteString r
  | esc {u r : Text} {e : Err} : BadBody true u e r → BadBytesLit found ('b' :: '"' :: u) e r
  | raw {u r : Text} {e : Err} : BadRaw .expectedByteString u e r → BadBytesLit found ('b' :: 'r' :: u) e r
  | string {u r : Text} {e : Err} : u.head? = some '"' ∨ u.head? = some 'r' → BadStr u e r → BadBytesLit found u e r
  | base64 {t v r : Text} {bs : List UInt8} : StrLit t v → B64 v bs → BadBytesLit found (t ++ r) (found v bs) r
  | text {t v r : Text} : StrLit t v → (∀ bs, ¬ B64 v bs) → BadBytesLit found (t ++ r) .expectedByteString r

/-- The text is not a character literal followed by something. -/
inductive BadChar : Text → Err → Text → Prop
  | start {r : Text} : r.head? ≠ some '\'' → BadChar r .expectedChar r
  | eof : BadChar ['\''] .eof []
  | esc {u r : Text} {e : Err} : BadEsc false true u e r → BadChar ('\'' :: '\\' :: u) e r
  | plain {c : Char} {r : Text} : c ≠ '\\' → r.head? ≠ some '\'' → BadChar ('\'' :: c :: r) .expectedChar r
  | unclosed {e r : Text} {c : Char} : CharEsc e c → r.head? ≠ some '\'' → BadChar ('\'' :: '\\' :: (e ++ r)) .expectedChar r

/-- The text after `b'` is not the rest of a byte literal. -/
inductive BadByteLit : Text → Err → Text → Prop
  | eof : BadByteLit [] .eof []
  | esc {u r : Text} {e : Err} : BadEsc true true u e r → BadByteLit ('\\' :: u) e r
  | uni {ds r : Text} {ch : Char} : ds ≠ [] → ds.length ≤ 6 → (∀ c ∈ ds, ∃ d, hexVal c = some d) → ch.toNat = posValue 16 (litDigits ds) →
      BadByteLit ('\\' :: 'u' :: '{' :: (ds ++ '}' :: r)) (.invalidEscape c!"Unexpected Unicode escape in byte literal") r
  | wide {c : Char} {r : Text} : c ≠ '\\' → 128 ≤ c.toNat → BadByteLit (c :: r) .expectedByteLiteral r
  | plain {c : Char} {r : Text} : c ≠ '\\' → c.toNat < 128 → r.head? ≠ some '\'' → BadByteLit (c :: r) .expectedByteLiteral r
  | unclosed {e r : Text} {n : Nat} : ByteEsc e n → r.head? ≠ some '\'' → BadByteLit ('\\' :: (e ++ r)) .expectedByteLiteral r

end Ron
