/-!
# Base definitions of the model

External code (unicode-ident, std float formatting, std `escape_debug` tables) and crate features are
collected in the class `Env`.  Texts are `List Char`, byte strings are `List UInt8`.
-/

namespace Ron

open Lean in
/-- `c!"abc"` is the list of characters of a string literal (a notation, no semantics). -/
macro:max "c!" s:str : term => do
  let cs : List (TSyntax `term) := s.getString.toList.map (fun c => ⟨Syntax.mkCharLit c⟩)
  let rec go : List (TSyntax `term) → MacroM (TSyntax `term)
    | [] => `(List.nil)
    | x :: xs => do let t ← go xs; `(List.cons $x $t)
  let t ← go cs
  `(($t : List Char))

/-- A text. -/
abbrev Text := List Char

/-- src/parse.rs:37-51 `is_whitespace_char`. -/
def isWs (c : Char) : Bool :=
  c == ' ' || c == '\t' || c == '\n' || c == '\r' || c == '\x0B' || c == '\x0C' ||
  c == '\u0085' || c == '\u200e' || c == '\u200f' || c == '\u2028' || c == '\u2029'

/-- src/parse.rs:21-23 `char::is_ascii_hexdigit` part of `is_int_char`. -/
def isHexDigit (c : Char) : Bool :=
  ('0' ≤ c && c ≤ '9') || ('a' ≤ c && c ≤ 'f') || ('A' ≤ c && c ≤ 'F')

/-- src/parse.rs:21-23 `is_int_char`. -/
def isIntChar (c : Char) : Bool := isHexDigit c || c == '_'

/-- `char::is_ascii_digit` (std). -/
def isDigit (c : Char) : Bool := '0' ≤ c && c ≤ '9'

/-- src/parse.rs:25-27 `is_float_char`. -/
def isFloatChar (c : Char) : Bool :=
  isDigit c || c == 'e' || c == 'E' || c == '.' || c == '+' || c == '-' || c == '_'

/-- ASCII letters. -/
def isAsciiAlpha (c : Char) : Bool := ('a' ≤ c && c ≤ 'z') || ('A' ≤ c && c ≤ 'Z')

/-- Bit patterns of IEEE floats. -/
abbrev F32 := BitVec 32
abbrev F64 := BitVec 64

/-- `f32::is_nan` on the bit pattern. -/
def F32.isNan (b : F32) : Bool := b.toNat % 2^31 > 0x7F800000
/-- `f32::is_sign_negative`. -/
def F32.isNeg (b : F32) : Bool := b.toNat ≥ 2^31
/-- `f32::is_infinite`. -/
def F32.isInf (b : F32) : Bool := b.toNat % 2^31 == 0x7F800000
/-- `f64::is_nan`. -/
def F64.isNan (b : F64) : Bool := b.toNat % 2^63 > 0x7FF0000000000000
/-- `f64::is_sign_negative`. -/
def F64.isNeg (b : F64) : Bool := b.toNat ≥ 2^63
/-- `f64::is_infinite`. -/
def F64.isInf (b : F64) : Bool := b.toNat % 2^63 == 0x7FF0000000000000

/-- `v % 1. == 0.0` (src/ser/mod.rs:800, 821): the value is finite and an integer.  With exponent field `e`
and mantissa `m` (hidden bit included) the value is `m * 2^(e-150)`. -/
def F32.integral (b : F32) : Bool :=
  let e := (b.toNat / 2^23) % 2^8
  let f := b.toNat % 2^23
  if e == 255 then false
  else if e == 0 then f == 0
  else e ≥ 150 || (2^23 + f) % 2^(150 - e) == 0

/-- `v % 1. == 0.0` for f64. -/
def F64.integral (b : F64) : Bool :=
  let e := (b.toNat / 2^52) % 2^11
  let f := b.toNat % 2^52
  if e == 2047 then false
  else if e == 0 then f == 0
  else e ≥ 1075 || (2^52 + f) % 2^(1075 - e) == 0

/-- The canonical bit patterns used by `core::f32::{INFINITY, NAN}` etc. -/
def F32.inf : F32 := 0x7F800000#32
def F32.negInf : F32 := 0xFF800000#32
def F32.nan : F32 := 0x7FC00000#32
def F32.negNan : F32 := 0xFFC00000#32
def F64.inf : F64 := 0x7FF0000000000000#64
def F64.negInf : F64 := 0xFFF0000000000000#64
def F64.nan : F64 := 0x7FF8000000000000#64
def F64.negNan : F64 := 0xFFF8000000000000#64

/-- `digits` or `digits.digits`, preceded by an optional `-`: the shape of Rust's `{}` output for finite floats. -/
def IsDigits (t : Text) : Prop := t ≠ [] ∧ ∀ c ∈ t, isDigit c = true

/-- Everything that is not in /repo: crate features, `unicode-ident`, `escape_debug` and float conversions of std.
The `Prop` fields are the assumed laws; they are listed in DESIGN.md. -/
class Env where
  /-- cargo feature `integer128` -/
  int128 : Bool
  /-- cargo feature `indexmap` -/
  indexmap : Bool
  /-- `unicode_ident::is_xid_start` -/
  xidStart : Char → Bool
  /-- `unicode_ident::is_xid_continue` -/
  xidCont : Char → Bool
  /-- characters that `char::escape_debug` writes as `\u{..}` (non-printable or grapheme-extending) -/
  escU : Char → Bool
  /-- `{}` formatting of an `f32` -/
  fmt32 : F32 → Text
  /-- `{}` formatting of an `f64` -/
  fmt64 : F64 → Text
  /-- `f32::from_str` -/
  parse32 : Text → Option F32
  /-- `f64::from_str` -/
  parse64 : Text → Option F64
  /-- `v as f32` -/
  narrow : F64 → F32
  /-- `f64::from(v)` -/
  widen : F32 → F64
  /-- `v as f32` for an integer `v` -/
  intF32 : Int → F32
  /-- `v as f64` for an integer `v` -/
  intF64 : Int → F64
  xidStart_ascii : ∀ c : Char, c.toNat < 128 → xidStart c = isAsciiAlpha c
  xidCont_ascii : ∀ c : Char, c.toNat < 128 → xidCont c = (isAsciiAlpha c || isDigit c || c == '_')
  xidStart_cont : ∀ c : Char, xidStart c = true → xidCont c = true
  xidCont_ws : ∀ c : Char, isWs c = true → xidCont c = false
  /-- `{}` prints a finite float as an optional sign, digits and, unless it is an integer, a point and digits. -/
  fmt32_finite : ∀ b : F32, b.isNan = false → b.isInf = false → ∃ ip fp, IsDigits ip ∧ IsDigits fp ∧
    fmt32 b = (if b.isNeg then ['-'] else []) ++ ip ++ (if b.integral then [] else '.' :: fp)
  fmt64_finite : ∀ b : F64, b.isNan = false → b.isInf = false → ∃ ip fp, IsDigits ip ∧ IsDigits fp ∧
    fmt64 b = (if b.isNeg then ['-'] else []) ++ ip ++ (if b.integral then [] else '.' :: fp)
  /-- `from_str` reads back what `{}` printed (with a `.0` appended to integers). -/
  parse32_fmt : ∀ b : F32, b.isNan = false → b.isInf = false →
    parse32 (fmt32 b ++ (if b.integral then ['.', '0'] else [])) = some b
  parse64_fmt : ∀ b : F64, b.isNan = false → b.isInf = false →
    parse64 (fmt64 b ++ (if b.integral then ['.', '0'] else [])) = some b
  /-- `from_str` accepts every plain decimal number. -/
  parse32_decimal : ∀ sg ip fp : Text, sg = [] ∨ sg = ['-'] → IsDigits ip → IsDigits fp →
    (parse32 (sg ++ ip ++ '.' :: fp)).isSome = true
  parse64_decimal : ∀ sg ip fp : Text, sg = [] ∨ sg = ['-'] → IsDigits ip → IsDigits fp →
    (parse64 (sg ++ ip ++ '.' :: fp)).isSome = true
  fmt32_nan : ∀ b : F32, b.isNan = true → fmt32 b = ['N', 'a', 'N']
  fmt64_nan : ∀ b : F64, b.isNan = true → fmt64 b = ['N', 'a', 'N']
  fmt32_inf : fmt32 F32.inf = ['i', 'n', 'f'] ∧ fmt32 F32.negInf = ['-', 'i', 'n', 'f']
  fmt64_inf : fmt64 F64.inf = ['i', 'n', 'f'] ∧ fmt64 F64.negInf = ['-', 'i', 'n', 'f']
  /-- `from_str` on the special literals. -/
  parse32_inf : parse32 ['i', 'n', 'f'] = some F32.inf ∧ parse32 ['+', 'i', 'n', 'f'] = some F32.inf ∧
    parse32 ['-', 'i', 'n', 'f'] = some F32.negInf
  parse64_inf : parse64 ['i', 'n', 'f'] = some F64.inf ∧ parse64 ['+', 'i', 'n', 'f'] = some F64.inf ∧
    parse64 ['-', 'i', 'n', 'f'] = some F64.negInf
  parse32_nan : parse32 ['N', 'a', 'N'] = some F32.nan ∧ parse32 ['+', 'N', 'a', 'N'] = some F32.nan ∧
    parse32 ['-', 'N', 'a', 'N'] = some F32.negNan
  parse64_nan : parse64 ['N', 'a', 'N'] = some F64.nan ∧ parse64 ['+', 'N', 'a', 'N'] = some F64.nan ∧
    parse64 ['-', 'N', 'a', 'N'] = some F64.negNan
  /-- `as f32` and `f64::from` are inverse on infinities and canonical NaNs. -/
  narrow_special : narrow F64.inf = F32.inf ∧ narrow F64.negInf = F32.negInf ∧ narrow F64.nan = F32.nan ∧
    narrow F64.negNan = F32.negNan
  widen_special : widen F32.inf = F64.inf ∧ widen F32.negInf = F64.negInf ∧ widen F32.nan = F64.nan ∧
    widen F32.negNan = F64.negNan

/-- src/parse.rs:29-31 `is_ident_first_char`. -/
def isIdentFirst [Env] (c : Char) : Bool := c == '_' || Env.xidStart c

/-- src/parse.rs:33-35 `is_ident_raw_char`. -/
def isIdentRaw [Env] (c : Char) : Bool := (c == '.' || c == '+' || c == '-') || Env.xidCont c

/-- src/extensions.rs:6-14 `Extensions`: a set of four flags (bits 1, 2, 4, 8). -/
structure Exts where
  unwrapNewtypes : Bool := false
  implicitSome : Bool := false
  unwrapVariantNewtypes : Bool := false
  explicitStructNames : Bool := false
deriving DecidableEq, Repr

namespace Exts
/-- `Extensions::empty()` (bitflags). -/
def empty : Exts := {}
/-- `|` (bitflags). -/
def union (a b : Exts) : Exts :=
  ⟨a.unwrapNewtypes || b.unwrapNewtypes, a.implicitSome || b.implicitSome,
   a.unwrapVariantNewtypes || b.unwrapVariantNewtypes, a.explicitStructNames || b.explicitStructNames⟩
/-- `&` (bitflags). -/
def inter (a b : Exts) : Exts :=
  ⟨a.unwrapNewtypes && b.unwrapNewtypes, a.implicitSome && b.implicitSome,
   a.unwrapVariantNewtypes && b.unwrapVariantNewtypes, a.explicitStructNames && b.explicitStructNames⟩
/-- `!` (bitflags, truncated to known bits). -/
def compl (a : Exts) : Exts :=
  ⟨!a.unwrapNewtypes, !a.implicitSome, !a.unwrapVariantNewtypes, !a.explicitStructNames⟩
/-- `is_empty`. -/
def isEmpty (a : Exts) : Bool := a == empty
/-- `a ⊆ b`. -/
def Sub (a b : Exts) : Prop := a.union b = b
end Exts

/-- src/extensions.rs:21-29 `Extensions::from_ident`: lower-case names. -/
def Exts.fromIdent (t : Text) : Option Exts :=
  if t = c!"unwrap_newtypes" then some { unwrapNewtypes := true }
  else if t = c!"implicit_some" then some { implicitSome := true }
  else if t = c!"unwrap_variant_newtypes" then some { unwrapVariantNewtypes := true }
  else if t = c!"explicit_struct_names" then some { explicitStructNames := true }
  else none

/-- bitflags `iter_names`, in declaration order, lower-cased as src/ser/mod.rs:475 does. -/
def Exts.names (e : Exts) : List Text :=
  (if e.unwrapNewtypes then [c!"unwrap_newtypes"] else []) ++
  (if e.implicitSome then [c!"implicit_some"] else []) ++
  (if e.unwrapVariantNewtypes then [c!"unwrap_variant_newtypes"] else []) ++
  (if e.explicitStructNames then [c!"explicit_struct_names"] else [])

/-- The integer types. -/
inductive IntTy
  | i8 | i16 | i32 | i64 | i128 | u8 | u16 | u32 | u64 | u128
deriving DecidableEq, Repr

namespace IntTy
/-- `T::BITS` -/
def bits : IntTy → Nat
  | i8 | u8 => 8 | i16 | u16 => 16 | i32 | u32 => 32 | i64 | u64 => 64 | i128 | u128 => 128
/-- signedness -/
def signed : IntTy → Bool
  | i8 | i16 | i32 | i64 | i128 => true
  | _ => false
/-- `T::MIN` -/
def min (t : IntTy) : Int := if t.signed then -(2 ^ (t.bits - 1) : Nat) else 0
/-- `T::MAX` -/
def max (t : IntTy) : Int := if t.signed then (2 ^ (t.bits - 1) : Nat) - 1 else (2 ^ t.bits : Nat) - 1
/-- the value is representable -/
def InRange (t : IntTy) (v : Int) : Prop := t.min ≤ v ∧ v ≤ t.max
instance (t : IntTy) (v : Int) : Decidable (t.InRange v) := by unfold InRange; infer_instance
/-- The suffix text of the type, as in src/parse.rs:359-440 and src/ser/mod.rs:745-788. -/
def suffix : IntTy → Text
  | i8 => c!"i8" | i16 => c!"i16" | i32 => c!"i32" | i64 => c!"i64" | i128 => c!"i128"
  | u8 => c!"u8" | u16 => c!"u16" | u32 => c!"u32" | u64 => c!"u64" | u128 => c!"u128"
end IntTy

/-- src/value/number.rs:38-56 `Number`: an integer with its type, or a float bit pattern. -/
inductive Number
  | int (t : IntTy) (v : Int)
  | f32 (b : F32)
  | f64 (b : F64)
deriving DecidableEq, Repr

/-- src/error.rs:30-116 `Error`.  `fuel` and `panic` are not Rust errors: they mark exhaustion of
the model's recursion fuel and a panic. -/
inductive Err
  | fuel | panic
  | fmt | io (msg : Text) | message (msg : Text) | eof
  | expectedArray | expectedArrayEnd | expectedAttribute | expectedAttributeEnd | expectedBoolean
  | expectedComma | expectedChar | expectedByteLiteral | expectedFloat | floatUnderscore | expectedInteger
  | expectedOption | expectedOptionEnd | expectedMap | expectedMapColon | expectedMapEnd
  | expectedDifferentStructName (expected found : Text)
  | expectedStructLike | expectedNamedStructLike (name : Text) | expectedStructLikeEnd | expectedUnit
  | expectedString | expectedByteString | expectedStringEnd | expectedIdentifier
  | invalidEscape (msg : Text)
  | integerOutOfBounds | invalidIntegerDigit (digit : Char) (base : Nat)
  | noSuchExtension (name : Text)
  | unclosedBlockComment | unclosedLineComment | underscoreAtBeginning | unexpectedChar (c : Char)
  | utf8Error | trailingCharacters
  | invalidValueForType (expected found : Text)
  | expectedDifferentLength (expected : Text) (found : Nat)
  | noSuchEnumVariant (expected : List Text) (found : Text) (outer : Option Text)
  | noSuchStructField (expected : List Text) (found : Text) (outer : Option Text)
  | missingStructField (field : Text) (outer : Option Text)
  | duplicateStructField (field : Text) (outer : Option Text)
  | invalidIdentifier (name : Text) | suggestRawIdentifier (name : Text)
  | expectedRawValue | exceededRecursionLimit | expectedStructName (name : Text) | expectedRangeSyntax
deriving DecidableEq, Repr

end Ron
