import Verif.Model.Base
/-!
# UTF-8 (core::str) used by the parser

Rust's `char::encode_utf8`, `char::from_u32` and `str::from_utf8` are std code; they are modelled here by
arithmetic and `Verif/Lemmas/Utf8.lean` relates them to each other and to Lean's own `String.utf8EncodeChar`.
-/

namespace Ron

/-- `char::from_u32`. -/
def charOf? (n : Nat) : Option Char :=
  if h : n.isValidChar then some (Char.ofNatAux n h) else none

/-- `char::encode_utf8`. -/
def utf8Enc (c : Char) : List UInt8 :=
  let n := c.toNat
  if n < 0x80 then [UInt8.ofNat n]
  else if n < 0x800 then [UInt8.ofNat (0xC0 + n / 64), UInt8.ofNat (0x80 + n % 64)]
  else if n < 0x10000 then
    [UInt8.ofNat (0xE0 + n / 4096), UInt8.ofNat (0x80 + n / 64 % 64), UInt8.ofNat (0x80 + n % 64)]
  else
    [UInt8.ofNat (0xF0 + n / 262144), UInt8.ofNat (0x80 + n / 4096 % 64), UInt8.ofNat (0x80 + n / 64 % 64),
     UInt8.ofNat (0x80 + n % 64)]

/-- `str::as_bytes`. -/
def utf8EncAll (t : Text) : List UInt8 := t.flatMap utf8Enc

/-- A continuation byte `10xxxxxx`. -/
def isCont (b : UInt8) : Bool := 0x80 ≤ b.toNat && b.toNat < 0xC0

/-- Decode one character at the front (`str::from_utf8` step; overlong forms and surrogates are invalid). -/
def utf8Next : List UInt8 → Option (Char × List UInt8)
  | [] => none
  | b0 :: r =>
    let n0 := b0.toNat
    if n0 < 0x80 then (charOf? n0).map (·, r)
    else if 0xC0 ≤ n0 && n0 < 0xE0 then
      match r with
      | b1 :: r =>
        let n := (n0 - 0xC0) * 64 + (b1.toNat - 0x80)
        if isCont b1 && 0x80 ≤ n then (charOf? n).map (·, r) else none
      | _ => none
    else if 0xE0 ≤ n0 && n0 < 0xF0 then
      match r with
      | b1 :: b2 :: r =>
        let n := (n0 - 0xE0) * 4096 + (b1.toNat - 0x80) * 64 + (b2.toNat - 0x80)
        if isCont b1 && isCont b2 && 0x800 ≤ n then (charOf? n).map (·, r) else none
      | _ => none
    else if 0xF0 ≤ n0 && n0 < 0xF8 then
      match r with
      | b1 :: b2 :: b3 :: r =>
        let n := (n0 - 0xF0) * 262144 + (b1.toNat - 0x80) * 4096 + (b2.toNat - 0x80) * 64 + (b3.toNat - 0x80)
        if isCont b1 && isCont b2 && isCont b3 && 0x10000 ≤ n then (charOf? n).map (·, r) else none
      | _ => none
    else none

/-- Decode greedily: the characters of the longest valid prefix and the remaining bytes (empty iff all valid).
Models `str::from_utf8` together with `Utf8Error::valid_up_to`. -/
def utf8Split : Nat → List UInt8 → Text × List UInt8
  | 0, bs => ([], bs)
  | f + 1, bs =>
    match utf8Next bs with
    | none => ([], bs)
    | some (c, r) => let (t, rem) := utf8Split f r; (c :: t, rem)

/-- `str::from_utf8`. -/
def utf8Dec (bs : List UInt8) : Option Text :=
  match utf8Split bs.length bs with
  | (t, []) => some t
  | _ => none

/-- The characters of the valid prefix (`&input[..err.valid_up_to()]`). -/
def utf8ValidPrefix (bs : List UInt8) : Text := (utf8Split bs.length bs).1

end Ron
