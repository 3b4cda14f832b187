import Verif.Model.Base
/-!
# Specification of standard padded base64 (RFC 4648, section 4)
-/

namespace Ron

/-- The alphabet; a character stands for its index. -/
def b64Chars : Text := c!"ABCDEFGHIJKLMNOPQRSTUVWXYZabcdefghijklmnopqrstuvwxyz0123456789+/"

/-- The character `c` has the value `n`. -/
def B64Char (c : Char) (n : Nat) : Prop := b64Chars[n]? = some c

/-- The byte of a number below 256. -/
def byteOf (n : Nat) : UInt8 := UInt8.ofNat n

/-- `B64 t bs`: the text `t` is padded base64 for the bytes `bs`: four characters give three bytes; the last group
may have two characters and `==` (one byte, four spare bits) or three characters and `=` (two bytes, two spare bits). -/
inductive B64 : Text → List UInt8 → Prop
  | nil : B64 [] []
  | full {c1 c2 c3 c4 : Char} {a b c d : Nat} {t : Text} {bs : List UInt8} :
      B64Char c1 a → B64Char c2 b → B64Char c3 c → B64Char c4 d → B64 t bs →
      B64 (c1 :: c2 :: c3 :: c4 :: t)
        (byteOf ((a * 2^18 + b * 2^12 + c * 2^6 + d) / 2^16) :: byteOf ((a * 2^18 + b * 2^12 + c * 2^6 + d) / 2^8 % 2^8) ::
          byteOf ((a * 2^18 + b * 2^12 + c * 2^6 + d) % 2^8) :: bs)
  | pad1 {c1 c2 c3 : Char} {a b c : Nat} : B64Char c1 a → B64Char c2 b → B64Char c3 c →
      B64 [c1, c2, c3, '='] [byteOf ((a * 2^18 + b * 2^12 + c * 2^6) / 2^16), byteOf ((a * 2^18 + b * 2^12 + c * 2^6) / 2^8 % 2^8)]
  | pad2 {c1 c2 : Char} {a b : Nat} : B64Char c1 a → B64Char c2 b →
      B64 [c1, c2, '=', '='] [byteOf ((a * 2^18 + b * 2^12) / 2^16)]

/-- The character for a 6 bit value. -/
def b64Char (n : Nat) : Char := b64Chars.getD n 'A'

/-- The canonical encoding (spare bits zero). -/
def b64Enc : List UInt8 → Text
  | [] => []
  | [x] => [b64Char (x.toNat / 4), b64Char (x.toNat % 4 * 16), '=', '=']
  | [x, y] => [b64Char (x.toNat / 4), b64Char (x.toNat % 4 * 16 + y.toNat / 16), b64Char (y.toNat % 16 * 4), '=']
  | x :: y :: z :: bs => b64Char (x.toNat / 4) :: b64Char (x.toNat % 4 * 16 + y.toNat / 16) ::
      b64Char (y.toNat % 16 * 4 + z.toNat / 64) :: b64Char (z.toNat % 64) :: b64Enc bs

end Ron
