import Verif.Model.Value
import Verif.Model.Utf8
/-!
# How the key of a map names the field of a struct

serde's derived structs accept the name of a field as a string, a byte string or a character, and its position.
-/

namespace Ron

/-- A value that can be the key of an entry of a struct. -/
inductive IsKey : Value → Prop
  | str {t : Text} : IsKey (.str t)
  | char {c : Char} : IsKey (.char c)
  | bytes {b : List UInt8} : IsKey (.bytes b)
  | pos {t : IntTy} {i : Int} : t.signed = false → t.bits ≠ 128 → IsKey (.num (.int t i))

/-- `Names fs k n`: the key `k` stands for the field `n` of the fields `fs`. -/
inductive Names (fs : List Text) : Value → Text → Prop
  | str {n : Text} : n ∈ fs → Names fs (.str n) n
  | char {c : Char} : [c] ∈ fs → Names fs (.char c) [c]
  | bytes {n : Text} : n ∈ fs → Names fs (.bytes (utf8EncAll n)) n
  | pos {t : IntTy} {i : Int} {n : Text} : t.signed = false → t.bits ≠ 128 → fs[i.toNat]? = some n → Names fs (.num (.int t i)) n

end Ron
