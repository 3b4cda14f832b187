import Verif.Lemmas.FloatSer
/-!
# Specification of the range notation

`a..b`, `a..=b`, `a..`, `..b` and `..=b` stand for the structs `Range`, `RangeInclusive`, `RangeFrom`, `RangeTo` and
`RangeToInclusive` with the fields `start` and `end`.
-/

namespace Ron

variable [Env]

/-- The number is not changed by being written and read as an untyped number (of any width) and converted back.  The only doubtful
case is an `f32` written without suffix, which is read as `f64` and rounded a second time. -/
def Number.Keeps (sfx : Bool) : Number → Prop
  | .f32 b => sfx = true ∨ b.isNan = true ∨ b.isInf = true ∨ ∃ v, Env.parse64 (f32Text b) = some v ∧ Env.narrow v = b
  | _ => True

/-- The number is not written as a word (`inf` or `NaN` without a sign). -/
def Number.NoWord : Number → Prop
  | .int _ _ => True
  | .f32 b => (b.isNan || b.isInf) = true → b.isNeg = true
  | .f64 b => (b.isNan || b.isInf) = true → b.isNeg = true

/-- The text of the range with the given name and bounds. -/
inductive RangeLit (sfx : Bool) : Text → List (Text × Number) → Text → Prop
  | range {a b : Number} :
      RangeLit sfx c!"Range" [(c!"start", a), (c!"end", b)] (a.text sfx ++ (c!".." ++ b.text sfx))
  | rangeInclusive {a b : Number} :
      RangeLit sfx c!"RangeInclusive" [(c!"start", a), (c!"end", b)] (a.text sfx ++ (c!"..=" ++ b.text sfx))
  | rangeFrom {a : Number} : RangeLit sfx c!"RangeFrom" [(c!"start", a)] (a.text sfx ++ c!"..")
  | rangeTo {b : Number} : RangeLit sfx c!"RangeTo" [(c!"end", b)] (c!".." ++ b.text sfx)
  | rangeToInclusive {b : Number} : RangeLit sfx c!"RangeToInclusive" [(c!"end", b)] (c!"..=" ++ b.text sfx)

end Ron
