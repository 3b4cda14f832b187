import Verif.Model.Base
/-!
# Specification of float literals
-/

namespace Ron

/-- The characters of a float literal. -/
def floatAlphabet : List Char := c!"0123456789eE.+-_"

/-- `t` is the float literal at the front of `t ++ r`: it extends as far as possible, but not over a range operator
`..`, and is not just a sign. -/
structure FloatRun (t r : Text) : Prop where
  ne : t ≠ []
  notPlus : t ≠ ['+']
  notMinus : t ≠ ['-']
  chars : ∀ c ∈ t, c ∈ floatAlphabet
  noDots : ¬ (c!".." <:+: t)
  follow : (∀ c r', r = c :: r' → c ∉ floatAlphabet) ∨ (c!".." <+: r ∧ ∀ p, t ≠ p ++ ['.'])

/-- Every underscore has a digit or exponent letter before it, with no point in between. -/
def UnderscoresOk (t : Text) : Prop :=
  ∀ p q, t = p ++ '_' :: q → ∃ p1 c p2, p = p1 ++ c :: p2 ∧ c ∈ c!"0123456789eE" ∧ '.' ∉ p2

/-- The literal without underscores. -/
def plainFloat (t : Text) : Text := t.filter (· != '_')

end Ron
