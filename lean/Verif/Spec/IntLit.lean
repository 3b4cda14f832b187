import Verif.Model.Base
/-!
# Specification of RON integer literals and their mathematical value

Nothing here refers to the parser.
-/

namespace Ron

/-- Value of a hexadecimal digit. -/
def hexVal (c : Char) : Option Nat :=
  if '0' ≤ c ∧ c ≤ '9' then some (c.toNat - '0'.toNat)
  else if 'a' ≤ c ∧ c ≤ 'f' then some (c.toNat - 'a'.toNat + 10)
  else if 'A' ≤ c ∧ c ≤ 'F' then some (c.toNat - 'A'.toNat + 10)
  else none

/-- Positional value of a digit string: the digit at distance `k` from the right counts `base ^ k`. -/
def posValue (base : Nat) : List Nat → Nat
  | [] => 0
  | d :: ds => d * base ^ ds.length + posValue base ds

/-- The digits of a literal body, underscores removed. -/
def litDigits (t : Text) : List Nat := (t.filter (· ≠ '_')).filterMap hexVal

/-- A literal body in a base: not empty, does not begin with an underscore, every other character is a digit
below the base. -/
def ValidBody (base : Nat) (t : Text) : Prop :=
  t ≠ [] ∧ t.head? ≠ some '_' ∧ ∀ c ∈ t, c = '_' ∨ ∃ d, hexVal c = some d ∧ d < base

/-- The four bases with their prefix. -/
inductive LitBase | bin | oct | dec | hex

def LitBase.pre : LitBase → Text
  | .bin => c!"0b" | .oct => c!"0o" | .dec => [] | .hex => c!"0x"
def LitBase.base : LitBase → Nat
  | .bin => 2 | .oct => 8 | .dec => 10 | .hex => 16

/-- Optional sign. -/
inductive LitSign | none | plus | minus
deriving DecidableEq

def LitSign.text : LitSign → Text
  | .none => [] | .plus => c!"+" | .minus => c!"-"
def LitSign.apply : LitSign → Nat → Int
  | .minus, n => - (n : Int)
  | _, n => n

/-- The text of an optional type suffix. -/
def suffixText : Option IntTy → Text
  | some t => t.suffix
  | none => []

/-- An integer literal: its text, its type suffix and its mathematical value. -/
structure IntLit where
  sign : LitSign
  base : LitBase
  body : Text
  suffix : Option IntTy

/-- The digits are digits of the base. -/
def IntLit.Valid (l : IntLit) : Prop := ValidBody l.base.base l.body
/-- The text of a literal. -/
def IntLit.text (l : IntLit) : Text := l.sign.text ++ l.base.pre ++ l.body ++ suffixText l.suffix
/-- The number a literal denotes. -/
def IntLit.value (l : IntLit) : Int := l.sign.apply (posValue l.base.base (litDigits l.body))

/-- The next character cannot continue an identifier, keyword or number. -/
def NoIdentStart [Env] (r : Text) : Prop := ∀ c r', r = c :: r' → Env.xidCont c = false

/-- Is the type available (128 bit integers need the feature `integer128`)? -/
def IntTy.Avail [Env] (t : IntTy) : Prop := (t = .i128 ∨ t = .u128) → Env.int128 = true

/-- A number of a type the build has, with a value of that type (true by construction in Rust). -/
def Number.WF [Env] : Number → Prop
  | .int t v => t.Avail ∧ t.InRange v
  | _ => True

end Ron
