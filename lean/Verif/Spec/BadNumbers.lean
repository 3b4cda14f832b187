import Verif.Spec.IntLit
import Verif.Spec.Float
/-!
# Specification of every text a number may be read from: what is read, or what is wrong and where

Nothing here refers to the parser.
-/

namespace Ron

/-- Digits of a base, and underscores. -/
def AllDigits (base : Nat) (t : Text) : Prop := ∀ c ∈ t, c = '_' ∨ ∃ d, hexVal c = some d ∧ d < base

/-- The number a sign and a run of digits denote. -/
def runValue (sg : LitSign) (base : Nat) (t : Text) : Int := sg.apply (posValue base (litDigits t))

/-- A run of hexadecimal digits and underscores that is no number of type `t` in the base: the error, and how much of the run is left. -/
inductive BadDigits (t : IntTy) (sg : LitSign) (base : Nat) (body : Text) : Err → Text → Prop
  /-- No digit. -/
  | none : body = [] → BadDigits t sg base body .expectedInteger []
  /-- An underscore before the first digit. -/
  | underscore : body.head? = some '_' → BadDigits t sg base body .underscoreAtBeginning body
  /-- A digit that is not of the base, unless the number has become too large before it (a further digit would be too much). -/
  | digit {p q : Text} {c : Char} {d : Nat} : body = p ++ c :: q → body.head? ≠ some '_' → AllDigits base p → hexVal c = some d → base ≤ d →
      t.InRange (runValue sg base p * base) → BadDigits t sg base body (.invalidIntegerDigit c base) (c :: q)
  /-- A number too large: some digit, whatever it is, leaves the range. -/
  | large {p q : Text} {c : Char} : body = p ++ c :: q → body.head? ≠ some '_' → AllDigits base p → c ≠ '_' →
      ¬ t.InRange (runValue sg base p * base) → BadDigits t sg base body .integerOutOfBounds []
  /-- A number too large: the digit leaves the range. -/
  | larger {p q : Text} {c : Char} {d : Nat} : body = p ++ c :: q → body.head? ≠ some '_' → AllDigits base p → hexVal c = some d → d < base →
      ¬ t.InRange (runValue sg base (p ++ [c])) → BadDigits t sg base body .integerOutOfBounds []

/-- How a text is divided: sign, base prefix, the longest run of hexadecimal digits and underscores, what follows. -/
structure NumSplit (u : Text) (sg : LitSign) (b : LitBase) (body after : Text) : Prop where
  nonempty : u ≠ []
  text : u = sg.text ++ (b.pre ++ (body ++ after))
  unsigned : sg = .none → u.head? ≠ some '+' ∧ u.head? ≠ some '-'
  decimal : b = .dec → ∀ (b' : LitBase) (r : Text), b'.pre ≠ [] → body ++ after ≠ b'.pre ++ r
  run : ∀ c ∈ body, c = '_' ∨ ∃ d, hexVal c = some d
  stop : ∀ c r, after = c :: r → c ≠ '_' ∧ hexVal c = none

/-- What follows the digits begins with the suffix of a type, as a whole word. -/
def SuffixAt [Env] (after : Text) (t : IntTy) (r : Text) : Prop := t.Avail ∧ after = t.suffix ++ r ∧ NoIdentStart r

/-- What an error calls a type. -/
def IntTy.called : IntTy → Text
  | .i8 => c!"an 8-bit signed integer" | .i16 => c!"an 16-bit signed integer" | .i32 => c!"an 32-bit signed integer"
  | .i64 => c!"an 64-bit signed integer" | .i128 => c!"an 128-bit signed integer" | .u8 => c!"an 8-bit unsigned integer"
  | .u16 => c!"an 16-bit unsigned integer" | .u32 => c!"an 32-bit unsigned integer" | .u64 => c!"an 64-bit unsigned integer"
  | .u128 => c!"an 128-bit unsigned integer"

/-- A text that starts with a number of the type: the number, and what is left. -/
inductive GoodInt [Env] (T : IntTy) : Text → Int → Text → Prop
  | plain {u body after : Text} {sg : LitSign} {b : LitBase} : NumSplit u sg b body after → (∀ S r, ¬ SuffixAt after S r) →
      ValidBody b.base body → T.InRange (runValue sg b.base body) → GoodInt T u (runValue sg b.base body) after
  | suffix {u body after r : Text} {sg : LitSign} {b : LitBase} : NumSplit u sg b body after → SuffixAt after T r →
      ValidBody b.base body → T.InRange (runValue sg b.base body) → GoodInt T u (runValue sg b.base body) r

/-- A text that does not: the error, and what is left. -/
inductive BadInt [Env] (T : IntTy) : Text → Err → Text → Prop
  | eof : BadInt T [] .eof []
  /-- No suffix: the digits are no number of the type. -/
  | plain {u body after l : Text} {sg : LitSign} {b : LitBase} {e : Err} : NumSplit u sg b body after → (∀ S r, ¬ SuffixAt after S r) →
      BadDigits T sg b.base body e l → BadInt T u e (l ++ after)
  /-- A suffix: a defect of the digits is found at the digit ... -/
  | here {u body after l r : Text} {sg : LitSign} {b : LitBase} {S : IntTy} {e : Err} : NumSplit u sg b body after → SuffixAt after S r →
      BadDigits S sg b.base body e l → e ≠ .expectedInteger → e ≠ .integerOutOfBounds → BadInt T u e (l ++ after)
  /-- ... and one of the number after the suffix. -/
  | past {u body after l r : Text} {sg : LitSign} {b : LitBase} {S : IntTy} {e : Err} : NumSplit u sg b body after → SuffixAt after S r →
      BadDigits S sg b.base body e l → e = .expectedInteger ∨ e = .integerOutOfBounds → BadInt T u e r
  /-- The suffix of another type. -/
  | other {u lit body after r : Text} {sg : LitSign} {b : LitBase} {S : IntTy} : NumSplit u sg b body after → SuffixAt after S r →
      ValidBody b.base body → S.InRange (runValue sg b.base body) → S ≠ T → u = lit ++ r → BadInt T u (.invalidValueForType T.called lit) r

/-! ### Floats -/

/-- The numbers that are words. -/
inductive FloatWord : Text → F32 → F64 → Prop
  | inf : FloatWord c!"inf" F32.inf F64.inf
  | posInf : FloatWord c!"+inf" F32.inf F64.inf
  | negInf : FloatWord c!"-inf" F32.negInf F64.negInf
  | nan : FloatWord c!"NaN" F32.nan F64.nan
  | posNan : FloatWord c!"+NaN" F32.nan F64.nan
  | negNan : FloatWord c!"-NaN" F32.negNan F64.negNan

/-- The suffix that names a float type; `true` is the type of 32 bits. -/
def floatTag : Bool → Text
  | true => c!"f32" | false => c!"f64"

/-- The text begins with such a word, alone or with a suffix. -/
def WordAt [Env] (u w : Text) (x : F32) (y : F64) (tag : Option Bool) (r : Text) : Prop :=
  FloatWord w x y ∧ u = w ++ ((match tag with | some b => floatTag b | none => []) ++ r) ∧ NoIdentStart r

/-- No word, but a run of characters of floats: it extends as far as possible, but not over a range operator `..`. -/
structure FloatSplit [Env] (u t r : Text) : Prop where
  noWord : ∀ w x y tag r', ¬ WordAt u w x y tag r'
  text : u = t ++ r
  chars : ∀ c ∈ t, c ∈ floatAlphabet
  noDots : ¬ (c!".." <:+: t)
  follow : (∀ c r', r = c :: r' → c ∉ floatAlphabet) ∨ (c!".." <+: r ∧ ∀ p, t ≠ p ++ ['.'])

/-- What follows the run begins with the suffix of a type, as a whole word. -/
def TagAt [Env] (after : Text) (b : Bool) (r : Text) : Prop := after = floatTag b ++ r ∧ NoIdentStart r

/-- What the standard library makes of a run of digits. -/
def stdNumber [Env] (b : Bool) (t : Text) : Option Number :=
  if b then (Env.parse32 t).map Number.f32 else (Env.parse64 t).map Number.f64

/-- What an error calls a float type. -/
def floatCalled : Bool → Text
  | true => c!"a 32-bit floating point number" | false => c!"a 64-bit floating point number"

/-- A text that starts with a number of the type (32 bits if `b`): the number, and what is left. -/
inductive GoodFloat [Env] (b : Bool) (u : Text) : Number → Text → Prop
  | word {w r : Text} {x : F32} {y : F64} {tag : Option Bool} : WordAt u w x y tag r → tag = none ∨ tag = some b →
      GoodFloat b u (if b then .f32 x else .f64 y) r
  | plain {t r : Text} {v : Number} : FloatSplit u t r → t ≠ [] → UnderscoresOk t → (∀ b' r', ¬ TagAt r b' r') →
      stdNumber b (plainFloat t) = some v → GoodFloat b u v r
  | suffix {t r r' : Text} {v : Number} : FloatSplit u t r → t ≠ [] → UnderscoresOk t → TagAt r b r' →
      stdNumber b (plainFloat t) = some v → GoodFloat b u v r'

/-- A text that does not: the error, and what is left. -/
inductive BadFloat [Env] (b : Bool) (u : Text) : Err → Text → Prop
  /-- The suffix of the other type. -/
  | word {w r : Text} {x : F32} {y : F64} {b' : Bool} : WordAt u w x y (some b') r → b' ≠ b →
      BadFloat b u (.invalidValueForType (floatCalled b) (w ++ floatTag b')) r
  | none {r : Text} : FloatSplit u [] r → BadFloat b u .expectedFloat u
  | underscore {t r : Text} : FloatSplit u t r → t.head? = some '_' → BadFloat b u .underscoreAtBeginning u
  /-- The first underscore that has no digit before it since the start or the point. -/
  | misplaced {t r p q : Text} : FloatSplit u t r → t.head? ≠ some '_' → t = p ++ '_' :: q → UnderscoresOk p →
      (¬ ∃ p1 c p2, p = p1 ++ c :: p2 ∧ c ∈ c!"0123456789eE" ∧ '.' ∉ p2) → BadFloat b u .floatUnderscore ('_' :: q ++ r)
  /-- No number: without a suffix ... -/
  | plain {t r : Text} : FloatSplit u t r → t ≠ [] → UnderscoresOk t → (∀ b' r', ¬ TagAt r b' r') → stdNumber b (plainFloat t) = none →
      BadFloat b u .expectedFloat u
  /-- ... and with one. -/
  | suffix {t r r' : Text} {b' : Bool} : FloatSplit u t r → t ≠ [] → UnderscoresOk t → TagAt r b' r' → stdNumber b' (plainFloat t) = none →
      BadFloat b u .expectedFloat u
  /-- The suffix of the other type. -/
  | other {t r r' : Text} {b' : Bool} : FloatSplit u t r → t ≠ [] → UnderscoresOk t → TagAt r b' r' → stdNumber b' (plainFloat t) ≠ none →
      b' ≠ b → BadFloat b u (.invalidValueForType (floatCalled b) (t ++ floatTag b')) r'

end Ron
