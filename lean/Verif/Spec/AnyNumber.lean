import Verif.Spec.BadNumbers
import Verif.Spec.OneChar
import Verif.Model.Value
/-!
# Specification of numbers of no given type

`NumberAt u n r`: the text `u` begins with the number `n`, and `r` is left.  `BadNumberAt u e r`: it begins with none; the error is `e`,
and `r` is left.  Nothing here refers to the parser.
-/

namespace Ron

section
variable [Env]

/-! ### Integers -/

/-- The smallest type, among the signed or the unsigned ones, that has the number. -/
def Smallest (signed : Bool) (v : Int) (T : IntTy) : Prop :=
  T.signed = signed ∧ T.Avail ∧ T.InRange v ∧ ∀ S : IntTy, S.signed = signed → S.Avail → S.InRange v → T.bits ≤ S.bits

/-- The largest type. -/
def Largest (signed : Bool) (T : IntTy) : Prop :=
  T.signed = signed ∧ T.Avail ∧ ∀ S : IntTy, S.signed = signed → S.Avail → S.bits ≤ T.bits

/-- A text that starts with an integer: its type, which is that of the suffix or else the smallest one, the number, and what is left. -/
inductive AnyInt : Text → IntTy → Int → Text → Prop
  | plain {u body after : Text} {sg : LitSign} {b : LitBase} {T : IntTy} : NumSplit u sg b body after → (∀ S r, ¬ SuffixAt after S r) →
      ValidBody b.base body → Smallest (decide (sg = .minus)) (runValue sg b.base body) T → AnyInt u T (runValue sg b.base body) after
  | suffix {u body after r : Text} {sg : LitSign} {b : LitBase} {T : IntTy} : NumSplit u sg b body after → SuffixAt after T r →
      ValidBody b.base body → T.InRange (runValue sg b.base body) → AnyInt u T (runValue sg b.base body) r

/-- A text that does not: the error, and what is left. -/
inductive BadAnyInt : Text → Err → Text → Prop
  | eof : BadAnyInt [] .eof []
  /-- No suffix: the digits are no number of the largest type. -/
  | plain {u body after l : Text} {sg : LitSign} {b : LitBase} {e : Err} {T : IntTy} : NumSplit u sg b body after →
      (∀ S r, ¬ SuffixAt after S r) → Largest (decide (sg = .minus)) T → BadDigits T sg b.base body e l → BadAnyInt u e (l ++ after)
  /-- A suffix: a defect of the digits is found at the digit ... -/
  | here {u body after l r : Text} {sg : LitSign} {b : LitBase} {S : IntTy} {e : Err} : NumSplit u sg b body after → SuffixAt after S r →
      BadDigits S sg b.base body e l → e ≠ .expectedInteger → e ≠ .integerOutOfBounds → BadAnyInt u e (l ++ after)
  /-- ... and one of the number after the suffix. -/
  | past {u body after l r : Text} {sg : LitSign} {b : LitBase} {S : IntTy} {e : Err} : NumSplit u sg b body after → SuffixAt after S r →
      BadDigits S sg b.base body e l → e = .expectedInteger ∨ e = .integerOutOfBounds → BadAnyInt u e r

/-! ### Floats -/

/-- A float of 64 bits, or the same number with 32 bits if there is one. -/
inductive Narrowest (y : F64) : Number → Prop
  | f32 {x : F32} : Env.narrow y = x → Env.widen x = y → Narrowest y (.f32 x)
  | f64 : Env.widen (Env.narrow y) ≠ y → Narrowest y (.f64 y)

/-- A text that starts with a float: the number, and what is left. -/
inductive AnyFloat (u : Text) : Number → Text → Prop
  | word {w r : Text} {x : F32} {y : F64} {tag : Option Bool} : WordAt u w x y tag r → AnyFloat u (if tag = some false then .f64 y else .f32 x) r
  | plain {t r : Text} {y : F64} {v : Number} : FloatSplit u t r → t ≠ [] → UnderscoresOk t → (∀ b' r', ¬ TagAt r b' r') →
      Env.parse64 (plainFloat t) = some y → Narrowest y v → AnyFloat u v r
  | suffix {t r r' : Text} {b : Bool} {v : Number} : FloatSplit u t r → t ≠ [] → UnderscoresOk t → TagAt r b r' →
      stdNumber b (plainFloat t) = some v → AnyFloat u v r'

/-- A text that does not: the error, and what is left. -/
inductive BadAnyFloat (u : Text) : Err → Text → Prop
  | none {r : Text} : FloatSplit u [] r → BadAnyFloat u .expectedFloat u
  | underscore {t r : Text} : FloatSplit u t r → t.head? = some '_' → BadAnyFloat u .underscoreAtBeginning u
  | misplaced {t r p q : Text} : FloatSplit u t r → t.head? ≠ some '_' → t = p ++ '_' :: q → UnderscoresOk p →
      (¬ ∃ p1 c p2, p = p1 ++ c :: p2 ∧ c ∈ c!"0123456789eE" ∧ '.' ∉ p2) → BadAnyFloat u .floatUnderscore ('_' :: q ++ r)
  | plain {t r : Text} : FloatSplit u t r → t ≠ [] → UnderscoresOk t → (∀ b' r', ¬ TagAt r b' r') → Env.parse64 (plainFloat t) = .none →
      BadAnyFloat u .expectedFloat u
  | suffix {t r r' : Text} {b : Bool} : FloatSplit u t r → t ≠ [] → UnderscoresOk t → TagAt r b r' → stdNumber b (plainFloat t) = .none →
      BadAnyFloat u .expectedFloat u

/-! ### Either -/

omit [Env] in
/-- After the sign, the run of characters of floats (not over `..`) is longer than that of hexadecimal digits. -/
def FloatLike (u : Text) : Prop :=
  ∃ (sg : LitSign) (v t r body after : Text), u = sg.text ++ v ∧ (sg = .none → u.head? ≠ some '+' ∧ u.head? ≠ some '-') ∧
    (v = t ++ r ∧ (∀ c ∈ t, c ∈ floatAlphabet) ∧ ¬ (c!".." <:+: t) ∧
      ((∀ c r', r = c :: r' → c ∉ floatAlphabet) ∨ (c!".." <+: r ∧ ∀ p, t ≠ p ++ ['.']))) ∧
    (v = body ++ after ∧ (∀ c ∈ body, c = '_' ∨ ∃ d, hexVal c = some d) ∧ ∀ c r', after = c :: r' → c ≠ '_' ∧ hexVal c = none) ∧
    body.length < t.length

/-- A text that starts with a number: the number, and what is left.  What does not look like a float is an integer if it can be; otherwise
it is a float if at least as much of the text is used. -/
inductive NumberAt (u : Text) : Number → Text → Prop
  | byte {t r : Text} {k : Nat} : u = t ++ r → ByteLit t k → NumberAt u (.int .u8 k) r
  | float {n : Number} {r : Text} : FloatLike u → AnyFloat u n r → NumberAt u n r
  | int {T : IntTy} {v : Int} {r : Text} : ¬ FloatLike u → AnyInt u T v r → NumberAt u (.int T v) r
  | other {n : Number} {e : Err} {l r : Text} : ¬ FloatLike u → BadAnyInt u e l → AnyFloat u n r → r.length ≤ l.length → NumberAt u n r

/-- A text that does not: the error, and what is left. -/
inductive BadNumberAt (u : Text) : Err → Text → Prop
  | float {e : Err} {r : Text} : FloatLike u → BadAnyFloat u e r → BadNumberAt u e r
  | int {e e' : Err} {l r : Text} : ¬ FloatLike u → BadAnyInt u e l → BadAnyFloat u e' r → BadNumberAt u e l
  | short {n : Number} {e : Err} {l r : Text} : ¬ FloatLike u → BadAnyInt u e l → AnyFloat u n r → l.length < r.length → BadNumberAt u e l

/-! ### Numbers and ranges as values -/

omit [Env] in
/-- A text that begins with a digit, a sign or a point. -/
def DigitHead (v : Text) : Prop := ∃ c u, v = c :: u ∧ (isDigit c = true ∨ c ∈ ['+', '-', '.'])

omit [Env] in
/-- A text that begins like a byte literal. -/
def ByteHead (v : Text) : Prop := ∃ u, v = c!"b'" ++ u

/-- The text of a number or of a range, and the value it is read as.  The second bound of a range without `=` must not be a word; that of
a range without a first bound must not be a byte literal either. -/
inductive NumText : Text → Value → Prop
  | number {u : Text} {n : Number} : NumberAt u n [] → NumText u (.num n)
  | start {u : Text} {a : Number} : NumberAt u a c!".." → NumText u (.map (mapOfList [(.str c!"start", .num a)]))
  | startEnd {u v : Text} {a b : Number} : NumberAt u a (c!".." ++ v) → DigitHead v ∨ ByteHead v → NumberAt v b [] →
      NumText u (.map (mapOfList [(.str c!"start", .num a), (.str c!"end", .num b)]))
  | startLast {u v : Text} {a b : Number} : NumberAt u a (c!"..=" ++ v) → NumberAt v b [] →
      NumText u (.map (mapOfList [(.str c!"start", .num a), (.str c!"end", .num b)]))
  | stop {v : Text} {b : Number} : DigitHead v → NumberAt v b [] → NumText (c!".." ++ v) (.map (mapOfList [(.str c!"end", .num b)]))
  | last {v : Text} {b : Number} : NumberAt v b [] → NumText (c!"..=" ++ v) (.map (mapOfList [(.str c!"end", .num b)]))
  | full : NumText c!".." .unit

end

end Ron
