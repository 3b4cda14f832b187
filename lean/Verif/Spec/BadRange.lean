import Verif.Spec.TyLang
import Verif.Spec.BadStrings
/-!
# Defects of the notation of ranges

Structs that stand for the ranges of the standard library may be written `1..2`.  `BadRange` says which texts begin like that and go
wrong; `NoNumber` which numbers a type does not take.
-/

namespace Ron

section
variable [Env]

/-- Where a number should be. -/
inductive BadBound : Text → Err → Text → Prop
  | number {u r : Text} {e : Err} : (∀ r, u ≠ 'b' :: '\'' :: r) → BadNumberAt u e r → BadBound u e r
  | byte {u r : Text} {e : Err} : BadByteLit u e r → BadBound ('b' :: '\'' :: u) e r

/-- The ranges with two bounds and their fields. -/
def TwoBounds (name : Text) (ks : List Text) : Prop :=
  (name = c!"Range" ∧ ks = [c!"start", c!"end"]) ∨
    (name = c!"RangeInclusive" ∧ (ks = [c!"start", c!"end"] ∨ ks = [c!"start", c!"last"]))

/-- The text begins like the notation of the range of that name. -/
def RangeHead (name : Text) (ks : List Text) (u : Text) : Prop :=
  (TwoBounds name ks ∧ (DigitHead u ∨ ByteHead u)) ∨ (name = c!"RangeFrom" ∧ ks = [c!"start"] ∧ NumHead u) ∨
  (name = c!"RangeTo" ∧ ks = [c!"end"] ∧ ∃ v, u = c!".." ++ v) ∨
  (name = c!"RangeToInclusive" ∧ (ks = [c!"end"] ∨ ks = [c!"last"]) ∧ ∃ v, u = c!".." ++ v)

/-- A text that begins like the notation of a range, with a defect: the error and what is left. -/
inductive BadRange : Text → List Text → Text → Err → Text → Prop
  | first {name u r : Text} {ks : List Text} {e : Err} : TwoBounds name ks → DigitHead u ∨ ByteHead u → BadBound u e r → BadRange name ks u e r
  | dots {name u r : Text} {ks : List Text} {a : Number} : TwoBounds name ks → DigitHead u ∨ ByteHead u → NumberAt u a r → (∀ v, r ≠ c!".." ++ v) →
      BadRange name ks u .expectedRangeSyntax r
  | noOpen {u v : Text} {a : Number} : DigitHead u ∨ ByteHead u → NumberAt u a (c!"..=" ++ v) →
      BadRange c!"Range" [c!"start", c!"end"] u (.message c!"expected `..` for `Range`, found `..=`") v
  | noClosed {k u v : Text} {a : Number} : k = c!"end" ∨ k = c!"last" → DigitHead u ∨ ByteHead u → NumberAt u a (c!".." ++ v) → (∀ w, v ≠ '=' :: w) →
      BadRange c!"RangeInclusive" [c!"start", k] u (.message c!"expected `..=` for `RangeInclusive`, found `..`") v
  | second {u v r : Text} {a : Number} {e : Err} : DigitHead u ∨ ByteHead u → NumberAt u a (c!".." ++ v) → (∀ w, v ≠ '=' :: w) → BadBound v e r →
      BadRange c!"Range" [c!"start", c!"end"] u e r
  | secondClosed {k u v r : Text} {a : Number} {e : Err} : k = c!"end" ∨ k = c!"last" → DigitHead u ∨ ByteHead u → NumberAt u a (c!"..=" ++ v) →
      BadBound v e r → BadRange c!"RangeInclusive" [c!"start", k] u e r
  | start {u r : Text} {e : Err} : NumHead u → BadBound u e r → BadRange c!"RangeFrom" [c!"start"] u e r
  | startDots {u r : Text} {a : Number} : NumHead u → NumberAt u a r → (∀ v, r ≠ c!".." ++ v) → BadRange c!"RangeFrom" [c!"start"] u .expectedRangeSyntax r
  | startClosed {u v : Text} {a : Number} : NumHead u → NumberAt u a (c!"..=" ++ v) →
      BadRange c!"RangeFrom" [c!"start"] u (.message c!"expected `..` for `RangeFrom`, found `..=`") v
  | stopClosed {v : Text} : BadRange c!"RangeTo" [c!"end"] (c!"..=" ++ v) (.message c!"expected `..` for `RangeTo`, found `..=`") v
  | stop {v r : Text} {e : Err} : (∀ w, v ≠ '=' :: w) → BadBound v e r → BadRange c!"RangeTo" [c!"end"] (c!".." ++ v) e r
  | lastOpen {k v : Text} : k = c!"end" ∨ k = c!"last" → (∀ w, v ≠ '=' :: w) →
      BadRange c!"RangeToInclusive" [k] (c!".." ++ v) (.message c!"expected `..=` for `RangeToInclusive`, found `..`") v
  | last {k v r : Text} {e : Err} : k = c!"end" ∨ k = c!"last" → BadBound v e r → BadRange c!"RangeToInclusive" [k] (c!"..=" ++ v) e r

/-- The type does not take the number. -/
inductive NoNumber (D : Nat → Ty) : Nat → Ty → Number → Prop
  | plain {f : Nat} {T : Ty} {n : Number} : (∀ i, T ≠ .ref i) → (∀ v, ¬ NumAs D (f + 1) T n v) → NoNumber D (f + 1) T n
  | ref {f i : Nat} {n : Number} : NoNumber D f (D i) n → NoNumber D (f + 1) (.ref i) n

/-- A bound of a range is no number of the type of the field; the fields before it are fine. -/
def NoBound (as : Ty → Number → SVal → Prop) (no : Ty → Number → Prop) (fields : List (Text × Ty)) (es : List (Text × Number)) : Prop :=
  fields.map Prod.fst = es.map Prod.fst ∧ ∃ Fs F Fs' ds d ds' fs, fields = Fs ++ F :: Fs' ∧ es = ds ++ d :: ds' ∧ RangeFields as Fs ds fs ∧ no F.2 d.2

end

end Ron
