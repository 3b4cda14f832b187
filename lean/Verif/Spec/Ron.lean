import Verif.Spec.Layout
import Verif.Spec.Strings
import Verif.Spec.Range
import Verif.Lemmas.Ident
import Verif.Model.Value
/-!
# Specification of RON text

`Den n w v`: the text `w` denotes the self-describing value `v`; reading it needs `n` levels of recursion budget.  The
grammar is that of documents in which no extension is enabled that drops parentheses.  Layout and trailing commas are free.
-/

namespace Ron

variable [Env]

/-- Pointwise relation of two lists. -/
def All2 {α β : Type} (R : α → β → Prop) : List α → List β → Prop
  | [], [] => True
  | a :: as, b :: bs => R a b ∧ All2 R as bs
  | _, _ => False

/-- Comma separated items, from the first to the last. -/
inductive Body : List Text → Text → Prop
  | one {t : Text} : Body [t] t
  | cons {t b a u : Text} {ts : List Text} : Layout b → Layout a → Body ts u →
      Body (t :: ts) (t ++ (b ++ ',' :: (a ++ u)))

/-- What may stand between the last item and the closing delimiter: layout and at most one comma. -/
inductive Tail : Text → Prop
  | plain {b : Text} : Layout b → Tail b
  | comma {b c : Text} : Layout b → Layout c → Tail (b ++ ',' :: c)

/-- A delimited list of items. -/
inductive Delim (o c : Char) : List Text → Text → Prop
  | nil {a : Text} : Layout a → Delim o c [] (o :: (a ++ [c]))
  | items {a u t : Text} {ts : List Text} : Layout a → Body ts u → Tail t → Delim o c ts (o :: (a ++ (u ++ (t ++ [c]))))

/-- `key : value`. -/
inductive Entry (k v : Text) : Text → Prop
  | mk {l l' : Text} : Layout l → Layout l' → Entry k v (k ++ (l ++ ':' :: (l' ++ v)))

/-- A name as a token: with `r#`, or plain if it may stand so and is not a keyword. -/
def NameTok (name tok : Text) : Prop :=
  RawName name ∧ (tok = 'r' :: '#' :: name ∨ (tok = name ∧ PlainName name ∧ name ∉ reservedNames))

/-- The name of a field: as `NameTok`, but keywords are allowed. -/
def KeyTok (name tok : Text) : Prop :=
  RawName name ∧ (tok = 'r' :: '#' :: name ∨ (tok = name ∧ PlainName name))

/-- Values without parts. -/
inductive Scalar : Text → Value → Prop
  | true : Scalar c!"true" (.bool true)
  | false : Scalar c!"false" (.bool false)
  | none : Scalar c!"None" .none
  | unit : Scalar c!"()" .unit
  | typed {n : Number} : n.WF → Scalar (n.text true) (.num n.canon)
  | untyped {n : Number} : n.WF → Scalar (n.text false) (.num n.untyped)
  | char {c : Char} : Scalar (charText c) (.char c)
  | str {t v : Text} : StrLit t v → Scalar t (.str v)
  | bytes {t : Text} {b : List UInt8} : BytesLit t b → Scalar t (.bytes b)
  | name {t n : Text} : NameTok n t → Scalar t .unit
  | range {sfx : Bool} {name w : Text} {es : List (Text × Number)} : RangeLit sfx name es w → (∀ e ∈ es, e.2.WF ∧ e.2.NoWord) →
      Scalar w (.map (mapOfList (es.map fun e => (.str e.1, .num (if sfx then e.2.canon else e.2.untyped)))))
  | full : Scalar c!".." .unit

/-- An optional struct name with the layout after it. -/
inductive Prefix : Text → Prop
  | none : Prefix []
  | name {n t l : Text} : NameTok n t → Layout l → Prefix (t ++ l)

/-- One level of the grammar: `S` for values without parts, `D` for the content of an option, `E` for elements. -/
inductive Level (S D E : Text → Value → Prop) : Text → Value → Prop
  | scalar {w : Text} {v : Value} : S w v → Level S D E w v
  | some {l a t b : Text} {v : Value} : Layout l → Layout a → D t v → Tail b →
      Level S D E (c!"Some" ++ (l ++ '(' :: (a ++ (t ++ (b ++ [')']))))) (.some v)
  | seq {ts : List Text} {vs : List Value} {w : Text} : All2 E ts vs → Delim '[' ']' ts w → Level S D E w (.seq vs)
  | map {es : List Text} {kvs : List (Value × Value)} {w : Text} :
      All2 (fun e kv => ∃ k v, E k kv.1 ∧ E v kv.2 ∧ Entry k v e) es kvs → Delim '{' '}' es w →
      Level S D E w (.map (mapOfList kvs))
  | tuple {p w : Text} {ts : List Text} {vs : List Value} : Prefix p → All2 E ts vs → Delim '(' ')' ts w →
      (p ++ w ≠ c!"()") → Level S D E (p ++ w) (.seq vs)
  | struct {p w : Text} {es : List Text} {fs : List (Text × Value)} : Prefix p → fs ≠ [] →
      All2 (fun e f => ∃ k v, KeyTok f.1 k ∧ E v f.2 ∧ Entry k v e) es fs → Delim '(' ')' es w →
      Level S D E (p ++ w) (.map (mapOfList (fs.map fun f => (.str f.1, f.2))))

/-- The grammar over given values without parts `S`.  `Gram S n w v`: the text `w` denotes `v` and needs at most `n` levels:
one for the content of an option, one for a compound value and two for its elements. -/
def Gram (S : Text → Value → Prop) : Nat → Text → Value → Prop
  | 0 => S
  | 1 => Level S S (fun _ _ => False)
  | n + 2 => Level S (Gram S (n + 1)) (Gram S n)

/-- `Den n w v`: the text `w` denotes `v` and needs at most `n` levels. -/
abbrev Den : Nat → Text → Value → Prop := Gram Scalar

end Ron
