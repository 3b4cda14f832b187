import Verif.Spec.Lang
import Verif.Spec.BadNumbers
import Verif.Spec.OneChar
import Verif.Spec.Typed
/-!
# The language of a type

`TyLang D x f T n w v`: the text `w`, without layout around it, is a text of the type `T` and denotes the data `v`.  References are
resolved by `D`, `x` are the extensions that are enabled, `f` bounds how often types are nested in each other, and `n` bounds the levels
of recursion that reading the text needs.  Data that a type ignores, and a `Value`, are texts of `LangX`.
-/

namespace Ron

/-- One level more. -/
def Deeper {α : Type} (L : Nat → Text → α → Prop) : Nat → Text → α → Prop
  | 0, _, _ => False
  | n + 1, t, v => L n t v

/-- One text in parentheses. -/
def InParens (P : Text → Prop) (w : Text) : Prop := ∃ a t b, Layout a ∧ P t ∧ Tail b ∧ w = '(' :: (a ++ (t ++ (b ++ [')'])))

/-- A relation between three lists of the same length. -/
def All3 {α β γ : Type} (R : α → β → γ → Prop) : List α → List β → List γ → Prop
  | [], [], [] => True
  | a :: as, b :: bs, c :: cs => R a b c ∧ All3 R as bs cs
  | _, _, _ => False

/-- Types for which a missing field is `None`. -/
inductive Optional (D : Nat → Ty) : Nat → Ty → Prop
  | option {f : Nat} {T : Ty} : Optional D (f + 1) (.option T)
  | ref {f i : Nat} : Optional D f (D i) → Optional D (f + 1) (.ref i)

section
variable [Env]

/-- The text of an integer of a type. -/
inductive IntTok (T : IntTy) : Text → Int → Prop
  | digits {w : Text} {i : Int} : GoodInt T w i [] → IntTok T w i
  | byte {w : Text} {n : Nat} : T = .u8 → ByteLit w n → IntTok T w n

/-- The name of a struct with the layout after it; it may be missing unless names are required. -/
def NamePre (x : Exts) (name p : Text) : Prop :=
  (x.explicitStructNames = false ∧ p = []) ∨ ∃ tok l, KeyTok name tok ∧ Layout l ∧ p = tok ++ l

/-- The same without layout. -/
def NameTight (x : Exts) (name p : Text) : Prop := (x.explicitStructNames = false ∧ p = []) ∨ KeyTok name p

/-- A text that begins with a word. -/
def BeginsWord (k q : Text) : Prop := ∃ u, q = k ++ u ∧ NoIdentStart u

/-- What stands before the text `q` of an optional value that has no parentheses: nothing, if `q` begins neither with `None` nor with
`Some`; or `Some`, if that does not run on into `q` and `q` does not open a parenthesis. -/
def SomeBare (p q : Text) : Prop :=
  (p = [] ∧ ¬ BeginsWord c!"None" q ∧ ¬ BeginsWord c!"Some" q) ∨
  ∃ l, p = c!"Some" ++ l ∧ Layout l ∧ NoIdentStart (l ++ q) ∧ ∀ u, q ≠ '(' :: u

/-- Items between delimiters. -/
def SeqText {α : Type} (L : Nat → Text → α → Prop) : Nat → Text → List α → Prop :=
  Deeper fun n w vs => ∃ ts, Delim '[' ']' ts w ∧ All2 (Deeper L n) ts vs

/-- Items of given types in parentheses. -/
def TupleText (L : Ty → Nat → Text → SVal → Prop) (Ts : List Ty) : Nat → Text → List SVal → Prop :=
  Deeper fun n w vs => ∃ ts, Delim '(' ')' ts w ∧ All3 (fun T => Deeper (L T) n) Ts ts vs

/-- Entries in braces. -/
def MapText (K V : Nat → Text → SVal → Prop) : Nat → Text → List (SVal × SVal) → Prop :=
  Deeper fun n w es => ∃ ts, Delim '{' '}' ts w ∧ All2 (fun t e => ∃ k v, Deeper K n k e.1 ∧ Deeper V n v e.2 ∧ Entry k v t) ts es

/-- The text of one field: a field of the struct, or one that it ignores. -/
def FieldAt (i : Bool) (L : Ty → Nat → Text → SVal → Prop) (deny : Bool) (fields : List (Text × Ty)) (n : Nat) (e : Text)
    (g : Option (Text × SVal)) : Prop :=
  ∃ key kt vt, KeyTok key kt ∧ Entry kt vt e ∧
    match g with
    | some (key', v) => key' = key ∧ ∃ T, fields.find? (fun f => f.1 = key) = some (key, T) ∧ Deeper (L T) n vt v
    | none => deny = false ∧ key ∉ fields.map Prod.fst ∧ ∃ V, Deeper (LangX i) n vt V

/-- The fields of a struct in parentheses: in any order, none of them twice; those that are missing are `None`. -/
def FieldsText (i : Bool) (L : Ty → Nat → Text → SVal → Prop) (optional : Ty → Prop) (deny : Bool) (fields : List (Text × Ty)) :
    Nat → Text → List (Text × SVal) → Prop :=
  Deeper fun n w fs => ∃ es gs, Delim '(' ')' es w ∧ All2 (FieldAt i L deny fields n) es gs ∧ ((gs.filterMap id).map Prod.fst).Nodup ∧
    All2 (fun F f => F.1 = f.1 ∧ (some (F.1, f.2) ∈ gs ∨ ((∀ v, some (F.1, v) ∉ gs) ∧ optional F.2 ∧ f.2 = .none))) fields fs

/-- The text after the name of a variant. -/
def VariantText (i : Bool) (L : Ty → Nat → Text → SVal → Prop) (optional : Ty → Prop) (name id : Text) :
    Variant → Nat → Text → SVal → Prop
  | .unit, _, w, v => w = [] ∧ v = .unitVariant name id
  | .newtype T, n, w, v => ∃ l q u, w = l ++ q ∧ Layout l ∧ Deeper (fun n q u => InParens (fun t => L T n t u) q) n q u ∧
      v = .newtypeVariant name id u
  | .tuple Ts, n, w, v => ∃ l q vs, w = l ++ q ∧ Layout l ∧ TupleText L Ts n q vs ∧ v = .tupleVariant name id vs
  | .struct deny fields, n, w, v => ∃ l q fs, w = l ++ q ∧ Layout l ∧ FieldsText i L optional deny fields n q fs ∧
      v = .structVariant name id fs

/-- The notation of a range for the struct of that name: what its fields are given, and what is left. -/
inductive RangeAt : Text → List (Text × Number) → Text → Text → Prop
  | range {u v r : Text} {a b : Number} : DigitHead u ∨ ByteHead u → NumberAt u a (c!".." ++ v) → NumberAt v b r →
      RangeAt c!"Range" [(c!"start", a), (c!"end", b)] u r
  | inclusive {k u v r : Text} {a b : Number} : k = c!"end" ∨ k = c!"last" → DigitHead u ∨ ByteHead u → NumberAt u a (c!"..=" ++ v) →
      NumberAt v b r → RangeAt c!"RangeInclusive" [(c!"start", a), (k, b)] u r
  | start {u r : Text} {a : Number} : NumHead u → NumberAt u a (c!".." ++ r) → (∀ v, r ≠ '=' :: v) → RangeAt c!"RangeFrom" [(c!"start", a)] u r
  | stop {v r : Text} {b : Number} : NumberAt v b r → RangeAt c!"RangeTo" [(c!"end", b)] (c!".." ++ v) r
  | last {k v r : Text} {b : Number} : k = c!"end" ∨ k = c!"last" → NumberAt v b r → RangeAt c!"RangeToInclusive" [(k, b)] (c!"..=" ++ v) r

/-- A bound of a range, given to a type: integers that fit are converted to other integer types (from 128 bits only to 128 bits), integers
of up to 64 bits to floats, and floats to each other. -/
inductive NumAs (D : Nat → Ty) : Nat → Ty → Number → SVal → Prop
  | int {f : Nat} {t t' : IntTy} {i : Int} : t.InRange i → (t'.bits = 128 → t.bits = 128) → NumAs D (f + 1) (.int t) (.int t' i) (.num (.int t i))
  | int32 {f : Nat} {t : IntTy} {i : Int} : t.bits ≠ 128 → NumAs D (f + 1) .f32 (.int t i) (.num (.f32 (Env.intF32 i)))
  | int64 {f : Nat} {t : IntTy} {i : Int} : t.bits ≠ 128 → NumAs D (f + 1) .f64 (.int t i) (.num (.f64 (Env.intF64 i)))
  | f32 {f : Nat} {x : F32} : NumAs D (f + 1) .f32 (.f32 x) (.num (.f32 x))
  | narrow {f : Nat} {y : F64} : NumAs D (f + 1) .f32 (.f64 y) (.num (.f32 (Env.narrow y)))
  | widen {f : Nat} {x : F32} : NumAs D (f + 1) .f64 (.f32 x) (.num (.f64 (Env.widen x)))
  | f64 {f : Nat} {y : F64} : NumAs D (f + 1) .f64 (.f64 y) (.num (.f64 y))
  | value {f : Nat} {n : Number} : NumAs D (f + 1) .value n (.num n)
  | ref {f i : Nat} {n : Number} {v : SVal} : NumAs D f (D i) n v → NumAs D (f + 1) (.ref i) n v

/-- The fields of a range. -/
def RangeFields (as : Ty → Number → SVal → Prop) (fields : List (Text × Ty)) (es : List (Text × Number)) (fs : List (Text × SVal)) : Prop :=
  All3 (fun F e f => F.1 = e.1 ∧ f.1 = e.1 ∧ as F.2 e.2 f.2) fields es fs

/-- The texts of a type and what they denote, given those of the types it is built from. -/
def tyLevel (x : Exts) (L : Ty → Nat → Text → SVal → Prop) (D : Nat → Ty) (optional : Ty → Prop) (as : Ty → Number → SVal → Prop) :
    Ty → Nat → Text → SVal → Prop
  | .bool, _, w, v => ∃ b, w = (if b then c!"true" else c!"false") ∧ v = .bool b
  | .int t, _, w, v => ∃ i, t.Avail ∧ IntTok t w i ∧ v = .num (.int t i)
  | .f32, _, w, v => ∃ m, GoodFloat true w m [] ∧ v = .num m
  | .f64, _, w, v => ∃ m, GoodFloat false w m [] ∧ v = .num m
  | .char, _, w, v => ∃ c, CharLit w c ∧ v = .char c
  | .str, _, w, v => ∃ t, StrLit w t ∧ v = .str t
  | .bytes, n, w, v => ∃ b, (BytesLit w b ∨ SeqText (fun _ t (b : UInt8) => IntTok .u8 t b.toNat) n w b) ∧ v = .bytes b
  | .unit, _, w, v => w = c!"()" ∧ v = .unit
  | .unitStruct name, _, w, v => ((name = c!"RangeFull" ∧ w = c!"..") ∨ (x.explicitStructNames = false ∧ w = c!"()") ∨ KeyTok name w) ∧
      v = .unitStruct name
  | .newtype name T, n, w, v => ∃ u, v = .newtypeStruct name u ∧
      if x.unwrapNewtypes then Deeper (L T) n w u
      else ∃ p q, w = p ++ q ∧ NamePre x name p ∧ Deeper (fun n q u => InParens (fun t => L T n t u) q) n q u
  | .option T, n, w, v => (w = c!"None" ∧ v = .none) ∨ (∃ l q u, w = c!"Some" ++ (l ++ q) ∧ Layout l ∧
        Deeper (fun n q u => InParens (fun t => L T n t u) q) n q u ∧ v = .some u) ∨
      (x.implicitSome = true ∧ ∃ p q u, w = p ++ q ∧ SomeBare p q ∧ Deeper (L T) n q u ∧ v = .some u)
  | .seq T, n, w, v => ∃ vs, SeqText (L T) n w vs ∧ v = .seq (some vs.length) vs
  | .tuple Ts, n, w, v => ∃ vs, TupleText L Ts n w vs ∧ v = .tuple vs
  | .tupleStruct name Ts, n, w, v => ∃ p q vs, w = p ++ q ∧ NameTight x name p ∧ TupleText L Ts n q vs ∧ v = .tupleStruct name vs
  | .map K V, n, w, v => ∃ es, MapText (L K) (L V) n w es ∧ v = .map (some es.length) es
  | .struct name deny fields, n, w, v => ∃ fs, v = .struct name fs ∧
      ((∃ p q, w = p ++ q ∧ NamePre x name p ∧ FieldsText x.implicitSome L optional deny fields n q fs) ∨
        ∃ es, RangeAt name es w [] ∧ RangeFields as fields es fs)
  | .enum name variants, n, w, v => Deeper (fun n w v => n ≠ 0 ∧ ∃ id k tok r, w = tok ++ r ∧ KeyTok id tok ∧
      variants.find? (fun e => e.1 = id) = some (id, k) ∧ VariantText x.implicitSome L optional name id k n r v) n w v
  | .value, n, w, v => ∃ V, LangX x.implicitSome n w V ∧ v = V.toS
  | .raw, _, _, _ => False
  | .ref i, n, w, v => L (D i) n w v

/-- The texts of a type and what they denote. -/
def TyLang (D : Nat → Ty) (x : Exts) : Nat → Ty → Nat → Text → SVal → Prop
  | 0, _, _, _, _ => False
  | f + 1, T, n, w, v => tyLevel x (TyLang D x f) D (Optional D f) (NumAs D f) T n w v

end

/-- The structs that stand for the ranges of the standard library; they have a notation of their own. -/
def RangeLike (name : Text) (fields : List Text) : Prop :=
  (name = c!"Range" ∧ fields = [c!"start", c!"end"]) ∨
  (name = c!"RangeInclusive" ∧ (fields = [c!"start", c!"end"] ∨ fields = [c!"start", c!"last"])) ∨
  (name = c!"RangeFrom" ∧ fields = [c!"start"]) ∨ (name = c!"RangeTo" ∧ fields = [c!"end"]) ∨
  (name = c!"RangeToInclusive" ∧ (fields = [c!"end"] ∨ fields = [c!"last"]))

/-- Types that are described here: no raw values. -/
def Ty.Described : Ty → Prop
  | .raw => False
  | _ => True

end Ron
