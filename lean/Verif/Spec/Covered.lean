import Verif.Spec.BadTy
/-!
# Types for which every text is sorted

For them every text is either read or has one of the defects of `BadTy`, unless a comment in it is not complete or a field that is
ignored holds something that is no value (`OddTy`).
-/

namespace Ron

section
variable [Env]

/-- The types of the data of a variant. -/
def Variant.types : Variant → List Ty
  | .unit => []
  | .newtype T => [T]
  | .tuple Ts => Ts
  | .struct _ fields => fields.map Prod.snd

/-- A variant with fields refuses unknown ones. -/
def Variant.Denies : Variant → Prop
  | .struct deny _ => deny = true
  | _ => True

/-- Booleans, numbers, characters, strings, byte strings, units, options, sequences, tuples, maps, structs (also
ranges) and enums of such types; if `s`, structs and variants have to refuse unknown fields. -/
inductive Covered (D : Nat → Ty) (x : Exts) (s : Bool) : Nat → Ty → Prop
  | bool {f : Nat} : Covered D x s (f + 1) .bool
  | int {f : Nat} {t : IntTy} : t.Avail → Covered D x s (f + 1) (.int t)
  | f32 {f : Nat} : Covered D x s (f + 1) .f32
  | f64 {f : Nat} : Covered D x s (f + 1) .f64
  | char {f : Nat} : Covered D x s (f + 1) .char
  | str {f : Nat} : Covered D x s (f + 1) .str
  | bytes {f : Nat} : Covered D x s (f + 2) .bytes
  | unit {f : Nat} : Covered D x s (f + 1) .unit
  | unitStruct {f : Nat} {name : Text} : Covered D x s (f + 1) (.unitStruct name)
  | newtype {f : Nat} {name : Text} {T : Ty} : Covered D x s f T → Covered D x s (f + 1) (.newtype name T)
  | option {f : Nat} {T : Ty} : Covered D x s f T → Covered D x s (f + 1) (.option T)
  | seq {f : Nat} {T : Ty} : Covered D x s f T → Covered D x s (f + 1) (.seq T)
  | tuple {f : Nat} {Ts : List Ty} : (∀ T ∈ Ts, Covered D x s f T) → Covered D x s (f + 1) (.tuple Ts)
  | tupleStruct {f : Nat} {name : Text} {Ts : List Ty} : (∀ T ∈ Ts, Covered D x s f T) → Covered D x s (f + 1) (.tupleStruct name Ts)
  | map {f : Nat} {K V : Ty} : Covered D x s f K → Covered D x s f V → Covered D x s (f + 1) (.map K V)
  | struct {f : Nat} {name : Text} {deny : Bool} {fields : List (Text × Ty)} : (s = true → deny = true) → (∀ F ∈ fields, Covered D x s f F.2) →
      Covered D x s (f + 1) (.struct name deny fields)
  | enum {f : Nat} {name : Text} {variants : List (Text × Variant)} : (s = true → ∀ e ∈ variants, e.2.Denies) → (∀ e ∈ variants, ∀ T ∈ e.2.types, Covered D x s f T) →
      Covered D x s (f + 1) (.enum name variants)
  | ref {f i : Nat} : Covered D x s f (D i) → Covered D x s (f + 1) (.ref i)

end

/-- Where layout may stand, a slash does not begin a complete comment. -/
def Torn (u : Text) : Prop := ∃ l w, u = l ++ '/' :: w ∧ Layout l ∧ ∀ l' r, '/' :: w = l' ++ r → Layout l' → l' = []

/-- A slash that begins no comment, or a block comment that is not closed, and the error for it. -/
def BrokenComment (w : Text) (e : Err) : Prop :=
  (∃ t, w = '/' :: '*' :: t ∧ (∀ b r, t = b ++ r → ¬ BlockTail 1 b) ∧ e = .unclosedBlockComment) ∨
  (w = ['/'] ∧ e = .eof) ∨
  (∃ c t, w = '/' :: c :: t ∧ c ≠ '/' ∧ c ≠ '*' ∧ e = .unexpectedChar c)

section
variable [Env]

/-- `Torn` inside a list in brackets. -/
inductive OddSeq {α : Type} (L : Nat → Text → α → Prop) (I : Nat → Text → Text → Prop) (X : Nat → Text → Prop) : Nat → Text → Prop
  | opening {n : Nat} {w : Text} : Torn w → OddSeq L I X n ('[' :: w)
  | item {n : Nat} {ts : List Text} {vs : List α} {p u : Text} : Before ts p → All2 (L n) ts vs → Place ']' u → X n u → OddSeq L I X (n + 2) ('[' :: (p ++ u))
  | comma {n : Nat} {ts : List Text} {vs : List α} {p u r : Text} : Before ts p → All2 (L n) ts vs → Place ']' u → I n u (',' :: r) → Torn r →
      OddSeq L I X (n + 2) ('[' :: (p ++ u))

/-- `Torn` inside a tuple. -/
inductive OddTuple (L : Ty → Nat → Text → SVal → Prop) (I : Ty → Nat → Text → Text → Prop) (X : Ty → Nat → Text → Prop) : List Ty → Nat → Text → Prop
  | opening {n : Nat} {Ts : List Ty} {w : Text} : Torn w → OddTuple L I X Ts n ('(' :: w)
  | item {n : Nat} {Ts Ts' : List Ty} {T : Ty} {ts : List Text} {vs : List SVal} {p u : Text} : Before ts p → All3 (fun T => L T n) Ts ts vs → Place ')' u →
      X T n u → OddTuple L I X (Ts ++ T :: Ts') (n + 2) ('(' :: (p ++ u))
  | comma {n : Nat} {Ts Ts' : List Ty} {T : Ty} {ts : List Text} {vs : List SVal} {p u r : Text} : Before ts p → All3 (fun T => L T n) Ts ts vs → Place ')' u →
      I T n u (',' :: r) → Torn r → OddTuple L I X (Ts ++ T :: Ts') (n + 2) ('(' :: (p ++ u))

/-- `Torn` inside a map. -/
inductive OddMap (K V : Nat → Text → SVal → Prop) (IK IV : Nat → Text → Text → Prop) (XK XV : Nat → Text → Prop) : Nat → Text → Prop
  | opening {n : Nat} {w : Text} : Torn w → OddMap K V IK IV XK XV n ('{' :: w)
  | key {n : Nat} {ts : List Text} {es : List (SVal × SVal)} {p u : Text} : Before ts p → All2 (fun t e => ∃ k v, K n k e.1 ∧ V n v e.2 ∧ Entry k v t) ts es →
      Place '}' u → XK n u → OddMap K V IK IV XK XV (n + 2) ('{' :: (p ++ u))
  | colon {n : Nat} {ts : List Text} {es : List (SVal × SVal)} {p u r : Text} : Before ts p → All2 (fun t e => ∃ k v, K n k e.1 ∧ V n v e.2 ∧ Entry k v t) ts es →
      Place '}' u → IK n u (':' :: r) → Torn r → OddMap K V IK IV XK XV (n + 2) ('{' :: (p ++ u))
  | value {n : Nat} {ts : List Text} {es : List (SVal × SVal)} {p k l l' u : Text} {vk : SVal} : Before ts p →
      All2 (fun t e => ∃ k v, K n k e.1 ∧ V n v e.2 ∧ Entry k v t) ts es → K n k vk → Layout l → Layout l' → NoLayoutStart u → XV n u →
      OddMap K V IK IV XK XV (n + 2) ('{' :: (p ++ (k ++ (l ++ ':' :: (l' ++ u)))))
  | comma {n : Nat} {ts : List Text} {es : List (SVal × SVal)} {p k l l' u r : Text} {vk : SVal} : Before ts p →
      All2 (fun t e => ∃ k v, K n k e.1 ∧ V n v e.2 ∧ Entry k v t) ts es → K n k vk → Layout l → Layout l' → NoLayoutStart u → IV n u (',' :: r) → Torn r →
      OddMap K V IK IV XK XV (n + 2) ('{' :: (p ++ (k ++ (l ++ ':' :: (l' ++ u)))))

/-- `Torn` inside parentheses around one value. -/
inductive OddParens (I : Nat → Text → Text → Prop) (X : Nat → Text → Prop) : Nat → Text → Prop
  | opening {n : Nat} {w : Text} : Torn w → OddParens I X n ('(' :: w)
  | item {n : Nat} {a u : Text} : Layout a → NoLayoutStart u → X n u → OddParens I X (n + 1) ('(' :: (a ++ u))
  | comma {n : Nat} {a u r : Text} : Layout a → NoLayoutStart u → I n u (',' :: r) → Torn r → OddParens I X (n + 1) ('(' :: (a ++ u))

/-- `Torn` inside fields in parentheses. -/
inductive OddFields (i : Bool) (L : Ty → Nat → Text → SVal → Prop) (I : Ty → Nat → Text → Text → Prop) (X : Ty → Nat → Text → Prop)
    (deny : Bool) (fields : List (Text × Ty)) : Nat → Text → Prop
  | opening {n : Nat} {w : Text} : Torn w → OddFields i L I X deny fields n ('(' :: w)
  /-- After the name of a field. -/
  | key {n : Nat} {es : List Text} {gs : List (Option (Text × SVal))} {p key kt z : Text} : Before es p →
      All2 (FieldAt i L deny fields (n + 1)) es gs → ((gs.filterMap id).map Prod.fst).Nodup → KeyTok key kt → Torn z →
      OddFields i L I X deny fields (n + 2) ('(' :: (p ++ (kt ++ z)))
  /-- After the colon. -/
  | colon {n : Nat} {es : List Text} {gs : List (Option (Text × SVal))} {p key kt m z : Text} : Before es p →
      All2 (FieldAt i L deny fields (n + 1)) es gs → ((gs.filterMap id).map Prod.fst).Nodup → KeyTok key kt → Layout m → Torn z →
      OddFields i L I X deny fields (n + 2) ('(' :: (p ++ (kt ++ (m ++ ':' :: z))))
  | value {n : Nat} {es : List Text} {gs : List (Option (Text × SVal))} {p key kt m m' u : Text} {T : Ty} : Before es p →
      All2 (FieldAt i L deny fields (n + 1)) es gs → ((gs.filterMap id).map Prod.fst).Nodup → KeyTok key kt →
      fields.find? (fun f => f.1 = key) = some (key, T) → Layout m → Layout m' → NoLayoutStart u → X T n u →
      OddFields i L I X deny fields (n + 2) ('(' :: (p ++ (kt ++ (m ++ ':' :: (m' ++ u)))))
  | comma {n : Nat} {es : List Text} {gs : List (Option (Text × SVal))} {p key kt m m' u r : Text} {T : Ty} : Before es p →
      All2 (FieldAt i L deny fields (n + 1)) es gs → ((gs.filterMap id).map Prod.fst).Nodup → KeyTok key kt →
      fields.find? (fun f => f.1 = key) = some (key, T) → Layout m → Layout m' → NoLayoutStart u → I T n u (',' :: r) → Torn r →
      OddFields i L I X deny fields (n + 2) ('(' :: (p ++ (kt ++ (m ++ ':' :: (m' ++ u)))))
  /-- An ignored field that is not a value of nesting up to `n`, followed by a comma or the end. -/
  | ignored {n : Nat} {es : List Text} {gs : List (Option (Text × SVal))} {p key kt m m' u : Text} : Before es p →
      All2 (FieldAt i L deny fields (n + 1)) es gs → ((gs.filterMap id).map Prod.fst).Nodup → KeyTok key kt → key ∉ fields.map Prod.fst → deny = false →
      Layout m → Layout m' → NoLayoutStart u →
      (∀ t V l c q, u = t ++ (l ++ c :: q) → LangX i n t V → Layout l → c ≠ ',' ∧ c ≠ ')') →
      OddFields i L I X deny fields (n + 2) ('(' :: (p ++ (kt ++ (m ++ ':' :: (m' ++ u)))))
  /-- After the comma that follows an ignored field. -/
  | ignoredComma {n : Nat} {es : List Text} {gs : List (Option (Text × SVal))} {p key kt m m' t l r : Text} {V : Value} : Before es p →
      All2 (FieldAt i L deny fields (n + 1)) es gs → ((gs.filterMap id).map Prod.fst).Nodup → KeyTok key kt → key ∉ fields.map Prod.fst → deny = false →
      Layout m → Layout m' → LangX i n t V → Layout l → Torn r →
      OddFields i L I X deny fields (n + 2) ('(' :: (p ++ (kt ++ (m ++ ':' :: (m' ++ (t ++ (l ++ ',' :: r)))))))

/-- `Torn` inside the data of a variant. -/
inductive OddData (i : Bool) (L : Ty → Nat → Text → SVal → Prop) (I : Ty → Nat → Text → Text → Prop) (X : Ty → Nat → Text → Prop) : Variant → Nat → Text → Prop
  | newtype {n : Nat} {T : Ty} {u : Text} : OddParens (I T) (X T) n u → OddData i L I X (.newtype T) n u
  | tuple {n : Nat} {Ts : List Ty} {u : Text} : OddTuple L I X Ts n u → OddData i L I X (.tuple Ts) n u
  | struct {n : Nat} {deny : Bool} {fields : List (Text × Ty)} {u : Text} : OddFields i L I X deny fields n u → OddData i L I X (.struct deny fields) n u

/-- `Torn` inside or after a text of a type, given the texts of the types it is built from. -/
inductive OddLevel (x : Exts) (W : Ty → Nat → Text → Text → Prop) (L : Ty → Nat → Text → SVal → Prop) (I : Ty → Nat → Text → Text → Prop)
    (X : Ty → Nat → Text → Prop) (D : Nat → Ty) : Ty → Nat → Text → Prop
  | after {n : Nat} {T : Ty} {u r : Text} : W T n u r → Torn r → OddLevel x W L I X D T n u
  | seq {n : Nat} {T : Ty} {u : Text} : OddSeq (L T) (I T) (X T) n u → OddLevel x W L I X D (.seq T) n u
  | byteList {n : Nat} {u : Text} : OddSeq (fun _ t (b : UInt8) => IntTok .u8 t b.toNat) (I (.int .u8)) (X (.int .u8)) n u → OddLevel x W L I X D .bytes n u
  | tuple {n : Nat} {Ts : List Ty} {u : Text} : OddTuple L I X Ts n u → OddLevel x W L I X D (.tuple Ts) n u
  | tupleStruct {n : Nat} {name p u : Text} {Ts : List Ty} : NameTight x name p → OddTuple L I X Ts n u → OddLevel x W L I X D (.tupleStruct name Ts) n (p ++ u)
  | map {n : Nat} {K V : Ty} {u : Text} : OddMap (L K) (L V) (I K) (I V) (X K) (X V) n u → OddLevel x W L I X D (.map K V) n u
  | someWord {n : Nat} {T : Ty} {r : Text} : NoIdentStart r → Torn r → OddLevel x W L I X D (.option T) n (c!"Some" ++ r)
  | some {n : Nat} {T : Ty} {l u : Text} : Layout l → OddParens (I T) (X T) n u → OddLevel x W L I X D (.option T) n (c!"Some" ++ (l ++ u))
  | implicit {n : Nat} {T : Ty} {p u : Text} : x.implicitSome = true → SomeBare p u → NoLayoutStart u → X T n u → OddLevel x W L I X D (.option T) (n + 1) (p ++ u)
  | newtypeName {n : Nat} {name tok z : Text} {T : Ty} : KeyTok name tok → Torn z → OddLevel x W L I X D (.newtype name T) n (tok ++ z)
  | newtype {n : Nat} {name p u : Text} {T : Ty} : NamePre x name p → OddParens (I T) (X T) n u → OddLevel x W L I X D (.newtype name T) n (p ++ u)
  | unwrapped {n : Nat} {name u : Text} {T : Ty} : x.unwrapNewtypes = true → X T n u → OddLevel x W L I X D (.newtype name T) (n + 1) u
  | structName {n : Nat} {name tok z : Text} {deny : Bool} {fields : List (Text × Ty)} : KeyTok name tok → Torn z →
      OddLevel x W L I X D (.struct name deny fields) n (tok ++ z)
  | struct {n : Nat} {name p u : Text} {deny : Bool} {fields : List (Text × Ty)} : NamePre x name p → OddFields x.implicitSome L I X deny fields n u →
      OddLevel x W L I X D (.struct name deny fields) n (p ++ u)
  | variant {n : Nat} {name id tok z : Text} {variants : List (Text × Variant)} : KeyTok id tok → id ∈ variants.map Prod.fst → Torn z →
      OddLevel x W L I X D (.enum name variants) n (tok ++ z)
  | data {n : Nat} {name id tok l u : Text} {variants : List (Text × Variant)} {k : Variant} : KeyTok id tok →
      variants.find? (fun e => e.1 = id) = .some (id, k) → Layout l → OddData x.implicitSome L I X k (n + 1) u →
      OddLevel x W L I X D (.enum name variants) (n + 2) (tok ++ (l ++ u))
  | ref {n i : Nat} {u : Text} : X (D i) n u → OddLevel x W L I X D (.ref i) n u

/-- Between the parts of a text of the type, or after it, a slash does not begin a complete comment. -/
def OddTy (D : Nat → Ty) (x : Exts) : Nat → Ty → Nat → Text → Prop
  | 0, _, _, _ => False
  | f + 1, T, n, u => OddLevel x (WholeAt D x (f + 1)) (TyLang D x f) (ItemAt D x f) (OddTy D x f) D T n u

end

end Ron
