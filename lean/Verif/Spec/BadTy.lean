import Verif.Spec.TyLang
import Verif.Spec.Closed
import Verif.Spec.Before
import Verif.Spec.BadStrings
import Verif.Spec.B64Found
import Verif.Spec.BadRange
/-!
# Texts that are no text of a type: the error and its place

`BadTy D x f T n u e r`: what stands at `u` is no text of the type `T`; the error is `e`, and `r` is what is left at its place.  Defects
are those of numbers, strings and characters, brackets that are missing, values, commas, colons and closing brackets that are missing in
lists, wrong numbers of items, and fields and variants that are unknown, given twice or missing; at any depth.

Nothing here refers to the deserializer.
-/

namespace Ron

/-- The end of the text, or a comma, a colon or a closing bracket. -/
def Halts (q : Text) : Prop := q = [] ∨ ∃ c q', q = c :: q' ∧ c ∈ [',', ')', ']', '}', ':']

/-- What a struct makes of an error of its fields: it says in which struct. -/
def Err.inStruct (name : Option Text) : Err → Err
  | .noSuchStructField es f none => .noSuchStructField es f name
  | .missingStructField f none => .missingStructField f name
  | .duplicateStructField f none => .duplicateStructField f name
  | e => e

/-- What an enum makes of an error of its variants. -/
def Err.inEnum (name : Text) : Err → Err
  | .noSuchEnumVariant es v none => .noSuchEnumVariant es v (if name = [] then none else some name)
  | e => e

/-- What a tuple struct makes of an error in it. -/
def Err.inTupleStruct (name : Text) (e : Err) : Err := if e = .expectedStructLike ∧ name ≠ [] then .expectedNamedStructLike name else e

/-- The name errors give a struct. -/
def nameOf (name : Text) : Option Text := if name = [] then none else some name

/-- Nothing but a struct of that name will do. -/
def wantStruct (name : Text) : Err := if name = [] then .expectedStructLike else .expectedNamedStructLike name

section
variable [Env]

/-- What begins like a byte, a byte string or a raw string. -/
def Quoted (u : Text) : Prop :=
  ∃ p ∈ [c!"b\"", c!"b'", c!"br#", c!"br\"", c!"r\"", c!"r#\"", c!"r##"], ∃ r, u = p ++ r

/-- Names of which the text is `tok` end here: the next character is none of names, and it does not make something else of the text. -/
def NameEnds (tok z : Text) : Prop :=
  (∀ c r, z = c :: r → isIdentRaw c = false) ∧ ¬ Quoted (tok ++ z) ∧ (tok = ['r'] → z.head? ≠ some '#')

/-- Neither a name, nor a name written with `r#`, although it begins like one. -/
def NoWord (u : Text) : Prop := Quoted u ∨ ∃ w, u = 'r' :: '#' :: w ∧ ∀ c r, w = c :: r → isIdentRaw c = false

/-- The notation `..` for the struct of the full range. -/
def FullRange (name u : Text) : Prop := name = c!"RangeFull" ∧ ∃ r, u = c!".." ++ r

/-- At `u` there is a whole text of the type, which shows where it ends, and `r` is what follows it. -/
inductive WholeAt (D : Nat → Ty) (x : Exts) : Nat → Ty → Nat → Text → Text → Prop
  | closed {f n : Nat} {T : Ty} {t r : Text} {v : SVal} : Closed D x f T → TyLang D x f T n t v → t ≠ c!"true" → t ≠ c!"false" → t ≠ c!"None" →
      WholeAt D x f T n (t ++ r) r
  /-- It is a number. -/
  | int {f n : Nat} {t : IntTy} {u r : Text} {i : Int} : t.Avail → (∀ r, u ≠ 'b' :: '\'' :: r) → GoodInt t u i r → WholeAt D x (f + 1) (.int t) n u r
  | byte {f n k : Nat} {t r : Text} : ByteLit t k → WholeAt D x (f + 1) (.int .u8) n (t ++ r) r
  | f32 {f n : Nat} {u r : Text} {m : Number} : GoodFloat true u m r → WholeAt D x (f + 1) .f32 n u r
  | f64 {f n : Nat} {u r : Text} {m : Number} : GoodFloat false u m r → WholeAt D x (f + 1) .f64 n u r
  /-- It is a word, which does not run on. -/
  | bool {f n : Nat} {b : Bool} {r : Text} : NoIdentStart r → WholeAt D x (f + 1) .bool n ((if b then c!"true" else c!"false") ++ r) r
  | none {f n : Nat} {T : Ty} {r : Text} : NoIdentStart r → WholeAt D x (f + 1) (.option T) n (c!"None" ++ r) r
  | full {f n : Nat} {name r : Text} : FullRange name (c!".." ++ r) → WholeAt D x (f + 1) (.unitStruct name) n (c!".." ++ r) r
  | unitParens {f n : Nat} {name r : Text} : ¬ FullRange name (c!"()" ++ r) → x.explicitStructNames = false → WholeAt D x (f + 1) (.unitStruct name) n (c!"()" ++ r) r
  | unitName {f n : Nat} {name tok r : Text} : ¬ FullRange name (tok ++ r) → KeyTok name tok → NameEnds tok r → WholeAt D x (f + 1) (.unitStruct name) n (tok ++ r) r
  /-- A variant without data. -/
  | variant {f n : Nat} {name id tok r : Text} {variants : List (Text × Variant)} : KeyTok id tok →
      variants.find? (fun e => e.1 = id) = .some (id, .unit) → NameEnds tok r → WholeAt D x (f + 1) (.enum name variants) (n + 2) (tok ++ r) r
  /-- A variant with data. -/
  | data {f n : Nat} {name id tok w r : Text} {variants : List (Text × Variant)} {k : Variant} {v : SVal} : KeyTok id tok →
      variants.find? (fun e => e.1 = id) = .some (id, k) → k.HasData → VariantText x.implicitSome (TyLang D x f) (Optional D f) name id k (n + 1) w v →
      WholeAt D x (f + 1) (.enum name variants) (n + 2) (tok ++ (w ++ r)) r
  /-- A struct as fields in parentheses, or in the notation of ranges. -/
  | fields {f n : Nat} {name p q r : Text} {deny : Bool} {fields : List (Text × Ty)} {fs : List (Text × SVal)} : NamePre x name p →
      FieldsText x.implicitSome (TyLang D x f) (Optional D f) deny fields n q fs → WholeAt D x (f + 1) (.struct name deny fields) n (p ++ (q ++ r)) r
  | range {f n : Nat} {name u r : Text} {deny : Bool} {fields : List (Text × Ty)} {es : List (Text × Number)} {fs : List (Text × SVal)} :
      RangeAt name es u r → RangeFields (NumAs D f) fields es fs → WholeAt D x (f + 1) (.struct name deny fields) n u r
  /-- An optional value in parentheses. -/
  | some {f n : Nat} {T : Ty} {l q r : Text} {v : SVal} : Layout l → Deeper (fun n q v => InParens (fun t => TyLang D x f T n t v) q) n q v →
      WholeAt D x (f + 1) (.option T) n (c!"Some" ++ (l ++ (q ++ r))) r
  /-- An optional value without parentheses. -/
  | implicit {f n : Nat} {T : Ty} {p u r : Text} : x.implicitSome = true → SomeBare p u → NoLayoutStart u → WholeAt D x f T n u r →
      WholeAt D x (f + 1) (.option T) (n + 1) (p ++ u) r
  | unwrapped {f n : Nat} {name u r : Text} {T : Ty} : x.unwrapNewtypes = true → WholeAt D x f T n u r → WholeAt D x (f + 1) (.newtype name T) (n + 1) u r
  | ref {f n i : Nat} {u r : Text} : WholeAt D x f (D i) n u r → WholeAt D x (f + 1) (.ref i) n u r

/-- At `u` there is a whole text of the type, and `q` is what follows it and the layout after it. -/
inductive ItemAt (D : Nat → Ty) (x : Exts) : Nat → Ty → Nat → Text → Text → Prop
  /-- It is followed by a delimiter. -/
  | delim {f n : Nat} {T : Ty} {t l q : Text} {v : SVal} : TyLang D x f T n t v → Layout l → Halts q → ItemAt D x f T n (t ++ (l ++ q)) q
  /-- It shows where it ends. -/
  | whole {f n : Nat} {T : Ty} {u l q : Text} : WholeAt D x f T n u (l ++ q) → Layout l → NoLayoutStart q → ItemAt D x f T n u q

/-- At the place `u` of an item, before the closing bracket `c`. -/
def Place (c : Char) (u : Text) : Prop := NoLayoutStart u ∧ u.head? ≠ some c

/-- Neither a comma nor the closing bracket. -/
def NoSep (c : Char) (q : Text) : Prop := q.head? ≠ some ',' ∧ q.head? ≠ some c

/-- A list in brackets. -/
inductive BadSeq {α : Type} (L : Nat → Text → α → Prop) (I : Nat → Text → Text → Prop) (B : Nat → Text → Err → Text → Prop) : Nat → Text → Err → Text → Prop
  | opening {n : Nat} {u : Text} : u.head? ≠ some '[' → BadSeq L I B n u .expectedArray u
  | item {n : Nat} {ts : List Text} {vs : List α} {p u r : Text} {e : Err} : Before ts p → All2 (L n) ts vs → Place ']' u → B n u e r →
      BadSeq L I B (n + 2) ('[' :: (p ++ u)) e r
  | comma {n : Nat} {ts : List Text} {vs : List α} {p u q : Text} : Before ts p → All2 (L n) ts vs → Place ']' u → I n u q → NoSep ']' q →
      BadSeq L I B (n + 2) ('[' :: (p ++ u)) .expectedComma q

/-- Items of given types in parentheses, which are open. -/
inductive BadTuple (L : Ty → Nat → Text → SVal → Prop) (I : Ty → Nat → Text → Text → Prop) (B : Ty → Nat → Text → Err → Text → Prop) (called : Text) :
    List Ty → Nat → Text → Err → Text → Prop
  | item {n : Nat} {Ts Ts' : List Ty} {T : Ty} {ts : List Text} {vs : List SVal} {p u r : Text} {e : Err} : Before ts p →
      All3 (fun T => L T n) Ts ts vs → Place ')' u → B T n u e r → BadTuple L I B called (Ts ++ T :: Ts') (n + 2) ('(' :: (p ++ u)) e r
  /-- Between two items. -/
  | comma {n : Nat} {Ts Ts' : List Ty} {T T' : Ty} {ts : List Text} {vs : List SVal} {p u q : Text} : Before ts p →
      All3 (fun T => L T n) Ts ts vs → Place ')' u → I T n u q → NoSep ')' q →
      BadTuple L I B called (Ts ++ T :: T' :: Ts') (n + 2) ('(' :: (p ++ u)) .expectedComma q
  /-- Too few items. -/
  | short {n : Nat} {Ts Ts' : List Ty} {T : Ty} {ts : List Text} {vs : List SVal} {w r : Text} : Delim '(' ')' ts (w ++ [')']) →
      All3 (fun T => L T n) Ts ts vs → BadTuple L I B called (Ts ++ T :: Ts') (n + 2) (w ++ ')' :: r) (.expectedDifferentLength called ts.length) (')' :: r)
  /-- After the last item. -/
  | close {n : Nat} {Ts : List Ty} {T : Ty} {ts : List Text} {vs : List SVal} {p u q : Text} : Before ts p →
      All3 (fun T => L T n) Ts ts vs → Place ')' u → I T n u q → NoSep ')' q →
      BadTuple L I B called (Ts ++ [T]) (n + 2) ('(' :: (p ++ u)) .expectedStructLikeEnd q
  /-- Too many items. -/
  | long {n : Nat} {Ts : List Ty} {ts : List Text} {vs : List SVal} {p u : Text} : Before ts p → All3 (fun T => L T n) Ts ts vs → Place ')' u →
      BadTuple L I B called Ts (n + 2) ('(' :: (p ++ u)) .expectedStructLikeEnd u

/-- Entries in braces. -/
inductive BadMap (K V : Nat → Text → SVal → Prop) (IK IV : Nat → Text → Text → Prop) (BK BV : Nat → Text → Err → Text → Prop) :
    Nat → Text → Err → Text → Prop
  | opening {n : Nat} {u : Text} : u.head? ≠ some '{' → BadMap K V IK IV BK BV n u .expectedMap u
  | key {n : Nat} {ts : List Text} {es : List (SVal × SVal)} {p u r : Text} {e : Err} : Before ts p →
      All2 (fun t e => ∃ k v, K n k e.1 ∧ V n v e.2 ∧ Entry k v t) ts es → Place '}' u → BK n u e r → BadMap K V IK IV BK BV (n + 2) ('{' :: (p ++ u)) e r
  | colon {n : Nat} {ts : List Text} {es : List (SVal × SVal)} {p u q : Text} : Before ts p →
      All2 (fun t e => ∃ k v, K n k e.1 ∧ V n v e.2 ∧ Entry k v t) ts es → Place '}' u → IK n u q → q.head? ≠ some ':' →
      BadMap K V IK IV BK BV (n + 2) ('{' :: (p ++ u)) .expectedMapColon q
  | value {n : Nat} {ts : List Text} {es : List (SVal × SVal)} {p k l l' u r : Text} {vk : SVal} {e : Err} : Before ts p →
      All2 (fun t e => ∃ k v, K n k e.1 ∧ V n v e.2 ∧ Entry k v t) ts es → K n k vk → Layout l → Layout l' → NoLayoutStart u → BV n u e r →
      BadMap K V IK IV BK BV (n + 2) ('{' :: (p ++ (k ++ (l ++ ':' :: (l' ++ u))))) e r
  | comma {n : Nat} {ts : List Text} {es : List (SVal × SVal)} {p k l l' u q : Text} {vk : SVal} : Before ts p →
      All2 (fun t e => ∃ k v, K n k e.1 ∧ V n v e.2 ∧ Entry k v t) ts es → K n k vk → Layout l → Layout l' → NoLayoutStart u → IV n u q → NoSep '}' q →
      BadMap K V IK IV BK BV (n + 2) ('{' :: (p ++ (k ++ (l ++ ':' :: (l' ++ u))))) .expectedComma q

/-- One value in parentheses, which are open. -/
inductive BadParens (L : Nat → Text → SVal → Prop) (I : Nat → Text → Text → Prop) (B : Nat → Text → Err → Text → Prop) (close : Err) :
    Nat → Text → Err → Text → Prop
  | item {n : Nat} {a u r : Text} {e : Err} : Layout a → NoLayoutStart u → B n u e r → BadParens L I B close (n + 1) ('(' :: (a ++ u)) e r
  | close {n : Nat} {a u q : Text} : Layout a → NoLayoutStart u → I n u q → NoSep ')' q → BadParens L I B close (n + 1) ('(' :: (a ++ u)) close q
  | more {n : Nat} {a t b c u : Text} {v : SVal} : Layout a → L n t v → Layout b → Layout c → Place ')' u →
      BadParens L I B close (n + 1) ('(' :: (a ++ (t ++ (b ++ ',' :: (c ++ u))))) close u

/-- No name is here: not at the end of the text; not where a character stands that names do not have; and a name that has characters of raw
names only is no name without `r#`; nor where a string begins. -/
inductive BadWord : Text → Err → Text → Prop
  | eof : BadWord [] .eof []
  | char {c : Char} {u : Text} : isIdentRaw c = false → BadWord (c :: u) .expectedIdentifier (c :: u)
  | raw {w z : Text} : RawName w → ¬ PlainName w → NameEnds w z → BadWord (w ++ z) (.suggestRawIdentifier w) (w ++ z)
  | noWord {u : Text} : NoWord u → BadWord u .expectedIdentifier u

/-- The name of a struct is not here, where it has to be; or another one is. -/
inductive BadName (x : Exts) (name : Text) : Text → Err → Text → Prop
  | missing {u : Text} : x.explicitStructNames = true → NoIdentStart u → BadName x name u (.expectedStructName name) u
  | other {id tok z : Text} : name ≠ [] → KeyTok id tok → id ≠ name → NameEnds tok z → BadName x name (tok ++ z) (.expectedDifferentStructName name id) z
  | unnamed {id tok z : Text} : name = [] → KeyTok id tok → NameEnds tok z → BadName x name (tok ++ z) (.expectedNamedStructLike []) z
  | raw {w z : Text} : RawName w → ¬ PlainName w → ¬ NoIdentStart w → NameEnds w z →
      BadName x name (w ++ z) (if w = name then .suggestRawIdentifier name else .expectedNamedStructLike name) (w ++ z)
  | noWord {u : Text} : NoWord u → BadName x name u (.expectedNamedStructLike name) u

/-- Types with a name and parentheses; not where the notation of a range begins, and no newtypes that are unwrapped. -/
inductive Named (x : Exts) (name : Text) (u : Text) : Ty → Prop
  | struct {deny : Bool} {fields : List (Text × Ty)} : ¬ RangeHead name (fields.map Prod.fst) u → Named x name u (.struct name deny fields)
  | newtype {T : Ty} : x.unwrapNewtypes = false → Named x name u (.newtype name T)
  | tupleStruct {Ts : List Ty} : Named x name u (.tupleStruct name Ts)

/-- Fields in parentheses, which are open. -/
inductive BadFields (i : Bool) (L : Ty → Nat → Text → SVal → Prop) (I : Ty → Nat → Text → Text → Prop) (B : Ty → Nat → Text → Err → Text → Prop)
    (optional : Ty → Prop) (deny : Bool) (fields : List (Text × Ty)) : Nat → Text → Err → Text → Prop
  | value {n : Nat} {es : List Text} {gs : List (Option (Text × SVal))} {p key kt m m' u r : Text} {T : Ty} {e : Err} : Before es p →
      All2 (FieldAt i L deny fields (n + 1)) es gs → ((gs.filterMap id).map Prod.fst).Nodup → KeyTok key kt → key ∉ (gs.filterMap id).map Prod.fst →
      fields.find? (fun f => f.1 = key) = some (key, T) → Layout m → Layout m' → NoLayoutStart u → B T n u e r →
      BadFields i L I B optional deny fields (n + 2) ('(' :: (p ++ (kt ++ (m ++ ':' :: (m' ++ u))))) e r
  | comma {n : Nat} {es : List Text} {gs : List (Option (Text × SVal))} {p key kt m m' u q : Text} {T : Ty} : Before es p →
      All2 (FieldAt i L deny fields (n + 1)) es gs → ((gs.filterMap id).map Prod.fst).Nodup → KeyTok key kt → key ∉ (gs.filterMap id).map Prod.fst →
      fields.find? (fun f => f.1 = key) = some (key, T) → Layout m → Layout m' → NoLayoutStart u → I T n u q → NoSep ')' q →
      BadFields i L I B optional deny fields (n + 2) ('(' :: (p ++ (kt ++ (m ++ ':' :: (m' ++ u))))) .expectedComma q
  | colon {n : Nat} {es : List Text} {gs : List (Option (Text × SVal))} {p key kt m q : Text} : Before es p →
      All2 (FieldAt i L deny fields (n + 1)) es gs → ((gs.filterMap id).map Prod.fst).Nodup → KeyTok key kt → key ∉ (gs.filterMap id).map Prod.fst →
      key ∈ fields.map Prod.fst → NameEnds kt (m ++ q) → Layout m → NoLayoutStart q → q.head? ≠ some ':' →
      BadFields i L I B optional deny fields (n + 2) ('(' :: (p ++ (kt ++ (m ++ q)))) .expectedMapColon q
  /-- After the name of a field that is ignored. -/
  | ignoredColon {n : Nat} {es : List Text} {gs : List (Option (Text × SVal))} {p key kt m q : Text} : Before es p →
      All2 (FieldAt i L deny fields (n + 1)) es gs → ((gs.filterMap id).map Prod.fst).Nodup → KeyTok key kt → key ∉ fields.map Prod.fst → deny = false →
      NameEnds kt (m ++ q) → Layout m → NoLayoutStart q → q.head? ≠ some ':' →
      BadFields i L I B optional deny fields (n + 2) ('(' :: (p ++ (kt ++ (m ++ q)))) .expectedMapColon q
  | key {n : Nat} {es : List Text} {gs : List (Option (Text × SVal))} {p u r : Text} {e : Err} : Before es p →
      All2 (FieldAt i L deny fields (n + 1)) es gs → ((gs.filterMap id).map Prod.fst).Nodup → Place ')' u → BadWord u e r →
      BadFields i L I B optional deny fields (n + 2) ('(' :: (p ++ u)) e r
  | unknown {n : Nat} {es : List Text} {gs : List (Option (Text × SVal))} {p key kt z : Text} : Before es p →
      All2 (FieldAt i L deny fields (n + 1)) es gs → ((gs.filterMap id).map Prod.fst).Nodup → KeyTok key kt → key ∉ fields.map Prod.fst → deny = true →
      NameEnds kt z → BadFields i L I B optional deny fields (n + 2) ('(' :: (p ++ (kt ++ z))) (.noSuchStructField (fields.map Prod.fst) key none) z
  | twice {n : Nat} {es : List Text} {gs : List (Option (Text × SVal))} {p key kt z : Text} : Before es p →
      All2 (FieldAt i L deny fields (n + 1)) es gs → ((gs.filterMap id).map Prod.fst).Nodup → KeyTok key kt → key ∈ (gs.filterMap id).map Prod.fst →
      NameEnds kt z → BadFields i L I B optional deny fields (n + 2) ('(' :: (p ++ (kt ++ z))) (.duplicateStructField key none) z
  /-- The first field that is missing and is not optional. -/
  | missing {n : Nat} {es : List Text} {gs : List (Option (Text × SVal))} {w r : Text} {Fs Fs' : List (Text × Ty)} {F : Text × Ty} :
      Delim '(' ')' es (w ++ [')']) → All2 (FieldAt i L deny fields (n + 1)) es gs → ((gs.filterMap id).map Prod.fst).Nodup → fields = Fs ++ F :: Fs' →
      (∀ G ∈ Fs, G.1 ∈ (gs.filterMap id).map Prod.fst ∨ optional G.2) → F.1 ∉ (gs.filterMap id).map Prod.fst → ¬ optional F.2 →
      BadFields i L I B optional deny fields (n + 2) (w ++ ')' :: r) (.missingStructField F.1 none) (')' :: r)

/-- The data of a variant. -/
inductive BadData (i : Bool) (L : Ty → Nat → Text → SVal → Prop) (I : Ty → Nat → Text → Text → Prop) (B : Ty → Nat → Text → Err → Text → Prop)
    (optional : Ty → Prop) (id : Text) : Variant → Nat → Text → Err → Text → Prop
  | opening {n : Nat} {k : Variant} {u : Text} : k.HasData → u.head? ≠ some '(' → BadData i L I B optional id k n u .expectedStructLike u
  | newtype {n : Nat} {T : Ty} {u r : Text} {e : Err} : BadParens (L T) (I T) (fun n u e r => ∃ e', B T n u e' r ∧ e = e'.inStruct (some id)) .expectedStructLikeEnd n u e r →
      BadData i L I B optional id (.newtype T) n u e r
  | tuple {n : Nat} {Ts : List Ty} {u r : Text} {e : Err} : BadTuple L I B c!"tuple variant" Ts n u e r → BadData i L I B optional id (.tuple Ts) n u e r
  | struct {n : Nat} {deny : Bool} {fields : List (Text × Ty)} {u r : Text} {e : Err} : BadFields i L I B optional deny fields n u e r →
      BadData i L I B optional id (.struct deny fields) n u (e.inStruct (some id)) r

/-- The texts that are no texts of a type, given those of the types it is built from. -/
inductive BadLevel (x : Exts) (L : Ty → Nat → Text → SVal → Prop) (I : Ty → Nat → Text → Text → Prop) (B : Ty → Nat → Text → Err → Text → Prop)
    (D : Nat → Ty) (optional : Ty → Prop) (as : Ty → Number → SVal → Prop) (no : Ty → Number → Prop) : Ty → Nat → Text → Err → Text → Prop
  | bool {n : Nat} {u : Text} : ¬ BeginsWord c!"true" u → ¬ BeginsWord c!"false" u → BadLevel x L I B D optional as no .bool n u .expectedBoolean u
  | int {n : Nat} {t : IntTy} {u r : Text} {e : Err} : t.Avail → (∀ r, u ≠ 'b' :: '\'' :: r) → BadInt t u e r → BadLevel x L I B D optional as no (.int t) n u e r
  | byte {n : Nat} {t : IntTy} {u r : Text} {e : Err} : t.Avail → BadByteLit u e r → BadLevel x L I B D optional as no (.int t) n ('b' :: '\'' :: u) e r
  /-- A byte is no integer of another type. -/
  | otherByte {n k : Nat} {t : IntTy} {w r : Text} : t.Avail → t ≠ .u8 → ByteLit w k →
      BadLevel x L I B D optional as no (.int t) n (w ++ r) (.invalidValueForType t.called w) r
  | f32 {n : Nat} {u r : Text} {e : Err} : BadFloat true u e r → BadLevel x L I B D optional as no .f32 n u e r
  | f64 {n : Nat} {u r : Text} {e : Err} : BadFloat false u e r → BadLevel x L I B D optional as no .f64 n u e r
  | char {n : Nat} {u r : Text} {e : Err} : BadChar u e r → BadLevel x L I B D optional as no .char n u e r
  | str {n : Nat} {u r : Text} {e : Err} : BadStr u e r → BadLevel x L I B D optional as no .str n u e r
  | bytes {n : Nat} {u r : Text} {e : Err} : u.head? ≠ some '[' → BadBytesLit b64Found u e r → BadLevel x L I B D optional as no .bytes n u e r
  /-- Bytes as a list. -/
  | byteList {n : Nat} {u r : Text} {e : Err} : BadSeq (fun _ t (b : UInt8) => IntTok .u8 t b.toNat) (I (.int .u8)) (B (.int .u8)) n ('[' :: u) e r →
      BadLevel x L I B D optional as no .bytes n ('[' :: u) e r
  | unit {n : Nat} {u : Text} : (∀ r, u ≠ '(' :: ')' :: r) → BadLevel x L I B D optional as no .unit n u .expectedUnit u
  | seq {n : Nat} {T : Ty} {u r : Text} {e : Err} : BadSeq (L T) (I T) (B T) n u e r → BadLevel x L I B D optional as no (.seq T) n u e r
  | tupleOpening {n : Nat} {Ts : List Ty} {u : Text} : u.head? ≠ some '(' → BadLevel x L I B D optional as no (.tuple Ts) n u .expectedStructLike u
  | tuple {n : Nat} {Ts : List Ty} {u r : Text} {e : Err} : BadTuple L I B c!"tuple" Ts n u e r → BadLevel x L I B D optional as no (.tuple Ts) n u e r
  | tupleStruct {n : Nat} {name p u r : Text} {Ts : List Ty} {e : Err} : NameTight x name p → BadTuple L I B c!"tuple struct" Ts n u e r →
      BadLevel x L I B D optional as no (.tupleStruct name Ts) n (p ++ u) (e.inTupleStruct name) r
  | map {n : Nat} {K V : Ty} {u r : Text} {e : Err} : BadMap (L K) (L V) (I K) (I V) (B K) (B V) n u e r → BadLevel x L I B D optional as no (.map K V) n u e r
  | noOption {n : Nat} {T : Ty} {u : Text} : x.implicitSome = false → ¬ BeginsWord c!"None" u → ¬ BeginsWord c!"Some" u →
      BadLevel x L I B D optional as no (.option T) n u .expectedOption u
  | someOpening {n : Nat} {T : Ty} {l u : Text} : x.implicitSome = false → Layout l → NoIdentStart (l ++ u) → NoLayoutStart u → u.head? ≠ some '(' →
      BadLevel x L I B D optional as no (.option T) n (c!"Some" ++ (l ++ u)) .expectedOption u
  | some {n : Nat} {T : Ty} {l u r : Text} {e : Err} : Layout l → BadParens (L T) (I T) (B T) .expectedOptionEnd n u e r →
      BadLevel x L I B D optional as no (.option T) n (c!"Some" ++ (l ++ u)) e r
  | implicit {n : Nat} {T : Ty} {p u r : Text} {e : Err} : x.implicitSome = true → SomeBare p u → NoLayoutStart u → B T n u e r →
      BadLevel x L I B D optional as no (.option T) (n + 1) (p ++ u) e r
  | newtypeOpening {n : Nat} {name tok l u : Text} {T : Ty} : x.unwrapNewtypes = false → KeyTok name tok → NameEnds tok (l ++ u) → Layout l → NoLayoutStart u →
      u.head? ≠ .some '(' → BadLevel x L I B D optional as no (.newtype name T) n (tok ++ (l ++ u)) (wantStruct name) u
  | newtype {n : Nat} {name p u r : Text} {T : Ty} {e : Err} : x.unwrapNewtypes = false → NamePre x name p →
      BadParens (L T) (I T) (B T) .expectedStructLikeEnd n u e r → BadLevel x L I B D optional as no (.newtype name T) n (p ++ u) e r
  | unwrapped {n : Nat} {name u r : Text} {T : Ty} {e : Err} : x.unwrapNewtypes = true → B T n u e r → BadLevel x L I B D optional as no (.newtype name T) (n + 1) u e r
  /-- The notation of a range. -/
  | range {n : Nat} {name u r : Text} {deny : Bool} {fields : List (Text × Ty)} {e : Err} : BadRange name (fields.map Prod.fst) u e r →
      BadLevel x L I B D optional as no (.struct name deny fields) n u e r
  /-- A bound is no number of its type.  (What the error says of it is left out in the model.) -/
  | bound {n : Nat} {name u r : Text} {deny : Bool} {fields : List (Text × Ty)} {es : List (Text × Number)} : RangeAt name es u r → NoBound as no fields es →
      BadLevel x L I B D optional as no (.struct name deny fields) n u (.invalidValueForType [] []) r
  | structOpening {n : Nat} {name tok l u : Text} {deny : Bool} {fields : List (Text × Ty)} : KeyTok name tok → NameEnds tok (l ++ u) → Layout l → NoLayoutStart u →
      ¬ RangeHead name (fields.map Prod.fst) (tok ++ (l ++ u)) → u.head? ≠ .some '(' → BadLevel x L I B D optional as no (.struct name deny fields) n (tok ++ (l ++ u)) (wantStruct name) u
  | struct {n : Nat} {name p u r : Text} {deny : Bool} {fields : List (Text × Ty)} {e : Err} : NamePre x name p →
      BadFields x.implicitSome L I B optional deny fields n u e r → BadLevel x L I B D optional as no (.struct name deny fields) n (p ++ u) (e.inStruct (nameOf name)) r
  | name {n : Nat} {name u r : Text} {T : Ty} {e : Err} : Named x name u T → BadName x name u e r → BadLevel x L I B D optional as no T n u e r
  | nameless {n : Nat} {name u : Text} {T : Ty} : Named x name u T → x.explicitStructNames = false → NoIdentStart u → NoLayoutStart u → u.head? ≠ .some '(' →
      BadLevel x L I B D optional as no T n u (wantStruct name) u
  | unitStructName {n : Nat} {name u r : Text} {e : Err} : ¬ FullRange name u → BadName x name u e r → BadLevel x L I B D optional as no (.unitStruct name) n u e r
  | unitStruct {n : Nat} {name u : Text} : ¬ FullRange name u → x.explicitStructNames = false → NoIdentStart u → (∀ r, u ≠ '(' :: ')' :: r) →
      BadLevel x L I B D optional as no (.unitStruct name) n u .expectedUnit u
  | tupleStructOpening {n : Nat} {name tok z : Text} {Ts : List Ty} : KeyTok name tok → NameEnds tok z → z.head? ≠ .some '(' →
      BadLevel x L I B D optional as no (.tupleStruct name Ts) n (tok ++ z) (wantStruct name) z
  | word {n : Nat} {name u r : Text} {variants : List (Text × Variant)} {e : Err} : BadWord u e r → NoLayoutStart u → BadLevel x L I B D optional as no (.enum name variants) (n + 2) u e r
  | variant {n : Nat} {name id tok r : Text} {variants : List (Text × Variant)} : KeyTok id tok → id ∉ variants.map Prod.fst → NameEnds tok r →
      BadLevel x L I B D optional as no (.enum name variants) (n + 2) (tok ++ r) (.noSuchEnumVariant (variants.map Prod.fst) id (nameOf name)) r
  | data {n : Nat} {name id tok l u r : Text} {variants : List (Text × Variant)} {k : Variant} {e : Err} : KeyTok id tok →
      variants.find? (fun e => e.1 = id) = .some (id, k) → NameEnds tok (l ++ u) → Layout l → NoLayoutStart u → BadData x.implicitSome L I B optional id k (n + 1) u e r →
      BadLevel x L I B D optional as no (.enum name variants) (n + 2) (tok ++ (l ++ u)) (e.inEnum name) r
  | ref {n i : Nat} {u r : Text} {e : Err} : B (D i) n u e r → BadLevel x L I B D optional as no (.ref i) n u e r

/-- The texts that are no texts of a type, with the error and what is left. -/
def BadTy (D : Nat → Ty) (x : Exts) : Nat → Ty → Nat → Text → Err → Text → Prop
  | 0, _, _, _, _, _ => False
  | f + 1, T, n, u, e, r => BadLevel x (TyLang D x f) (ItemAt D x f) (BadTy D x f) D (Optional D f) (NumAs D f) (NoNumber D f) T n u e r

end

end Ron
