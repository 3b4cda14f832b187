import Verif.Spec.Covered
/-!
# Comments that break a value

A slash that begins no comment, or a block comment that is not closed, in a place between the parts of a value.
-/

namespace Ron

/-- After layout there is a comment that is broken. -/
def Broken (r : Text) (e : Err) : Prop := ∃ l w, r = l ++ w ∧ Layout l ∧ BrokenComment w e

section
variable [Env]

/-- A comment is broken inside or after an item, or after the comma that follows it. -/
inductive BrokenItem (I : Nat → Text → Text → Prop) (B : Nat → Text → Err → Prop) : Nat → Text → Err → Prop
  | inside {n : Nat} {u : Text} {e : Err} : B n u e → BrokenItem I B n u e
  | comma {n : Nat} {u r : Text} {e : Err} : I n u (',' :: r) → Broken r e → BrokenItem I B n u e

/-- One value in parentheses. -/
inductive BrokenParens (I : Nat → Text → Text → Prop) (B : Nat → Text → Err → Prop) : Nat → Text → Err → Prop
  | opening {n : Nat} {w : Text} {e : Err} : Broken w e → BrokenParens I B n ('(' :: w) e
  | item {n : Nat} {a u : Text} {e : Err} : Layout a → NoLayoutStart u → BrokenItem I B n u e → BrokenParens I B (n + 1) ('(' :: (a ++ u)) e

/-- Items of given types in parentheses. -/
inductive BrokenTuple (L : Ty → Nat → Text → SVal → Prop) (I : Ty → Nat → Text → Text → Prop) (B : Ty → Nat → Text → Err → Prop) : List Ty → Nat → Text → Err → Prop
  | opening {n : Nat} {Ts : List Ty} {w : Text} {e : Err} : Broken w e → BrokenTuple L I B Ts (n + 1) ('(' :: w) e
  | item {n : Nat} {Ts Ts' : List Ty} {T : Ty} {ts : List Text} {vs : List SVal} {p u : Text} {e : Err} : Before ts p →
      All3 (fun T => L T n) Ts ts vs → Place ')' u → BrokenItem (I T) (B T) n u e → BrokenTuple L I B (Ts ++ T :: Ts') (n + 2) ('(' :: (p ++ u)) e

/-- Fields in parentheses. -/
inductive BrokenFields (i : Bool) (L : Ty → Nat → Text → SVal → Prop) (I : Ty → Nat → Text → Text → Prop) (B : Ty → Nat → Text → Err → Prop)
    (deny : Bool) (fields : List (Text × Ty)) : Nat → Text → Err → Prop
  | opening {n : Nat} {w : Text} {e : Err} : Broken w e → BrokenFields i L I B deny fields (n + 1) ('(' :: w) e
  /-- After the name of a field, which is a new one. -/
  | key {n : Nat} {es : List Text} {gs : List (Option (Text × SVal))} {p key kt z : Text} {e : Err} : Before es p →
      All2 (FieldAt i L deny fields (n + 1)) es gs → ((gs.filterMap id).map Prod.fst).Nodup → KeyTok key kt → key ∉ (gs.filterMap id).map Prod.fst →
      key ∈ fields.map Prod.fst → NameEnds kt z → Broken z e → BrokenFields i L I B deny fields (n + 2) ('(' :: (p ++ (kt ++ z))) e
  /-- After the name of a field that is ignored. -/
  | ignoredKey {n : Nat} {es : List Text} {gs : List (Option (Text × SVal))} {p key kt z : Text} {e : Err} : Before es p →
      All2 (FieldAt i L deny fields (n + 1)) es gs → ((gs.filterMap id).map Prod.fst).Nodup → KeyTok key kt → key ∉ fields.map Prod.fst → deny = false →
      NameEnds kt z → Broken z e → BrokenFields i L I B deny fields (n + 2) ('(' :: (p ++ (kt ++ z))) e
  /-- After the colon. -/
  | colon {n : Nat} {es : List Text} {gs : List (Option (Text × SVal))} {p key kt m z : Text} {T : Ty} {e : Err} : Before es p →
      All2 (FieldAt i L deny fields (n + 1)) es gs → ((gs.filterMap id).map Prod.fst).Nodup → KeyTok key kt → key ∉ (gs.filterMap id).map Prod.fst →
      fields.find? (fun f => f.1 = key) = some (key, T) → Layout m → Broken z e →
      BrokenFields i L I B deny fields (n + 2) ('(' :: (p ++ (kt ++ (m ++ ':' :: z)))) e
  | value {n : Nat} {es : List Text} {gs : List (Option (Text × SVal))} {p key kt m m' u : Text} {T : Ty} {e : Err} : Before es p →
      All2 (FieldAt i L deny fields (n + 1)) es gs → ((gs.filterMap id).map Prod.fst).Nodup → KeyTok key kt → key ∉ (gs.filterMap id).map Prod.fst →
      fields.find? (fun f => f.1 = key) = some (key, T) → Layout m → Layout m' → NoLayoutStart u → BrokenItem (I T) (B T) n u e →
      BrokenFields i L I B deny fields (n + 2) ('(' :: (p ++ (kt ++ (m ++ ':' :: (m' ++ u))))) e

/-- The data of a variant. -/
inductive BrokenData (i : Bool) (L : Ty → Nat → Text → SVal → Prop) (I : Ty → Nat → Text → Text → Prop) (B : Ty → Nat → Text → Err → Prop) : Variant → Nat → Text → Err → Prop
  | newtype {n : Nat} {T : Ty} {u : Text} {e : Err} : BrokenParens (I T) (B T) n u e → BrokenData i L I B (.newtype T) n u e
  | tuple {n : Nat} {Ts : List Ty} {u : Text} {e : Err} : BrokenTuple L I B Ts n u e → BrokenData i L I B (.tuple Ts) n u e
  | struct {n : Nat} {deny : Bool} {fields : List (Text × Ty)} {u : Text} {e : Err} : BrokenFields i L I B deny fields n u e → BrokenData i L I B (.struct deny fields) n u e

/-- A comment is broken inside or after a text of a type, given the texts of the types it is built from. -/
inductive BrokenLevel (x : Exts) (W : Ty → Nat → Text → Text → Prop) (L : Ty → Nat → Text → SVal → Prop) (I : Ty → Nat → Text → Text → Prop)
    (B : Ty → Nat → Text → Err → Prop) (D : Nat → Ty) : Ty → Nat → Text → Err → Prop
  | after {n : Nat} {T : Ty} {u r : Text} {e : Err} : W T n u r → Broken r e → BrokenLevel x W L I B D T n u e
  | seqOpening {n : Nat} {T : Ty} {w : Text} {e : Err} : Broken w e → BrokenLevel x W L I B D (.seq T) (n + 1) ('[' :: w) e
  | seqItem {n : Nat} {T : Ty} {ts : List Text} {vs : List SVal} {p u : Text} {e : Err} : Before ts p → All2 (L T n) ts vs → Place ']' u →
      BrokenItem (I T) (B T) n u e → BrokenLevel x W L I B D (.seq T) (n + 2) ('[' :: (p ++ u)) e
  | byteOpening {n : Nat} {w : Text} {e : Err} : Broken w e → BrokenLevel x W L I B D .bytes (n + 1) ('[' :: w) e
  | byteItem {n : Nat} {ts : List Text} {vs : List UInt8} {p u : Text} {e : Err} : Before ts p → All2 (fun t b => IntTok .u8 t b.toNat) ts vs → Place ']' u →
      BrokenItem (I (.int .u8)) (B (.int .u8)) n u e → BrokenLevel x W L I B D .bytes (n + 2) ('[' :: (p ++ u)) e
  | tuple {n : Nat} {Ts : List Ty} {u : Text} {e : Err} : BrokenTuple L I B Ts n u e → BrokenLevel x W L I B D (.tuple Ts) n u e
  | tupleStruct {n : Nat} {name p u : Text} {Ts : List Ty} {e : Err} : NameTight x name p → BrokenTuple L I B Ts n u e →
      BrokenLevel x W L I B D (.tupleStruct name Ts) n (p ++ u) e
  | mapOpening {n : Nat} {K V : Ty} {w : Text} {e : Err} : Broken w e → BrokenLevel x W L I B D (.map K V) (n + 1) ('{' :: w) e
  | mapKey {n : Nat} {K V : Ty} {ts : List Text} {es : List (SVal × SVal)} {p u : Text} {e : Err} : Before ts p →
      All2 (fun t e => ∃ k v, L K n k e.1 ∧ L V n v e.2 ∧ Entry k v t) ts es → Place '}' u → B K n u e → BrokenLevel x W L I B D (.map K V) (n + 2) ('{' :: (p ++ u)) e
  | mapColon {n : Nat} {K V : Ty} {ts : List Text} {es : List (SVal × SVal)} {p u r : Text} {e : Err} : Before ts p →
      All2 (fun t e => ∃ k v, L K n k e.1 ∧ L V n v e.2 ∧ Entry k v t) ts es → Place '}' u → I K n u (':' :: r) → Broken r e →
      BrokenLevel x W L I B D (.map K V) (n + 2) ('{' :: (p ++ u)) e
  | mapValue {n : Nat} {K V : Ty} {ts : List Text} {es : List (SVal × SVal)} {p k l l' u : Text} {vk : SVal} {e : Err} : Before ts p →
      All2 (fun t e => ∃ k v, L K n k e.1 ∧ L V n v e.2 ∧ Entry k v t) ts es → L K n k vk → Layout l → Layout l' → NoLayoutStart u → BrokenItem (I V) (B V) n u e →
      BrokenLevel x W L I B D (.map K V) (n + 2) ('{' :: (p ++ (k ++ (l ++ ':' :: (l' ++ u))))) e
  | someWord {n : Nat} {T : Ty} {r : Text} {e : Err} : NoIdentStart r → Broken r e → BrokenLevel x W L I B D (.option T) n (c!"Some" ++ r) e
  | some {n : Nat} {T : Ty} {l u : Text} {e : Err} : Layout l → BrokenParens (I T) (B T) n u e → BrokenLevel x W L I B D (.option T) n (c!"Some" ++ (l ++ u)) e
  | implicit {n : Nat} {T : Ty} {p u : Text} {e : Err} : x.implicitSome = true → SomeBare p u → NoLayoutStart u → B T n u e →
      BrokenLevel x W L I B D (.option T) (n + 1) (p ++ u) e
  | newtype {n : Nat} {name p u : Text} {T : Ty} {e : Err} : x.unwrapNewtypes = false → NamePre x name p → BrokenParens (I T) (B T) n u e →
      BrokenLevel x W L I B D (.newtype name T) n (p ++ u) e
  | newtypeName {n : Nat} {name tok z : Text} {T : Ty} {e : Err} : x.unwrapNewtypes = false → KeyTok name tok → NameEnds tok z → Broken z e →
      BrokenLevel x W L I B D (.newtype name T) n (tok ++ z) e
  | structName {n : Nat} {name tok z : Text} {deny : Bool} {fields : List (Text × Ty)} {e : Err} : KeyTok name tok → NameEnds tok z →
      ¬ RangeHead name (fields.map Prod.fst) (tok ++ z) → Broken z e → BrokenLevel x W L I B D (.struct name deny fields) n (tok ++ z) e
  | struct {n : Nat} {name p u : Text} {deny : Bool} {fields : List (Text × Ty)} {e : Err} : NamePre x name p → BrokenFields x.implicitSome L I B deny fields n u e →
      BrokenLevel x W L I B D (.struct name deny fields) n (p ++ u) e
  | variant {n : Nat} {name id tok z : Text} {variants : List (Text × Variant)} {k : Variant} {e : Err} : KeyTok id tok →
      variants.find? (fun e => e.1 = id) = .some (id, k) → k.HasData → NameEnds tok z → Broken z e → BrokenLevel x W L I B D (.enum name variants) (n + 2) (tok ++ z) e
  | data {n : Nat} {name id tok l u : Text} {variants : List (Text × Variant)} {k : Variant} {e : Err} : KeyTok id tok →
      variants.find? (fun e => e.1 = id) = .some (id, k) → NameEnds tok (l ++ u) → Layout l → BrokenData x.implicitSome L I B k (n + 1) u e →
      BrokenLevel x W L I B D (.enum name variants) (n + 2) (tok ++ (l ++ u)) e
  | unwrapped {n : Nat} {name u : Text} {T : Ty} {e : Err} : x.unwrapNewtypes = true → B T n u e → BrokenLevel x W L I B D (.newtype name T) (n + 1) u e
  | ref {n i : Nat} {u : Text} {e : Err} : B (D i) n u e → BrokenLevel x W L I B D (.ref i) n u e

/-- In a text of the type, or after it, a comment is broken. -/
def BrokenTy (D : Nat → Ty) (x : Exts) : Nat → Ty → Nat → Text → Err → Prop
  | 0, _, _, _, _ => False
  | f + 1, T, n, u, e => BrokenLevel x (WholeAt D x (f + 1)) (TyLang D x f) (ItemAt D x f) (BrokenTy D x f) D T n u e

/-- A variant without named fields. -/
def Variant.Unnamed : Variant → Prop
  | .struct _ _ => False
  | _ => True

/-- Booleans, numbers, characters, strings, byte strings, units, options, sequences, tuples, tuple structs, maps and enums of such types, and newtypes of them unless they
are unwrapped. -/
inductive Listed (D : Nat → Ty) (x : Exts) : Nat → Ty → Prop
  | bool {f : Nat} : Listed D x (f + 1) .bool
  | int {f : Nat} {t : IntTy} : t.Avail → Listed D x (f + 1) (.int t)
  | f32 {f : Nat} : Listed D x (f + 1) .f32
  | f64 {f : Nat} : Listed D x (f + 1) .f64
  | char {f : Nat} : Listed D x (f + 1) .char
  | str {f : Nat} : Listed D x (f + 1) .str
  | bytes {f : Nat} : Listed D x (f + 2) .bytes
  | unit {f : Nat} : Listed D x (f + 1) .unit
  | unitStruct {f : Nat} {name : Text} : Listed D x (f + 1) (.unitStruct name)
  | option {f : Nat} {T : Ty} : Listed D x f T → Listed D x (f + 1) (.option T)
  | seq {f : Nat} {T : Ty} : Listed D x f T → Listed D x (f + 1) (.seq T)
  | tuple {f : Nat} {Ts : List Ty} : (∀ T ∈ Ts, Listed D x f T) → Listed D x (f + 1) (.tuple Ts)
  | tupleStruct {f : Nat} {name : Text} {Ts : List Ty} : (∀ T ∈ Ts, Listed D x f T) → Listed D x (f + 1) (.tupleStruct name Ts)
  | map {f : Nat} {K V : Ty} : Listed D x f K → Listed D x f V → Listed D x (f + 1) (.map K V)
  | newtype {f : Nat} {name : Text} {T : Ty} : x.unwrapNewtypes = false → Listed D x f T → Listed D x (f + 1) (.newtype name T)
  | enum {f : Nat} {name : Text} {variants : List (Text × Variant)} : (∀ e ∈ variants, e.2.Unnamed) → (∀ e ∈ variants, ∀ T ∈ e.2.types, Listed D x f T) →
      Listed D x (f + 1) (.enum name variants)
  | ref {f i : Nat} : Listed D x f (D i) → Listed D x (f + 1) (.ref i)

end

/-- No line comment is ended by the end of the text. -/
def NoOpenLine (u : Text) : Prop := ∀ p w, u = p ++ w → ¬ OpenLine w

end Ron
