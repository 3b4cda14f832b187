import Verif.Model.Ser
/-!
# Model of `Value`, `Number` ordering and `Map` (src/value/mod.rs, src/value/number.rs, src/value/map.rs, src/ser/value.rs)
-/

namespace Ron

/-- src/value/mod.rs:23-34 `Value`.  `map` is the sequence of entries of a `Map` in iteration order. -/
inductive Value
  | bool (b : Bool)
  | char (c : Char)
  | map (m : List (Value × Value))
  | num (n : Number)
  | none
  | some (v : Value)
  | str (t : Text)
  | bytes (b : List UInt8)
  | seq (vs : List Value)
  | unit

/-! ### Ordering -/

/-- `f32::total_cmp` (std): the bits, with the magnitude of negative numbers inverted, as a signed integer. -/
def F32.totalKey (b : F32) : Int := if b.toNat < 2 ^ 31 then b.toNat else -1 - ((b.toNat - 2 ^ 31 : Nat) : Int)
/-- `f64::total_cmp` (std). -/
def F64.totalKey (b : F64) : Int := if b.toNat < 2 ^ 63 then b.toNat else -1 - ((b.toNat - 2 ^ 63 : Nat) : Int)

/-- The position of a variant of `Number` in its declaration (src/value/number.rs:38-55), which derives `Ord`. -/
def Number.rank : Number → Nat
  | .int .i8 _ => 0 | .int .i16 _ => 1 | .int .i32 _ => 2 | .int .i64 _ => 3 | .int .i128 _ => 4
  | .int .u8 _ => 5 | .int .u16 _ => 6 | .int .u32 _ => 7 | .int .u64 _ => 8 | .int .u128 _ => 9
  | .f32 _ => 10 | .f64 _ => 11

/-- `Ord for Number` (derived, src/value/number.rs:36) with `Ord for F32`, `F64` (265-269). -/
def Number.cmp (a b : Number) : Ordering :=
  match compare a.rank b.rank, a, b with
  | .eq, .int _ x, .int _ y => compare x y
  | .eq, .f32 x, .f32 y => compare x.totalKey y.totalKey
  | .eq, .f64 x, .f64 y => compare x.totalKey y.totalKey
  | o, _, _ => o

/-- `PartialEq for Number` (derived) with `PartialEq for F32`, `F64` (src/value/number.rs:204-208). -/
def Number.eqv (a b : Number) : Bool :=
  match a, b with
  | .int t x, .int t' y => t = t' && x = y
  | .f32 x, .f32 y => compare x.totalKey y.totalKey = .eq
  | .f64 x, .f64 y => compare x.totalKey y.totalKey = .eq
  | _, _ => false

/-- Lexicographic comparison of strings (byte order of UTF-8 is code point order) and byte strings. -/
def cmpText : Text → Text → Ordering
  | [], [] => .eq
  | [], _ :: _ => .lt
  | _ :: _, [] => .gt
  | a :: as, b :: bs => (compare a.toNat b.toNat).then (cmpText as bs)

/-- `Ord for Vec<u8>`. -/
def cmpBytes : List UInt8 → List UInt8 → Ordering
  | [], [] => .eq
  | [], _ :: _ => .lt
  | _ :: _, [] => .gt
  | a :: as, b :: bs => (compare a.toNat b.toNat).then (cmpBytes as bs)

/-- The position of a variant of `Value` in its declaration (src/value/mod.rs:24-34), which derives `Ord`. -/
def Value.rank : Value → Nat
  | .bool _ => 0 | .char _ => 1 | .map _ => 2 | .num _ => 3 | .none => 4 | .some _ => 4
  | .str _ => 5 | .bytes _ => 6 | .seq _ => 7 | .unit => 8

mutual
/-- `Ord for Value` (derived, src/value/mod.rs:23). -/
def Value.cmp : Value → Value → Ordering
  | .bool a, .bool b => compare a.toNat b.toNat
  | .char a, .char b => compare a.toNat b.toNat
  | .map a, .map b => cmpEntries a b
  | .num a, .num b => a.cmp b
  | .none, .none => .eq
  | .none, .some _ => .lt
  | .some _, .none => .gt
  | .some a, .some b => Value.cmp a b
  | .str a, .str b => cmpText a b
  | .bytes a, .bytes b => cmpBytes a b
  | .seq a, .seq b => cmpValues a b
  | .unit, .unit => .eq
  | a, b => compare a.rank b.rank
/-- `Ord for Vec<Value>`. -/
def cmpValues : List Value → List Value → Ordering
  | [], [] => .eq
  | [], _ :: _ => .lt
  | _ :: _, [] => .gt
  | a :: as, b :: bs => (Value.cmp a b).then (cmpValues as bs)
/-- `Ord for Map` (src/value/map.rs:170-174): the entries, key before value. -/
def cmpEntries : List (Value × Value) → List (Value × Value) → Ordering
  | [], [] => .eq
  | [], _ :: _ => .lt
  | _ :: _, [] => .gt
  | (k, v) :: as, (k', v') :: bs => ((Value.cmp k k').then (Value.cmp v v')).then (cmpEntries as bs)
end

mutual
/-- `PartialEq for Value` (derived, src/value/mod.rs:23); maps compare by `cmp` (src/value/map.rs:154-159). -/
def Value.eqv : Value → Value → Bool
  | .bool a, .bool b => a == b
  | .char a, .char b => a == b
  | .map a, .map b => (cmpEntries a b).isEq
  | .num a, .num b => a.eqv b
  | .none, .none => true
  | .some a, .some b => Value.eqv a b
  | .str a, .str b => a == b
  | .bytes a, .bytes b => a == b
  | .seq a, .seq b => eqvValues a b
  | .unit, .unit => true
  | _, _ => false
/-- `PartialEq for Vec<Value>`. -/
def eqvValues : List Value → List Value → Bool
  | [], [] => true
  | a :: as, b :: bs => Value.eqv a b && eqvValues as bs
  | _, _ => false
end

/-- One call on a `Hasher`: a tag for the method and the number fed to it. -/
abbrev HashCall := Nat × Int

/-- `Hash for Number` (derived) and for `F32`, `F64` (src/value/number.rs:221-225): the discriminant, then the bits. -/
def Number.hash (n : Number) : List HashCall :=
  (0, n.rank) :: match n with
    | .int _ v => [(1, v)]
    | .f32 b => [(2, b.toNat)]
    | .f64 b => [(3, b.toNat)]

mutual
/-- `Hash for Value` (derived, src/value/mod.rs:23). -/
def Value.hash : Value → List HashCall
  | .bool b => [(0, 0), (4, b.toNat)]
  | .char c => [(0, 1), (5, c.toNat)]
  | .map m => (0, 2) :: hashEntries m
  | .num n => (0, 3) :: n.hash
  | .none => [(0, 4), (0, 0)]
  | .some v => (0, 4) :: (0, 1) :: Value.hash v
  | .str t => (0, 5) :: t.map fun c => (6, (c.toNat : Int))
  | .bytes b => (0, 6) :: (7, (b.length : Int)) :: b.map fun x => (8, (x.toNat : Int))
  | .seq vs => (0, 7) :: (7, (vs.length : Int)) :: hashValues vs
  | .unit => [(0, 8)]
/-- The elements of a `Vec<Value>`. -/
def hashValues : List Value → List HashCall
  | [] => []
  | v :: vs => Value.hash v ++ hashValues vs
/-- `Hash for Map` (src/value/map.rs:176-180). -/
def hashEntries : List (Value × Value) → List HashCall
  | [] => []
  | (k, v) :: m => Value.hash k ++ Value.hash v ++ hashEntries m
end

/-! ### Map -/

/-- `BTreeMap::insert`: the entries stay ordered by key. -/
def btInsert : List (Value × Value) → Value → Value → Option Value × List (Value × Value)
  | [], k, v => (none, [(k, v)])
  | (k', v') :: m, k, v =>
    match k.cmp k' with
    | .lt => (none, (k, v) :: (k', v') :: m)
    | .eq => (some v', (k', v) :: m)
    | .gt => let r := btInsert m k v; (r.1, (k', v') :: r.2)

/-- `IndexMap::insert`: a new key goes to the end, an existing one keeps its place. -/
def ixInsert : List (Value × Value) → Value → Value → Option Value × List (Value × Value)
  | [], k, v => (none, [(k, v)])
  | (k', v') :: m, k, v =>
    if k'.eqv k then (some v', (k', v) :: m)
    else let r := ixInsert m k v; (r.1, (k', v') :: r.2)

/-- `BTreeMap::get`. -/
def btGet : List (Value × Value) → Value → Option Value
  | [], _ => none
  | (k', v') :: m, k =>
    match k.cmp k' with
    | .lt => none
    | .eq => some v'
    | .gt => btGet m k

/-- `IndexMap::get`. -/
def ixGet : List (Value × Value) → Value → Option Value
  | [], _ => none
  | (k', v') :: m, k => if k'.eqv k then some v' else ixGet m k

/-- `BTreeMap::remove`. -/
def btRemove : List (Value × Value) → Value → Option Value × List (Value × Value)
  | [], _ => (none, [])
  | (k', v') :: m, k =>
    match k.cmp k' with
    | .lt => (none, (k', v') :: m)
    | .eq => (some v', m)
    | .gt => let r := btRemove m k; (r.1, (k', v') :: r.2)

/-- `IndexMap::shift_remove`. -/
def ixRemove : List (Value × Value) → Value → Option Value × List (Value × Value)
  | [], _ => (none, [])
  | (k', v') :: m, k =>
    if k'.eqv k then (some v', m)
    else let r := ixRemove m k; (r.1, (k', v') :: r.2)

/-- `get_mut` followed by a change of the value through the reference (src/value/map.rs:52-55, 128-133).  Both maps find
the entry as `get` does. -/
def btModify : List (Value × Value) → Value → (Value → Value) → List (Value × Value)
  | [], _, _ => []
  | (k', v') :: m, k, f =>
    match k.cmp k' with
    | .lt => (k', v') :: m
    | .eq => (k', f v') :: m
    | .gt => (k', v') :: btModify m k f
/-- `IndexMap::get_mut`. -/
def ixModify : List (Value × Value) → Value → (Value → Value) → List (Value × Value)
  | [], _, _ => []
  | (k', v') :: m, k, f => if k'.eqv k then (k', f v') :: m else (k', v') :: ixModify m k f

/-- src/value/map.rs:105-116 `Map::retain` with a predicate that may change the values and keep a state `σ` of its own
(`FnMut`): the entries are visited in iteration order.  The final state of the predicate is returned too. -/
def mapRetain {σ : Type} (keep : σ → Value → Value → Bool × Value × σ) :
    σ → List (Value × Value) → List (Value × Value) × σ
  | st, [] => ([], st)
  | st, (k, v) :: m =>
    let r := keep st k v
    let r' := mapRetain keep r.2.2 m
    (if r.1 then (k, r.2.1) :: r'.1 else r'.1, r'.2)

section
variable [Env]

/-- src/value/map.rs:57-61 `Map::insert`. -/
def mapInsert (m : List (Value × Value)) (k v : Value) : Option Value × List (Value × Value) :=
  if Env.indexmap then ixInsert m k v else btInsert m k v
/-- src/value/map.rs:46-50 `Map::get`, 119-126 `Index` (which panics instead of `none`). -/
def mapGet (m : List (Value × Value)) (k : Value) : Option Value := if Env.indexmap then ixGet m k else btGet m k
/-- src/value/map.rs:63-73 `Map::remove`. -/
def mapRemove (m : List (Value × Value)) (k : Value) : Option Value × List (Value × Value) :=
  if Env.indexmap then ixRemove m k else btRemove m k
/-- src/value/map.rs:52-55 `Map::get_mut`, used to replace the value by `f` of it. -/
def mapModify (m : List (Value × Value)) (k : Value) (f : Value → Value) : List (Value × Value) :=
  if Env.indexmap then ixModify m k f else btModify m k f
/-- src/value/map.rs:145-152 `FromIterator` (`collect` inserts one entry after the other; a `BTreeMap` sorts first,
with the same result). -/
def mapOfList (kvs : List (Value × Value)) : List (Value × Value) := kvs.foldl (fun m kv => (mapInsert m kv.1 kv.2).2) []
end

/-! ### Serialization -/

mutual
/-- src/ser/value.rs `Serialize for Value`. -/
def Value.toS : Value → SVal
  | .bool b => .bool b
  | .char c => .char c
  | .map m => .map (Option.some m.length) (entriesToS m)
  | .num n => .num n
  | .none => .none
  | .some v => .some (Value.toS v)
  | .str t => .str t
  | .bytes b => .bytes b
  | .seq vs => .seq (Option.some vs.length) (valuesToS vs)
  | .unit => .unit
/-- `Serialize for Vec<Value>`. -/
def valuesToS : List Value → List SVal
  | [] => []
  | v :: vs => Value.toS v :: valuesToS vs
/-- `Serialize for Map` (src/value/map.rs:18-20, transparent). -/
def entriesToS : List (Value × Value) → List (SVal × SVal)
  | [] => []
  | (k, v) :: m => (Value.toS k, Value.toS v) :: entriesToS m
end

end Ron
