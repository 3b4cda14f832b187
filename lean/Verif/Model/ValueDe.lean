import Verif.Model.De
/-!
# Model of `Value` as a deserializer (src/value/mod.rs:122-260, src/de/value.rs:30-241)

A visitor is a record of what it does with each kind of data.  Its `visit_seq` and `visit_map` are arbitrary terminating
programs over the operations of `SeqAccess` and `MapAccess`; a `DeserializeSeed` is an arbitrary function of the `Value` it is
given.
-/

namespace Ron

/-- A program over `SeqAccess`: `next_element_seed`, or the result. -/
inductive SeqProg (α : Type) : Type 1
  | done (a : α)
  | err (e : Err)
  | next {β : Type} (seed : Value → Except Err β) (k : Option β → SeqProg α)

/-- A program over `MapAccess`: `next_key_seed`, `next_value_seed`, or the result. -/
inductive MapProg (α : Type) : Type 1
  | done (a : α)
  | err (e : Err)
  | key {β : Type} (seed : Value → Except Err β) (k : Option β → MapProg α)
  | value {β : Type} (seed : Value → Except Err β) (k : β → MapProg α)

/-- `serde::de::Visitor`, the methods a `Value` calls.  The argument of `seq` and `map` is `size_hint`. -/
structure Visitor (α : Type) : Type 1 where
  bool : Bool → Except Err α
  char : Char → Except Err α
  num : Number → Except Err α
  none : Except Err α
  some : Value → Except Err α
  str : Text → Except Err α
  bytes : List UInt8 → Except Err α
  unit : Except Err α
  seq : Nat → SeqProg α
  map : Nat → MapProg α

/-- src/value/mod.rs:199-219 `SeqAccessor`: the vector is reversed, elements are popped off its end.  The result carries the
elements left in the vector. -/
def runSeq {α : Type} : SeqProg α → List Value → Except Err (α × List Value)
  | .done a, vs => .ok (a, vs)
  | .err e, _ => .error e
  | .next seed k, vs =>
    match vs.getLast? with
    | Option.none => runSeq (k Option.none) vs
    | Option.some v => do
      let b ← seed v
      runSeq (k (Option.some b)) vs.dropLast

/-- src/value/mod.rs:221-258 `MapAccessor`; the third argument is its field `value`. -/
def runMap {α : Type} : MapProg α → List (Value × Value) → Option Value → Except Err (α × List (Value × Value))
  | .done a, items, _ => .ok (a, items)
  | .err e, _, _ => .error e
  | .key seed k, items, value =>
    match items.getLast? with
    | Option.none => runMap (k Option.none) items value
    | Option.some (key, v) => do
      let b ← seed key
      runMap (k (Option.some b)) items.dropLast (Option.some v)
  | .value seed k, items, value =>
    match value with
    | Option.none => .error .panic
    | Option.some v => do
      let b ← seed v
      runMap (k b) items Option.none

/-- src/value/mod.rs:147-196 `deserialize_any` of a `Value`; every other method forwards to it (134-145). -/
def Value.visit {α : Type} (vis : Visitor α) : Value → Except Err α
  | .bool b => vis.bool b
  | .char c => vis.char c
  | .map m => do
    let items := m.reverse
    let (a, items) ← runMap (vis.map items.length) items Option.none
    if items.isEmpty then .ok a
    else .error (.expectedDifferentLength (c!"a map of length " ++ natText (m.length - items.length)) m.length)
  | .num n => vis.num n
  | .some v => vis.some v
  | .none => vis.none
  | .str t => vis.str t
  | .bytes b => vis.bytes b
  | .seq vs => do
    let seq := vs.reverse
    let (a, seq) ← runSeq (vis.seq seq.length) seq
    if seq.isEmpty then .ok a
    else .error (.expectedDifferentLength (c!"a sequence of length " ++ natText (vs.length - seq.length)) vs.length)
  | .unit => vis.unit

/-- The default methods of serde's `Visitor`: `invalid_type`, which is `InvalidValueForType` (src/error.rs; its texts are not
modelled). -/
def Visitor.reject {α : Type} : Visitor α where
  bool _ := .error (.invalidValueForType [] [])
  char _ := .error (.invalidValueForType [] [])
  num _ := .error (.invalidValueForType [] [])
  none := .error (.invalidValueForType [] [])
  some _ := .error (.invalidValueForType [] [])
  str _ := .error (.invalidValueForType [] [])
  bytes _ := .error (.invalidValueForType [] [])
  unit := .error (.invalidValueForType [] [])
  seq _ := .err (.invalidValueForType [] [])
  map _ := .err (.invalidValueForType [] [])

/-- `while let Some(x) = seq.next_element()? { vec.push(x) }`; the first argument bounds the number of rounds. -/
def collectSeq {α β : Type} (seed : Value → Except Err β) (fin : List β → α) : Nat → List β → SeqProg α
  | 0, _ => .err .fuel
  | n + 1, acc => .next seed fun x => match x with
    | Option.none => .done (fin acc.reverse)
    | Option.some b => collectSeq seed fin n (b :: acc)

/-- `while let Some((k, v)) = map.next_entry()? { map.insert(k, v) }` with the insertion as `ins`. -/
def collectMap {α β γ σ : Type} (key : Value → Except Err β) (val : Value → Except Err γ) (ins : σ → β → γ → σ) (fin : σ → α) :
    Nat → σ → MapProg α
  | 0, _ => .err .fuel
  | n + 1, acc => .key key fun x => match x with
    | Option.none => .done (fin acc)
    | Option.some b => .value val fun c => collectMap key val ins fin n (ins acc b c)

section
variable [Env]

/-- src/de/value.rs:30-241 `ValueVisitor`.  The argument bounds the nesting of the value. -/
def valueVisitor : Nat → Visitor Value
  | 0 => { (Visitor.reject : Visitor Value) with num := fun _ => .error .fuel }
  | f + 1 =>
    { bool := fun b => .ok (.bool b)
      char := fun c => .ok (.char c)
      num := fun n => .ok (.num n)
      none := .ok .none
      some := fun v => (v.visit (valueVisitor f)).map Value.some
      str := fun t => .ok (.str t)
      bytes := fun b => .ok (.bytes b)
      unit := .ok .unit
      seq := fun n => collectSeq (Value.visit (valueVisitor f)) Value.seq (n + 1) []
      map := fun n => collectMap (Value.visit (valueVisitor f)) (Value.visit (valueVisitor f))
        (fun m k v => (mapInsert m k v).2) Value.map (n + 1) [] }

mutual
/-- The nesting of a value (for the bound of `valueVisitor` only). -/
def Value.height : Value → Nat
  | .some v => v.height + 1
  | .seq vs => heightAll vs + 1
  | .map m => heightEntries m + 1
  | _ => 1
/-- Elements. -/
def heightAll : List Value → Nat
  | [] => 0
  | v :: vs => max v.height (heightAll vs)
/-- Entries. -/
def heightEntries : List (Value × Value) → Nat
  | [] => 0
  | (k, v) :: m => max (max k.height v.height) (heightEntries m)
end

/-- `Value::into_rust::<Value>` (src/value/mod.rs:122-129, src/de/value.rs:30-37). -/
def Value.intoValue (V : Value) : Except Err Value := V.visit (valueVisitor V.height)

/-! ### Typed data: `Value::into_rust` with derived visitors -/

/-- The identifier visitor of a derived struct (serde_derive): the name as a string, a byte string or a character, or the position
of the field.  `none` is an ignored field. -/
def fieldOfKey (deny : Bool) (fields : List Text) : Value → Except Err (Option Text)
  | .str t => named t
  | .char c => named [c]
  | .bytes b => match fields.find? (fun f => utf8EncAll f = b) with
    | Option.some f => .ok f
    | Option.none => if deny then .error (.noSuchStructField fields [] Option.none) else .ok Option.none
  | .num (.int t i) =>
    if t.signed ∨ t.bits = 128 then .error (.invalidValueForType [] [])
    else match fields[i.toNat]? with
      | Option.some f => .ok f
      | Option.none => if deny then .error (.invalidValueForType [] []) else .ok Option.none
  | _ => .error (.invalidValueForType [] [])
where
  /-- `visit_str`. -/
  named (t : Text) : Except Err (Option Text) :=
    if fields.contains t then .ok (Option.some t)
    else if deny then .error (.noSuchStructField fields t Option.none) else .ok Option.none

/-- The `visit_map` of a derived struct (serde_derive): fields in any order, each at most once; other entries are ignored
(`IgnoredAny` accepts every `Value`). -/
def structProg {α : Type} (rec : Ty → Value → Except Err SVal) (deny : Bool) (fields : List (Text × Ty))
    (fin : (Text → Option SVal) → MapProg α) : Nat → (Text → Option SVal) → MapProg α
  | 0, _ => .err .fuel
  | n + 1, got => .key (fieldOfKey deny (fields.map Prod.fst)) fun x => match x with
    | Option.none => fin got
    | Option.some Option.none => .value (fun _ => .ok ()) fun _ => structProg rec deny fields fin n got
    | Option.some (Option.some key) =>
      if (got key).isSome then .err (.duplicateStructField key Option.none)
      else match fields.find? (fun e => e.1 = key) with
        | Option.none => .err .fuel
        | Option.some (_, t) => .value (rec t) fun v =>
          structProg rec deny fields fin n (fun k => if k = key then Option.some v else got k)

/-- The `visit_seq` of derived tuples and structs (serde_derive): one element after the other. -/
def tupleProg {α : Type} (fin : List SVal → α) : List (Value → Except Err SVal) → List SVal → SeqProg α
  | [], acc => .done (fin acc.reverse)
  | seed :: seeds, acc => .next seed fun x => match x with
    | Option.none => .err (.expectedDifferentLength [] acc.length)
    | Option.some v => tupleProg fin seeds (v :: acc)

/-- `Except` as the end of a program. -/
def MapProg.ofExcept {α : Type} : Except Err α → MapProg α
  | .ok a => .done a
  | .error e => .err e

/-- src/value/mod.rs:122-129 `Value::into_rust::<T>`, with serde's visitors for types of std and derived visitors for structs and
enums (external code).  Enums are rejected: a `Value` never calls `visit_enum`. -/
def Value.into (D : Nat → Ty) : Nat → Ty → Value → Except Err SVal
  | 0, _, _ => .error .fuel
  | f + 1, T, V =>
    match T with
    | .bool => V.visit { (Visitor.reject : Visitor SVal) with bool := fun b => .ok (.bool b) }
    | .int t =>
      if (t = .i128 ∨ t = .u128) ∧ Env.int128 = false then .error (.message (t.suffix ++ c!" is not supported"))
      else V.visit { (Visitor.reject : Visitor SVal) with num := numTo D 1 (.int t) }
    | .f32 => V.visit { (Visitor.reject : Visitor SVal) with num := numTo D 1 .f32 }
    | .f64 => V.visit { (Visitor.reject : Visitor SVal) with num := numTo D 1 .f64 }
    | .char => V.visit { (Visitor.reject : Visitor SVal) with
        char := fun c => .ok (.char c)
        str := fun t => match t with
          | [c] => .ok (.char c)
          | _ => .error (.invalidValueForType [] []) }
    | .str => V.visit { (Visitor.reject : Visitor SVal) with
        char := fun c => .ok (.str [c])
        str := fun t => .ok (.str t)
        bytes := fun b => match utf8Dec b with
          | Option.some t => .ok (.str t)
          | Option.none => .error (.invalidValueForType [] []) }
    | .bytes => V.visit { (Visitor.reject : Visitor SVal) with
        char := fun c => .ok (.bytes (utf8Enc c))
        str := fun t => .ok (.bytes (utf8EncAll t))
        bytes := fun b => .ok (.bytes b)
        seq := fun n => collectSeq (Value.visit { (Visitor.reject : Visitor UInt8) with
          num := fun n => match numTo D 1 (.int .u8) n with
            | .ok (.num (.int _ v)) => .ok (UInt8.ofNat v.toNat)
            | _ => .error (.invalidValueForType [] []) }) SVal.bytes (n + 1) [] }
    | .unit => V.visit { (Visitor.reject : Visitor SVal) with unit := .ok .unit }
    | .unitStruct name => V.visit { (Visitor.reject : Visitor SVal) with unit := .ok (.unitStruct name) }
    | .newtype name t => V.visit { (Visitor.reject : Visitor SVal) with
        seq := fun _ => tupleProg (fun vs => .newtypeStruct name (vs.headD .unit)) [Value.into D f t] [] }
    | .option t => V.visit { (Visitor.reject : Visitor SVal) with
        none := .ok .none
        unit := .ok .none
        some := fun v => (Value.into D f t v).map SVal.some }
    | .seq t => V.visit { (Visitor.reject : Visitor SVal) with
        seq := fun n => collectSeq (Value.into D f t) (fun vs => .seq (Option.some vs.length) vs) (n + 1) [] }
    | .tuple ts => V.visit { (Visitor.reject : Visitor SVal) with
        seq := fun _ => tupleProg SVal.tuple (ts.map (Value.into D f)) [] }
    | .tupleStruct name ts => V.visit { (Visitor.reject : Visitor SVal) with
        seq := fun _ => tupleProg (SVal.tupleStruct name) (ts.map (Value.into D f)) [] }
    | .map k v => V.visit { (Visitor.reject : Visitor SVal) with
        map := fun n => collectMap (Value.into D f k) (Value.into D f v) (fun es a b => es ++ [(a, b)])
          (fun es => .map (Option.some es.length) es) (n + 1) [] }
    | .struct name deny fields => V.visit { (Visitor.reject : Visitor SVal) with
        seq := fun _ => tupleProg (fun vs => .struct name ((fields.map Prod.fst).zip vs))
          (fields.map fun e => Value.into D f e.2) []
        map := fun n => structProg (Value.into D f) deny fields
          (fun got => MapProg.ofExcept ((collectFields (fieldOf D f) got fields).map (SVal.struct name))) (n + 1)
          (fun _ => Option.none) }
    | .enum _ _ => V.visit Visitor.reject
    | .value => V.intoValue.map Value.toS
    | .raw => V.visit { (Visitor.reject : Visitor SVal) with
        char := fun c => rawOf [c]
        str := rawOf }
    | .ref i => Value.into D f (D i) V
where
  /-- src/value/raw.rs:232-244: the text has to be one RON value. -/
  rawOf (t : Text) : Except Err SVal :=
    match fromStr {} deIgnored t with
    | .ok _ => .ok (.raw t)
    | .error _ => .error (.message c!"invalid RON value")

end

end Ron
