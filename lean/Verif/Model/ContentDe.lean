import Verif.Model.Content
import Verif.Model.ValueDe
/-!
# Model of reading data out of serde's `Content`, and of untagged enums

All of this is external code (serde, `private/de.rs`: `ContentRefDeserializer`; serde_derive), written down here because the outcome of
src/de/mod.rs:174-234 and 1296-1386 can only be judged together with it.  Texts of error messages are not modelled.
-/

namespace Ron

/-- What serde's `invalid_type`, `invalid_value` and `invalid_length` give. -/
def badContent {α : Type} : Except Err α := .error (.invalidValueForType [] [])

/-- `visit_content_seq_ref` with the `visit_seq` of a derived tuple: one element after the other, and none may be left. -/
def contentTuple : List (Content → Except Err SVal) → List Content → Except Err (List SVal)
  | [], [] => .ok []
  | seed :: seeds, c :: cs => do
    let v ← seed c
    let vs ← contentTuple seeds cs
    .ok (v :: vs)
  | _, _ => .error (.expectedDifferentLength [] 0)

/-- `visit_content_seq_ref` with the `visit_seq` of a `Vec`. -/
def contentList {α : Type} (seed : Content → Except Err α) : List Content → Except Err (List α)
  | [] => .ok []
  | c :: cs => do
    let v ← seed c
    let vs ← contentList seed cs
    .ok (v :: vs)

/-- `visit_content_map_ref` with the `visit_map` of a map. -/
def contentPairs (key val : Content → Except Err SVal) : List (Content × Content) → Except Err (List (SVal × SVal))
  | [] => .ok []
  | (k, v) :: es => do
    let a ← key k
    let b ← val v
    let r ← contentPairs key val es
    .ok ((a, b) :: r)

section
variable [Env]

/-- `deserialize_identifier` with the identifier visitor of a derived struct: strings, byte strings, `u8` and `u64`.  `none` is an
ignored field. -/
def contentField (deny : Bool) (fields : List Text) : Content → Except Err (Option Text)
  | .str t => fieldOfKey deny fields (.str t)
  | .bytes b => fieldOfKey deny fields (.bytes b)
  | .num (.int t i) => if t = .u8 ∨ t = .u64 then fieldOfKey deny fields (.num (.int t i)) else badContent
  | _ => badContent

/-- `deserialize_identifier` with the identifier visitor of a derived enum. -/
def contentVariant (variants : List Text) : Content → Except Err Text
  | .str t => if variants.contains t then .ok t else .error (.noSuchEnumVariant variants t none)
  | .bytes b => match variants.find? (fun f => utf8EncAll f = b) with
    | some f => .ok f
    | none => .error (.noSuchEnumVariant variants [] none)
  | .num (.int t i) =>
    if t = .u8 ∨ t = .u64 then
      match variants[i.toNat]? with
      | some f => .ok f
      | none => badContent
    else badContent
  | _ => badContent

/-- `visit_content_map_ref` with the `visit_map` of a derived struct: fields in any order, each at most once; other entries are
ignored (`IgnoredAny` accepts every content). -/
def contentFields (rec : Ty → Content → Except Err SVal) (deny : Bool) (fields : List (Text × Ty)) :
    List (Content × Content) → (Text → Option SVal) → Except Err (Text → Option SVal)
  | [], got => .ok got
  | (k, c) :: es, got => do
    match ← contentField deny (fields.map Prod.fst) k with
    | none => contentFields rec deny fields es got
    | some key =>
      if (got key).isSome then .error (.duplicateStructField key none)
      else match fields.find? (fun e => e.1 = key) with
        | none => .error .fuel
        | some (_, t) => do
          let v ← rec t c
          contentFields rec deny fields es (fun k => if k = key then some v else got k)

/-- A derived struct from a map. -/
def contentStructOf (isOption : Ty → Bool) (rec : Ty → Content → Except Err SVal) (deny : Bool) (fields : List (Text × Ty))
    (es : List (Content × Content)) : Except Err (List (Text × SVal)) := do
  let got ← contentFields rec deny fields es (fun _ => none)
  collectFields isOption got fields

mutual
/-- `deserialize_any` with `ValueVisitor` (src/de/value.rs:30-241). -/
def Content.toValue : Content → Value
  | .bool b => .bool b
  | .num n => .num n
  | .char c => .char c
  | .str t => .str t
  | .bytes b => .bytes b
  | .unit => .unit
  | .none => .none
  | .some c => .some c.toValue
  | .seq cs => .seq (toValues cs)
  | .map es => .map (mapOfList (toValueEntries es))
/-- Elements. -/
def toValues : List Content → List Value
  | [] => []
  | c :: cs => c.toValue :: toValues cs
/-- Entries. -/
def toValueEntries : List (Content × Content) → List (Value × Value)
  | [] => []
  | (k, v) :: es => (k.toValue, v.toValue) :: toValueEntries es
end

/-- The data of a variant of a derived enum: `EnumRefDeserializer` and `VariantRefDeserializer`, or with `own`
`EnumDeserializer` and `VariantDeserializer`. -/
def contentEnumData (own : Bool) (isOption : Ty → Bool) (rec : Ty → Content → Except Err SVal) (name id : Text) : Variant → Option Content → Except Err SVal
  | .unit, none => .ok (.unitVariant name id)
  | .unit, some .unit => .ok (.unitVariant name id)
  | .unit, some (.map []) => if own then .ok (.unitVariant name id) else badContent
  | .newtype t, some c => (rec t c).map (SVal.newtypeVariant name id)
  | .tuple ts, some (.seq cs) => (contentTuple (ts.map rec) cs).map (SVal.tupleVariant name id)
  | .struct deny fields, some (.map es) => (contentStructOf isOption rec deny fields es).map (SVal.structVariant name id)
  | .struct _ fields, some (.seq cs) =>
    (contentTuple (fields.map fun e => rec e.2) cs).map fun vs => SVal.structVariant name id ((fields.map Prod.fst).zip vs)
  | _, _ => badContent

/-- `deserialize_enum`: a string is a unit variant, a map with a single entry any other. -/
def contentEnum (own : Bool) (isOption : Ty → Bool) (rec : Ty → Content → Except Err SVal) (name : Text) (variants : List (Text × Variant)) (key : Content)
    (data : Option Content) : Except Err SVal := do
  let id ← contentVariant (variants.map Prod.fst) key
  match variants.find? (fun e => e.1 = id) with
  | none => .error .fuel
  | some (_, k) => contentEnumData own isOption rec name id k data

/-- `T::deserialize(ContentRefDeserializer)` for std and derived types; with `own` it is `ContentDeserializer`, which also takes an empty
map for a unit, and an empty map or sequence for a unit struct.  128-bit integers are refused: the deserializer does not
define these methods.  The number bounds the nesting of types. -/
def Content.into (own : Bool) (D : Nat → Ty) : Nat → Ty → Content → Except Err SVal
  | 0, _, _ => .error .fuel
  | f + 1, T, c =>
    match T with
    | .bool => match c with
      | .bool b => .ok (.bool b)
      | _ => badContent
    | .int t => match c with
      | .num n => if t = .i128 ∨ t = .u128 then .error (.message (t.suffix ++ c!" is not supported")) else numTo D 1 (.int t) n
      | _ => badContent
    | .f32 => match c with
      | .num n => numTo D 1 .f32 n
      | _ => badContent
    | .f64 => match c with
      | .num n => numTo D 1 .f64 n
      | _ => badContent
    | .char => match c with
      | .char c => .ok (.char c)
      | .str [c] => .ok (.char c)
      | _ => badContent
    | .str => match c with
      | .str t => .ok (.str t)
      | .bytes b => match utf8Dec b with
        | Option.some t => .ok (.str t)
        | Option.none => badContent
      | _ => badContent
    | .bytes => match c with
      | .str t => .ok (.bytes (utf8EncAll t))
      | .bytes b => .ok (.bytes b)
      | .seq cs => (contentList byteOf cs).map SVal.bytes
      | _ => badContent
    | .unit => match c with
      | .unit => .ok .unit
      | .map [] => if own then .ok .unit else badContent
      | _ => badContent
    | .unitStruct name => match c with
      | .unit => .ok (.unitStruct name)
      | .map [] => if own then .ok (.unitStruct name) else badContent
      | .seq [] => if own then .ok (.unitStruct name) else badContent
      | _ => badContent
    | .newtype name t => (Content.into own D f t c).map (SVal.newtypeStruct name)
    | .option t => match c with
      | .none => .ok .none
      | .unit => .ok .none
      | .some c => (Content.into own D f t c).map SVal.some
      | c => (Content.into own D f t c).map SVal.some
    | .seq t => match c with
      | .seq cs => (contentList (Content.into own D f t) cs).map fun vs => .seq (Option.some vs.length) vs
      | _ => badContent
    | .tuple ts => match c with
      | .seq cs => (contentTuple (ts.map (Content.into own D f)) cs).map SVal.tuple
      | _ => badContent
    | .tupleStruct name ts => match c with
      | .seq cs => (contentTuple (ts.map (Content.into own D f)) cs).map (SVal.tupleStruct name)
      | _ => badContent
    | .map k v => match c with
      | .map es => (contentPairs (Content.into own D f k) (Content.into own D f v) es).map fun es => .map (Option.some es.length) es
      | _ => badContent
    | .struct name deny fields => match c with
      | .seq cs => (contentTuple (fields.map fun e => Content.into own D f e.2) cs).map fun vs => .struct name ((fields.map Prod.fst).zip vs)
      | .map es => (contentStructOf (fieldOf D f) (Content.into own D f) deny fields es).map (SVal.struct name)
      | _ => badContent
    | .enum name variants => match c with
      | .map [(k, d)] => contentEnum own (fieldOf D f) (Content.into own D f) name variants k (Option.some d)
      | .str t => contentEnum own (fieldOf D f) (Content.into own D f) name variants (.str t) Option.none
      | _ => badContent
    | .value => .ok c.toValue.toS
    | .raw => match c with
      | .str t => Value.into.rawOf t
      | _ => badContent
    | .ref i => Content.into own D f (D i) c
where
  /-- `u8::deserialize`. -/
  byteOf : Content → Except Err UInt8
    | .num n => match numTo (fun _ => .unit) 1 (.int .u8) n with
      | .ok (.num (.int _ v)) => .ok (UInt8.ofNat v.toNat)
      | _ => badContent
    | _ => badContent

/-- One variant of an untagged enum (serde_derive, `deserialize_untagged_variant`).  The result is what serializing this variant
serializes: a unit, the content of a newtype, a tuple, or a struct with the name of the enum. -/
def untaggedAs (D : Nat → Ty) (f : Nat) (name : Text) : Variant → Content → Except Err SVal
  | .unit, .unit => .ok .unit
  | .unit, .none => .ok .unit
  | .newtype t, c => c.into false D f t
  | .tuple ts, .seq cs => (contentTuple (ts.map (Content.into false D f)) cs).map SVal.tuple
  | .struct deny fields, .map es => (contentStructOf (fieldOf D f) (Content.into false D f) deny fields es).map (SVal.struct name)
  | _, _ => badContent

/-- The first variant of an untagged enum that takes the content, and what it takes (serde_derive, `deserialize_untagged_enum`). -/
def untaggedFrom (D : Nat → Ty) (f : Nat) (name : Text) (c : Content) : Nat → List Variant → Except Err (Nat × SVal)
  | _, [] => .error (.message (c!"data did not match any variant of untagged enum " ++ name))
  | i, k :: ks => match untaggedAs D f name k c with
    | .ok v => .ok (i, v)
    | .error _ => untaggedFrom D f name c (i + 1) ks

/-- An untagged enum: the text is read into a `Content` first. -/
def deUntagged (D : Nat → Ty) (f : Nat) (name : Text) (variants : List Variant) : P (Nat × SVal) := do
  let c ← deContent
  liftE (untaggedFrom D f name c 0 variants)

end

end Ron
