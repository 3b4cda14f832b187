import Verif.Model.Open
import Verif.Model.Value
/-!
# Model of the deserializer (src/de/mod.rs, src/de/id.rs, src/de/value.rs)

A serde visitor is represented by the program it runs on the deserializer.  Recursion takes fuel; loops over
elements take the remaining length as fuel (C37 shows that it suffices).

Reading into serde's `Content` is in Model/Content (`serde_content_newtype`, `is_serde_content`, `SerdeEnumContent`), src/de/tag.rs in
Model/Tagged, `Terminator::MapAsStruct` (flattening) in Model/Flatten.
-/

namespace Ron

/-! ### Recursion guard -/

/-- src/de/mod.rs:136-154 `guard_recursion! { self => f? }`: an error in `f` leaves at once, with the limit lowered. -/
def deGuardQ {α : Type} (f : P α) : P α := fun s =>
  match s.limit with
  | some 0 => .err .exceededRecursionLimit s
  | _ =>
    match f { s with limit := s.limit.map (· - 1) } with
    | .ok a s' => .ok a { s' with limit := s'.limit.map (· + 1) }
    | .err e s' => .err e s'

/-- src/de/mod.rs:136-154 `guard_recursion! { self => f }`: the limit is restored after an error as well
(`saturating_add`; the model does not saturate). -/
def deGuardR {α : Type} (f : P α) : P α := fun s =>
  match s.limit with
  | some 0 => .err .exceededRecursionLimit s
  | _ =>
    match f { s with limit := s.limit.map (· - 1) } with
    | .ok a s' => .ok a { s' with limit := s'.limit.map (· + 1) }
    | .err e s' => .err e { s' with limit := s'.limit.map (· + 1) }

/-- `self.newtype_variant = b`. -/
def setNv (b : Bool) : P Unit := modSt fun s => { s with nv := b }

/-! ### Comma separated elements -/

/-- src/de/mod.rs:956-970 `CommaSeparated::has_element` (`term` is `Terminator::as_char`, 929-937). -/
def hasElement (term : Char) (had : Bool) : P Bool := do
  skipWs
  let at_ ← checkChar term
  if had then pure (!at_)
  else if at_ then pure false
  else fail .expectedComma

/-- src/de/mod.rs:1112-1125 `next_element_seed`; the second component is the new `had_comma`. -/
def nextElement {α : Type} (term : Char) (had : Bool) (seed : P α) : P (Option (α × Bool)) := do
  if ← hasElement term had then
    let a ← deGuardQ seed
    let had ← comma
    pure (some (a, had))
  else pure none

/-- src/de/mod.rs:1131-1150 `next_key_seed`. -/
def nextKey {α : Type} (term : Char) (had : Bool) (seed : P α) : P (Option α) := do
  if ← hasElement term had then
    let a ← deGuardR seed
    pure (some a)
  else pure none

/-- src/de/mod.rs:1152-1177 `next_value_seed`. -/
def nextValue {α : Type} (seed : P α) : P (α × Bool) := do
  skipWs
  if ← consumeChar ':' then
    skipWs
    let a ← deGuardQ seed
    let had ← comma
    pure (a, had)
  else fail .expectedMapColon

/-- A visitor that collects all elements (`Vec<T>`; src/de/value.rs:214-227). -/
def seqLoop {α : Type} (term : Char) (seed : P α) : Nat → Bool → P (List α)
  | 0, _ => fail .fuel
  | f + 1, had => do
    match ← nextElement term had seed with
    | none => pure []
    | some (a, had) =>
      let as ← seqLoop term seed f had
      pure (a :: as)

/-- A visitor that collects all entries (`BTreeMap<K, V>`; src/de/value.rs:229-241). -/
def mapLoop {κ ν : Type} (term : Char) (key : P κ) (value : P ν) : Nat → Bool → P (List (κ × ν))
  | 0, _ => fail .fuel
  | f + 1, had => do
    match ← nextKey term had key with
    | none => pure []
    | some k =>
      let (v, had) ← nextValue value
      let es ← mapLoop term key value f had
      pure ((k, v) :: es)

/-- `seqLoop` with enough fuel for the remaining input. -/
def readSeq {α : Type} (term : Char) (seed : P α) : P (List α) := do
  let s ← getSt
  seqLoop term seed (s.rest.length + 2) true

/-- `mapLoop` with enough fuel for the remaining input. -/
def readMap {κ ν : Type} (term : Char) (key : P κ) (value : P ν) : P (List (κ × ν)) := do
  let s ← getSt
  mapLoop term key value (s.rest.length + 1) true

/-! ### Compound values -/

/-- src/de/mod.rs:668-688 `deserialize_seq` with the visitor's `visit_seq`. -/
def deSeq {α : Type} (visit : P α) : P α := do
  setNv false
  if ← consumeChar '[' then
    let v ← deGuardQ visit
    skipWs
    if ← consumeChar ']' then pure v else fail .expectedArrayEnd
  else fail .expectedArray

/-- src/de/mod.rs:690-711 `deserialize_tuple`. -/
def deTuple {α : Type} (visit : P α) : P α := do
  let s ← getSt
  let opened ← (if s.nv then pure true else consumeChar '(' : P Bool)
  if opened then
    setNv false
    let v ← deGuardQ visit
    skipWs
    let closed ← (if s.nv then pure true else consumeChar ')' : P Bool)
    if closed then pure v else fail .expectedStructLikeEnd
  else fail .expectedStructLike

/-- src/de/mod.rs:732-770 `deserialize_map` (terminator `Map`). -/
def deMap {α : Type} (visit : P α) : P α := do
  setNv false
  if ← consumeChar '{' then
    let v ← deGuardQ visit
    skipWs
    if ← consumeChar '}' then pure v else fail .expectedMapEnd
  else fail .expectedMap

/-- src/de/mod.rs:1273-1294 `struct_error_name`. -/
def structErrorName (name : Option Text) : Err → Err
  | .noSuchStructField e f none => .noSuchStructField e f name
  | .missingStructField f none => .missingStructField f name
  | .duplicateStructField f none => .duplicateStructField f name
  | e => e

/-- src/de/mod.rs:268-307 `handle_struct_after_name`. -/
def structAfterName {α : Type} (name : Text) (visit : P α) : P α := do
  let s ← getSt
  let opened ← (if s.nv then pure true else consumeChar '(' : P Bool)
  if opened then
    setNv false
    let v ← deGuardQ (mapErr (structErrorName (if !s.nv && !name.isEmpty then some name else none)) visit)
    skipWs
    let closed ← (if s.nv then pure true else consumeChar ')' : P Bool)
    if closed then pure v else fail .expectedStructLikeEnd
  else if name.isEmpty then fail .expectedStructLike
  else fail (.expectedNamedStructLike name)

/-- src/de/mod.rs:589-600 `deserialize_unit`. -/
def deUnit : P Unit := do
  let s ← getSt
  let opened ← (if s.nv then pure true else consumeStr c!"()" : P Bool)
  if opened then setNv false else fail .expectedUnit

section
variable [Env]

/-- src/de/mod.rs:902-911 `deserialize_identifier`. -/
def deIdentifier : P Text := do
  let id ← identifier
  modSt fun s => { s with lastIdent := some id }
  pure id

/-- src/de/mod.rs:553-586 `deserialize_option`; `visit` is `visit_some`. -/
def deOption {α : Type} (visitNone : α) (visit : P α) : P α := do
  if ← consumeIdent c!"None" then pure visitNone
  else
    let some_ ← consumeIdent c!"Some"
    let opened ← (if some_ then do skipWs; consumeChar '(' else pure false : P Bool)
    if opened then
      skipWs
      modSt fun s => { s with nv := s.exts.unwrapVariantNewtypes }
      let v ← deGuardQ visit
      setNv false
      let _ ← comma
      if ← consumeChar ')' then pure v else fail .expectedOptionEnd
    else
      let s ← getSt
      if s.exts.implicitSome then deGuardR visit else fail .expectedOption

/-! ### Self-describing data -/

/-- src/de/mod.rs:236-259 `handle_float_range_or_value`; the result is what a `Value` visitor makes of the number or of
the entries of the range. -/
def floatRangeOrValue (n : Number) : P Value := do
  if ← consumeStr c!"..=" then
    let e ← anyNumber
    pure (.map (mapOfList [(.str c!"start", .num n), (.str c!"end", .num e)]))
  else if ← consumeStr c!".." then
    let s ← getSt
    if !(match s.rest with | [] => false | c :: _ => isNumberStart s.rest c) then
      pure (.map (mapOfList [(.str c!"start", .num n)]))
    else
      let e ← anyNumber
      pure (.map (mapOfList [(.str c!"start", .num n), (.str c!"end", .num e)]))
  else pure (.num n)

/-- The `visit_seq` of a `Value` (src/de/value.rs:214-227). -/
def visitSeq (term : Char) (any : P Value) : P Value := do
  let vs ← readSeq term any
  pure (.seq vs)

/-- The `visit_map` of a `Value` (src/de/value.rs:229-241). -/
def visitMap (term : Char) (key any : P Value) : P Value := do
  let es ← readMap term key any
  pure (.map (mapOfList es))

/-- A key of a named struct read as a `Value` (src/de/id.rs:16-52). -/
def deIdentValue : P Value := do
  let id ← deIdentifier
  pure (.str id)

/-- src/de/mod.rs:174-234 `handle_any_struct` for a visitor that is not serde's `Content`. -/
def anyStruct (any : P Value) : P Value := do
  match ← checkStructType .noParensMeanUnit .imprecise with
  | .unit => pure .unit
  | .named => structAfterName [] (visitMap ')' deIdentValue any)
  | _ => deTuple (visitSeq ')' any)

/-- src/de/mod.rs:378-411: `deserialize_any` on the next character (the test after `..` looks at the text before the
dots are consumed, as the code does). -/
def anyChar (any : P Value) : P Value := do
  let c ← peekCharOrEof
  let s ← getSt
  if c == '(' then anyStruct any
  else if c == '[' then deSeq (visitSeq ']' any)
  else if c == '{' then deMap (visitMap '}' any any)
  else if isDigit c || c == '+' || c == '-' || c == '.' || c == 'b' then
    if c == 'b' && !startsWith s.rest c!"b'" then
      let b ← byteString
      pure (.bytes b)
    else if ← consumeStr c!"..=" then
      let e ← anyNumber
      pure (.map (mapOfList [(.str c!"end", .num e)]))
    else if ← consumeStr c!".." then
      if (match s.rest.drop 2 with | [] => false | c :: _ => isNumberStart s.rest c) then
        let e ← anyNumber
        pure (.map (mapOfList [(.str c!"end", .num e)]))
      else pure .unit
    else
      let n ← anyNumber
      floatRangeOrValue n
  else if c == '"' || c == 'r' then
    let t ← string
    pure (.str t)
  else if c == '\'' then
    let ch ← charLit
    pure (.char ch)
  else fail (.unexpectedChar c)

/-- src/de/mod.rs:347-411: `deserialize_any` outside of an unwrapped newtype variant. -/
def anyPlain (any : P Value) : P Value := do
  if ← consumeIdent c!"true" then pure (.bool true)
  else if ← consumeIdent c!"false" then pure (.bool false)
  else if ← checkIdent c!"Some" then deOption .none (do let v ← any; pure (.some v))
  else if ← consumeIdent c!"None" then pure .none
  else if ← consumeStr c!"()" then pure .unit
  else if ← consumeIdent c!"inf" then floatRangeOrValue (.f32 F32.inf)
  else if ← consumeIdent c!"inff32" then floatRangeOrValue (.f32 F32.inf)
  else if ← consumeIdent c!"inff64" then floatRangeOrValue (.f64 F64.inf)
  else if ← consumeIdent c!"NaN" then floatRangeOrValue (.f32 F32.nan)
  else if ← consumeIdent c!"NaNf32" then floatRangeOrValue (.f32 F32.nan)
  else if ← consumeIdent c!"NaNf64" then floatRangeOrValue (.f64 F64.nan)
  else
    match ← skipIdentifier with
    | some _ =>
      skipWs
      anyStruct any
    | none => anyChar any

/-- src/de/mod.rs:313-412 `deserialize_any` with `any` for the nested calls. -/
def anyBody (any : P Value) : P Value := do
  let s ← getSt
  if s.nv then
    if ← checkChar ')' then
      deUnit
      pure .unit
    else
      match ← checkStructType .insideNewtype .differentiate with
      | .named => structAfterName [] (visitMap ')' deIdentValue any)
      | .emptyTuple => deTuple (visitSeq ')' any)
      | .nonNewtypeTuple => deTuple (visitSeq ')' any)
      | _ =>
        setNv false
        anyPlain any
  else anyPlain any

/-- src/de/mod.rs:313-412 `deserialize_any` for `Value` (src/de/value.rs:20-27).  `IgnoredAny` reads in the same way and
forgets the result. -/
def deAny : Nat → P Value
  | 0 => fail .fuel
  | f + 1 => anyBody (deAny f)

/-- `Value::deserialize` with enough fuel for the remaining input. -/
def deValue : P Value := do
  let s ← getSt
  deAny (2 * s.rest.length + 2)

/-- `IgnoredAny::deserialize` (src/de/mod.rs:913-918). -/
def deIgnored : P Unit := do
  let _ ← deValue
  pure ()

end

/-! ### Typed data

The serde data model as a universe of types.  `deTy T` is the deserializer driven by the visitor of a type like `T`
with derived implementations.  `ref i` refers to the `i`-th of a family of type definitions, so that types may be
recursive. -/

mutual
/-- Types. -/
inductive Ty
  | bool
  | int (t : IntTy)
  | f32
  | f64
  | char
  | str
  | bytes
  | unit
  | unitStruct (name : Text)
  | newtype (name : Text) (t : Ty)
  | option (t : Ty)
  | seq (t : Ty)
  | tuple (ts : List Ty)
  | tupleStruct (name : Text) (ts : List Ty)
  | map (k v : Ty)
  | struct (name : Text) (deny : Bool) (fields : List (Text × Ty))
  | enum (name : Text) (variants : List (Text × Variant))
  | value
  | raw
  | ref (i : Nat)
/-- Kinds of enum variants. -/
inductive Variant
  | unit
  | newtype (t : Ty)
  | tuple (ts : List Ty)
  | struct (deny : Bool) (fields : List (Text × Ty))
end

/-- The `visit_seq` of derived tuples: one element after the other (serde_derive; `invalid_length` gives
`ExpectedDifferentLength`, src/error.rs). -/
def tupleLoop (expected : Text) : List (P SVal) → Nat → Bool → P (List SVal)
  | [], _, _ => pure []
  | seed :: seeds, i, had => do
    match ← nextElement ')' had seed with
    | none => fail (.expectedDifferentLength expected i)
    | some (v, had) =>
      let vs ← tupleLoop expected seeds (i + 1) had
      pure (v :: vs)

/-- What a derived struct visitor does about a field that did not occur (serde's `missing_field`). -/
def fieldOf (D : Nat → Ty) : Nat → Ty → Bool
  | 0, _ => false
  | f + 1, t => match t with
    | .option _ => true
    | .ref i => fieldOf D f (D i)
    | _ => false

/-- The value of a field that did not occur: `None` for options, else an error. -/
def collectFields (isOption : Ty → Bool) (got : Text → Option SVal) : List (Text × Ty) → Except Err (List (Text × SVal))
  | [] => .ok []
  | (f, t) :: fs =>
    match got f with
    | some v => (collectFields isOption got fs).map ((f, v) :: ·)
    | none =>
      if isOption t then (collectFields isOption got fs).map ((f, SVal.none) :: ·)
      else .error (.missingStructField f none)

/-- Result as parser action. -/
def liftE {α : Type} : Except Err α → P α
  | .ok a => pure a
  | .error e => fail e

section
variable [Env]

/-- The field identifier visitor of a derived struct: `none` is an ignored field. -/
def fieldKey (deny : Bool) (fields : List Text) : P (Option Text) := do
  let id ← deIdentifier
  if fields.contains id then pure (some id)
  else if deny then fail (.noSuchStructField fields id none)
  else pure none

/-- The `visit_map` of a derived struct: fields in any order, each at most once. -/
def structLoop (rec : Ty → P SVal) (ignore : P Unit) (deny : Bool) (fields : List (Text × Ty)) :
    Nat → Bool → (Text → Option SVal) → P (Text → Option SVal)
  | 0, _, _ => fail .fuel
  | f + 1, had, got => do
    match ← nextKey ')' had (fieldKey deny (fields.map Prod.fst)) with
    | none => pure got
    | some none =>
      let (_, had) ← nextValue ignore
      structLoop rec ignore deny fields f had got
    | some (some key) =>
      if (got key).isSome then fail (.duplicateStructField key none)
      else
        match fields.find? (fun e => e.1 = key) with
        | none => fail .fuel
        | some (_, t) =>
          let (v, had) ← nextValue (rec t)
          structLoop rec ignore deny fields f had (fun k => if k = key then some v else got k)

/-- The `visit_map` of a derived struct. -/
def visitStruct (rec : Ty → P SVal) (isOption : Ty → Bool) (deny : Bool) (fields : List (Text × Ty)) :
    P (List (Text × SVal)) := do
  let s ← getSt
  let got ← structLoop rec deIgnored deny fields (s.rest.length + 1) true (fun _ => none)
  liftE (collectFields isOption got fields)

/-! #### Ranges -/

/-- A number given to the visitor of a type (`NumberDeserializer`, src/value/number.rs:536-575, forwards everything to
`Number::visit`; serde's visitors of primitive types convert integers that fit, and integers of up to 64 bits to floats with
`as`). -/
def numTo (D : Nat → Ty) : Nat → Ty → Number → Except Err SVal
  | 0, _, _ => .error .fuel
  | f + 1, t, n =>
    match t, n with
    | .int t, .int t' v =>
      if t.InRange v ∧ (t'.bits = 128 → t.bits = 128) then .ok (.num (.int t v))
      else .error (.invalidValueForType [] [])
    | .f32, .int t v => if t.bits = 128 then .error (.invalidValueForType [] []) else .ok (.num (.f32 (Env.intF32 v)))
    | .f64, .int t v => if t.bits = 128 then .error (.invalidValueForType [] []) else .ok (.num (.f64 (Env.intF64 v)))
    | .f32, .f32 b => .ok (.num (.f32 b))
    | .f32, .f64 b => .ok (.num (.f32 (Env.narrow b)))
    | .f64, .f32 b => .ok (.num (.f64 (Env.widen b)))
    | .f64, .f64 b => .ok (.num (.f64 b))
    | .value, n => .ok (.num n)
    | .ref i, n => numTo D f (D i) n
    | _, _ => .error (.invalidValueForType [] [])

/-- A derived (or serde's own) range visitor on the entries of `RangeMapAccess`, `RangeFromMapAccess` or
`RangeToMapAccess` (src/de/mod.rs:973-1107). -/
def visitRange (conv : Ty → Number → Except Err SVal) (isOption : Ty → Bool) (fields : List (Text × Ty))
    (entries : List (Text × Number)) : Except Err (List (Text × SVal)) := do
  let rec go : List (Text × Number) → (Text → Option SVal) → Except Err (Text → Option SVal)
    | [], got => .ok got
    | (key, n) :: es, got =>
      match fields.find? (fun e => e.1 = key) with
      | none => .error (.noSuchStructField (fields.map Prod.fst) key none)
      | some (_, t) => do
        let v ← conv t n
        go es (fun k => if k = key then some v else got k)
  let got ← go entries (fun _ => none)
  collectFields isOption got fields

/-- src/de/mod.rs:781-865: the compact range syntax; `none` if the text is not in this syntax (or the struct is not a
range). -/
def rangeStruct (name : Text) (fields : List Text) : P (Option (List (Text × Number))) := do
  let s ← getSt
  if (name = c!"Range" ∧ fields = [c!"start", c!"end"]) ∨
      (name = c!"RangeInclusive" ∧ (fields = [c!"start", c!"end"] ∨ fields = [c!"start", c!"last"])) then
    if (match s.rest with | [] => false | c :: _ => isNumberStart s.rest c) then
      let a ← anyNumber
      let incl ← (do
        if ← consumeStr c!"..=" then pure true
        else if ← consumeStr c!".." then pure false
        else fail .expectedRangeSyntax : P Bool)
      if incl && name == c!"Range" then fail (.message c!"expected `..` for `Range`, found `..=`")
      else if !incl && name == c!"RangeInclusive" then
        fail (.message c!"expected `..=` for `RangeInclusive`, found `..`")
      else
        let e ← anyNumber
        pure (some [(c!"start", a), (fields.getLastD [], e)])
    else pure none
  else if fields = [c!"start"] ∧ name = c!"RangeFrom" then
    let special ← (do
      if ← checkIdent c!"inf" then pure true
      else if ← checkIdent c!"inff32" then pure true
      else if ← checkIdent c!"inff64" then pure true
      else if ← checkIdent c!"NaN" then pure true
      else if ← checkIdent c!"NaNf32" then pure true
      else checkIdent c!"NaNf64" : P Bool)
    if (match s.rest with | [] => false | c :: _ => isNumberStart s.rest c) || special then
      let a ← anyNumber
      if ← consumeStr c!"..=" then fail (.message c!"expected `..` for `RangeFrom`, found `..=`")
      else if !(← consumeStr c!"..") then fail .expectedRangeSyntax
      else pure (some [(c!"start", a)])
    else pure none
  else if fields = [c!"end"] ∧ name = c!"RangeTo" ∧ startsWith s.rest c!".." then
    if ← consumeStr c!"..=" then fail (.message c!"expected `..` for `RangeTo`, found `..=`")
    else
      let _ ← consumeStr c!".."
      let e ← anyNumber
      pure (some [(c!"end", e)])
  else if (fields = [c!"end"] ∨ fields = [c!"last"]) ∧ name = c!"RangeToInclusive" ∧ startsWith s.rest c!".." then
    if !(← consumeStr c!"..=") then
      let _ ← consumeStr c!".."
      fail (.message c!"expected `..=` for `RangeToInclusive`, found `..`")
    else
      let e ← anyNumber
      pure (some [(fields.headD [], e)])
  else pure none

/-- src/de/mod.rs:772-874 `deserialize_struct` with a derived visitor. -/
def deStruct (rec : Ty → P SVal) (isOption : Ty → Bool) (conv : Ty → Number → Except Err SVal) (name : Text)
    (deny : Bool) (fields : List (Text × Ty)) : P SVal := do
  match ← rangeStruct name (fields.map Prod.fst) with
  | some es =>
    let fs ← liftE (visitRange conv isOption fields es)
    pure (.struct name fs)
  | none =>
    let s ← getSt
    if !s.nv then
      let _ ← consumeStructName name
    skipWs
    let fs ← structAfterName name (visitStruct rec isOption deny fields)
    pure (.struct name fs)

/-- src/de/mod.rs:602-617 `deserialize_unit_struct`. -/
def deUnitStruct (name : Text) : P Unit := do
  if ← (if name = c!"RangeFull" then consumeStr c!".." else pure false : P Bool) then pure ()
  else
    let s ← getSt
    if ← (if s.nv then pure true else consumeStructName name : P Bool) then setNv false
    else deUnit

/-- src/de/mod.rs:641-665 `deserialize_newtype_struct` (not of a raw value). -/
def deNewtype {α : Type} (name : Text) (visit : P α) : P α := do
  let s ← getSt
  if s.exts.unwrapNewtypes || s.nv then
    setNv false
    deGuardR visit
  else
    let _ ← consumeStructName name
    skipWs
    if ← consumeChar '(' then
      skipWs
      let v ← deGuardQ visit
      let _ ← comma
      if ← consumeChar ')' then pure v else fail .expectedStructLikeEnd
    else if name.isEmpty then fail .expectedStructLike
    else fail (.expectedNamedStructLike name)

/-- src/de/mod.rs:623-639 and src/value/raw.rs:193-258: reading a `RawValue`. -/
def deRaw : P Text := do
  let s0 ← getSt
  skipWs
  deIgnored
  skipWs
  if ← hasUnclosedLineComment then fail .unclosedLineComment
  else
    let s ← getSt
    let ron := s0.preWs.take (s0.preWs.length - s.rest.length)
    match fromStr {} deIgnored ron with
    | .ok _ => pure ron
    | .error _ => fail .expectedRawValue

/-- src/de/mod.rs:713-730 `deserialize_tuple_struct`. -/
def deTupleStruct {α : Type} (name : Text) (visit : P α) : P α := do
  let s ← getSt
  if !s.nv then
    let _ ← consumeStructName name
  mapErr (fun e => if e = .expectedStructLike ∧ !name.isEmpty then .expectedNamedStructLike name else e) (deTuple visit)

/-- src/de/mod.rs:1213-1248 `newtype_variant_seed`. -/
def newtypeVariant {α : Type} (seed : P α) : P α := do
  let s0 ← getSt
  skipWs
  if ← consumeChar '(' then
    skipWs
    modSt fun s => { s with nv := s.exts.unwrapVariantNewtypes }
    let v ← deGuardQ (mapErr (structErrorName s0.lastIdent) seed)
    setNv false
    let _ ← comma
    if ← consumeChar ')' then pure v else fail .expectedStructLikeEnd
  else fail .expectedStructLike

/-- The variant data (src/de/mod.rs:1206-1271) with derived visitors. -/
def variantData (rec : Ty → P SVal) (isOption : Ty → Bool) (name variant : Text) : Variant → P SVal
  | .unit => pure (.unitVariant name variant)
  | .newtype t => do
    let v ← newtypeVariant (rec t)
    pure (.newtypeVariant name variant v)
  | .tuple ts => do
    skipWs
    let vs ← deTuple (tupleLoop c!"tuple variant" (ts.map rec) 0 true)
    pure (.tupleVariant name variant vs)
  | .struct deny fields => do
    let s0 ← getSt
    skipWs
    let fs ← mapErr (structErrorName s0.lastIdent) (structAfterName [] (visitStruct rec isOption deny fields))
    pure (.structVariant name variant fs)

/-- The `visit_enum` of a derived enum: src/de/mod.rs:1190-1204 `variant_seed`, then the data. -/
def visitEnum (rec : Ty → P SVal) (isOption : Ty → Bool) (name : Text) (variants : List (Text × Variant)) : P SVal := do
  skipWs
  let (id, k) ← deGuardQ (do
    let id ← deIdentifier
    match variants.find? (fun e => e.1 = id) with
    | some (_, k) => pure (id, k)
    | none => fail (.noSuchEnumVariant (variants.map Prod.fst) id none))
  variantData rec isOption name id k

/-- src/de/mod.rs:876-900 `deserialize_enum`. -/
def deEnum {α : Type} (name : Text) (visit : P α) : P α := do
  setNv false
  mapErr (fun e => match e with
    | .noSuchEnumVariant ex fo none => if name.isEmpty then e else .noSuchEnumVariant ex fo (some name)
    | _ => e) (deGuardR visit)

/-- src/de/mod.rs:538-551 `deserialize_byte_buf`. -/
def deBytes : P (List UInt8) := do
  if ← checkChar '[' then
    deSeq (readSeq ']' (do let (_, v) ← integer (.one .u8); pure (UInt8.ofNat v.toNat)))
  else byteString

/-- src/de/mod.rs:421-488 `deserialize_i8` to `deserialize_u128`.  Without the feature `integer128` the last of them are those of
serde, which reject every input. -/
def deInt (t : IntTy) : P (IntTy × Int) :=
  if (t = .i128 ∨ t = .u128) ∧ Env.int128 = false then fail (.message (t.suffix ++ c!" is not supported")) else integer (.one t)

/-- The deserializer driven by the visitor of a type. -/
def deTy (D : Nat → Ty) : Nat → Ty → P SVal
  | 0, _ => fail .fuel
  | f + 1, t =>
    match t with
    | .bool => do let b ← Ron.bool; pure (.bool b)
    | .int t => do let (t, v) ← deInt t; pure (.num (.int t v))
    | .f32 => do let n ← float .f32; pure (.num n)
    | .f64 => do let n ← float .f64; pure (.num n)
    | .char => do let c ← charLit; pure (.char c)
    | .str => do let t ← string; pure (.str t)
    | .bytes => do let b ← deBytes; pure (.bytes b)
    | .unit => do deUnit; pure .unit
    | .unitStruct name => do deUnitStruct name; pure (.unitStruct name)
    | .newtype name t => do let v ← deNewtype name (deTy D f t); pure (.newtypeStruct name v)
    | .option t => deOption .none (do let v ← deTy D f t; pure (.some v))
    | .seq t => do
      let vs ← deSeq (readSeq ']' (deTy D f t))
      pure (.seq (some vs.length) vs)
    | .tuple ts => do
      let vs ← deTuple (tupleLoop c!"tuple" (ts.map (deTy D f)) 0 true)
      pure (.tuple vs)
    | .tupleStruct name ts => do
      let vs ← deTupleStruct name (tupleLoop c!"tuple struct" (ts.map (deTy D f)) 0 true)
      pure (.tupleStruct name vs)
    | .map k v => do
      let es ← deMap (readMap '}' (deTy D f k) (deTy D f v))
      pure (.map (some es.length) es)
    | .struct name deny fields => deStruct (deTy D f) (fieldOf D f) (numTo D f) name deny fields
    | .enum name variants => deEnum name (visitEnum (deTy D f) (fieldOf D f) name variants)
    | .value => do let v ← deValue; pure v.toS
    | .raw => do let t ← deRaw; pure (.raw t)
    | .ref i => deTy D f (D i)

end

end Ron
