import Verif.Model.Tagged
/-!
# Model of adjacently tagged enums (`#[serde(tag = "…", content = "…")]`)

Such an enum is written with `serialize_struct` and read with `deserialize_struct` (src/de/mod.rs:772-874); the tag is a unit variant.  If the
tag comes first, the content is read as the type of the variant, else it is buffered as `Content`.  What serde and serde_derive do
(`deserialize_adjacently_tagged_enum`, `AdjacentlyTaggedEnumVariantSeed`, `TagContentOtherFieldVisitor`) is external code, written down
here.  Simplified: without `deny_unknown_fields`, and the enum is not called like a range of std.
-/

namespace Ron

/-! ### Writing -/

/-- The data that serde_derive (external) has the serializer write for a value of an adjacently tagged enum.  The value itself is given as
that of an externally tagged enum. -/
def adjSer (tag content : Text) : SVal → Option SVal
  | .unitVariant name id => some (.struct name [(tag, .unitVariant name id)])
  | .newtypeVariant name id v => some (.struct name [(tag, .unitVariant name id), (content, v)])
  | .tupleVariant name id vs => some (.struct name [(tag, .unitVariant name id), (content, .tuple vs)])
  | .structVariant name id fs => some (.struct name [(tag, .unitVariant name id), (content, .struct id fs)])
  | _ => none

/-! ### Reading -/

/-- serde's `TagContentOtherField` (external). -/
inductive AdjKey
  | tag
  | content
  | other
deriving DecidableEq

/-- What has been read so far. -/
inductive AdjSt
  | start
  | tag (id : Text) (k : Variant)
  | content (c : Content)
  | done (v : SVal)

section
variable [Env]

/-- serde's `TagContentOtherFieldVisitor` (external) on src/de/id.rs:16-27. -/
def adjKey (tag content : Text) : P AdjKey := do
  let id ← deIdentifier
  if id = tag then pure .tag else if id = content then pure .content else pure .other

/-- serde_derive's `__Field` visitor (external) on src/de/id.rs:16-27: the name of a variant. -/
def adjId (variants : List (Text × Variant)) : P (Text × Variant) := do
  let id ← deIdentifier
  match variants.find? (fun e => e.1 = id) with
  | some (_, k) => pure (id, k)
  | none => fail (.noSuchEnumVariant (variants.map Prod.fst) id none)

/-- serde's `AdjacentlyTaggedEnumVariantSeed` (external): `deserialize_enum`, then `unit_variant` (src/de/mod.rs:876-900, 1190-1211). -/
def adjTag (name : Text) (variants : List (Text × Variant)) : P (Text × Variant) :=
  deEnum name (do
    skipWs
    deGuardQ (adjId variants))

/-- src/de/mod.rs:174-234 `handle_any_struct` for the visitor of a struct variant without name, which only takes maps. -/
def fieldsStruct {α : Type} (visit : P α) : P α := do
  match ← checkStructType .noParensMeanUnit .imprecise with
  | .unit => fail (.invalidValueForType [] [])
  | .named => structAfterName [] visit
  | _ => deTuple (fail (.invalidValueForType [] []))

/-- src/de/mod.rs:378-411 for that visitor.  Its description starts with "struct ", so that keys of maps are strings (743-752). -/
def fieldsChar {α : Type} (visit visitStr : P α) : P α := do
  let c ← peekCharOrEof
  if c == '(' then fieldsStruct visit
  else if c == '[' then deSeq (fail (.invalidValueForType [] []))
  else if c == '{' then deMap visitStr
  else
    let _ ← contentChar (fun _ => fail .fuel) false
    fail (.invalidValueForType [] [])

/-- src/de/mod.rs:347-411: `deserialize_any` for the visitor of a struct variant without name; not inside a newtype variant, since
src/de/mod.rs:278 took that back.  Simplified: ranges are errors. -/
def fieldsAny {α : Type} (visit visitStr : P α) : P α := do
  if ← consumeWord [c!"true", c!"false"] then fail (.invalidValueForType [] [])
  else if ← checkIdent c!"Some" then fail (.invalidValueForType [] [])
  else if ← consumeWord [c!"None"] then fail (.invalidValueForType [] [])
  else if ← consumeStr c!"()" then fail (.invalidValueForType [] [])
  else if ← consumeWord [c!"inf", c!"inff32", c!"inff64", c!"NaN", c!"NaNf32", c!"NaNf64"] then fail (.invalidValueForType [] [])
  else
    match ← skipIdentifier with
    | some _ =>
      skipWs
      fieldsStruct visit
    | none => fieldsChar visit visitStr

/-- The `visit_map` of a derived struct (external) whose keys are strings: is the key known, and the first of its kind? -/
def strCheck (deny : Bool) (fields : List (Text × Ty)) (got : Text → Option SVal) (k : Text) : Except Err Unit :=
  if (fields.map Prod.fst).contains k then
    if (got k).isSome then .error (.duplicateStructField k none) else .ok ()
  else if deny then .error (.noSuchStructField (fields.map Prod.fst) k none) else .ok ()

/-- That `visit_map`: the values. -/
def strVal (rec : Ty → P SVal) (fields : List (Text × Ty)) (got : Text → Option SVal) (k : Text) : P (Text → Option SVal) :=
  match fields.find? (fun e => e.1 = k) with
  | some (_, t) => do
    let v ← rec t
    pure (fun j => if j = k then some v else got j)
  | none => do
    deIgnored
    pure got

/-- That `visit_map`.  Simplified: the error about an unknown key is raised after the layout behind the key. -/
def visitStructStr (rec : Ty → P SVal) (isOption : Ty → Bool) (deny : Bool) (fields : List (Text × Ty)) : P (List (Text × SVal)) := do
  let got ← foldMap '}' string (strCheck deny fields) (strVal rec fields) (fun _ => none)
  liftE (collectFields isOption got fields)

/-- The content after the tag (serde_derive, `deserialize_untagged_variant` on the deserializer itself).  The result is the value as that of
an externally tagged enum. -/
def adjTyped (D : Nat → Ty) (f : Nat) (name id : Text) : Variant → P SVal
  | .unit => do
    match ← deValue with
    | .unit => pure (.unitVariant name id)
    | .none => pure (.unitVariant name id)
    | _ => fail (.invalidValueForType [] [])
  | .newtype t => do
    let v ← deTy D f t
    pure (.newtypeVariant name id v)
  | .tuple ts => do
    let vs ← deTuple (tupleLoop c!"tuple variant" (ts.map (deTy D f)) 0 true)
    pure (.tupleVariant name id vs)
  | .struct deny fields => do
    let fs ← fieldsAny (visitStruct (deTy D f) (fieldOf D f) deny fields) (visitStructStr (deTy D f) (fieldOf D f) deny fields)
    pure (.structVariant name id fs)

/-- The content before the tag (serde_derive, `deserialize_untagged_variant` on `ContentDeserializer`). -/
def adjBuffered (D : Nat → Ty) (f : Nat) (name id : Text) : Variant → Content → Except Err SVal
  | .unit, .unit => .ok (.unitVariant name id)
  | .unit, .none => .ok (.unitVariant name id)
  | .newtype t, c => (c.into true D f t).map (SVal.newtypeVariant name id)
  | .tuple ts, .seq cs => (contentTuple (ts.map (Content.into true D f)) cs).map (SVal.tupleVariant name id)
  | .struct deny fields, .map es =>
    (contentStructOf (fieldOf D f) (Content.into true D f) deny fields es).map (SVal.structVariant name id)
  | _, _ => badContent

/-- No content (serde_derive): unit variants, and newtype variants of options. -/
def adjEmpty (D : Nat → Ty) (f : Nat) (name content id : Text) : Variant → Except Err SVal
  | .unit => .ok (.unitVariant name id)
  | .newtype t => if fieldOf D f t then .ok (.newtypeVariant name id .none) else .error (.missingStructField content none)
  | _ => .error (.missingStructField content none)

/-- `visit_map` (serde_derive): tag and content may occur once. -/
def adjCheck (tag content : Text) (st : AdjSt) (k : AdjKey) : Except Err Unit :=
  match k, st with
  | .tag, .tag _ _ => .error (.duplicateStructField tag none)
  | .tag, .done _ => .error (.duplicateStructField tag none)
  | .content, .content _ => .error (.duplicateStructField content none)
  | .content, .done _ => .error (.duplicateStructField content none)
  | _, _ => .ok ()

/-- `visit_map` (serde_derive): the values.  Simplified: buffered content is converted before the comma after the tag is read. -/
def adjVal (D : Nat → Ty) (f : Nat) (name : Text) (variants : List (Text × Variant)) (st : AdjSt) (k : AdjKey) : P AdjSt :=
  match k, st with
  | .tag, .content c => do
    let (id, k) ← adjTag name variants
    let v ← liftE (adjBuffered D f name id k c)
    pure (.done v)
  | .tag, _ => do
    let (id, k) ← adjTag name variants
    pure (.tag id k)
  | .content, .tag id k => do
    let v ← adjTyped D f name id k
    pure (.done v)
  | .content, _ => do
    let c ← deContent
    pure (.content c)
  | .other, st => do
    deIgnored
    pure st

/-- After the last entry. -/
def adjEnd (D : Nat → Ty) (f : Nat) (name tag content : Text) : AdjSt → Except Err SVal
  | .done v => .ok v
  | .tag id k => adjEmpty D f name content id k
  | _ => .error (.missingStructField tag none)

/-- `visit_map` (serde_derive). -/
def adjVisit (D : Nat → Ty) (f : Nat) (tag content name : Text) (variants : List (Text × Variant)) : P SVal := do
  let st ← foldMap ')' (adjKey tag content) (adjCheck tag content) (adjVal D f name variants) .start
  liftE (adjEnd D f name tag content st)

/-- An adjacently tagged enum: src/de/mod.rs:867-873 of `deserialize_struct`. -/
def deAdjacent (D : Nat → Ty) (f : Nat) (tag content name : Text) (variants : List (Text × Variant)) : P SVal := do
  let s ← getSt
  if !s.nv then
    let _ ← consumeStructName name
  skipWs
  structAfterName name (adjVisit D f tag content name variants)

end

end Ron
