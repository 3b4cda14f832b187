import Verif.Model.ContentDe
import Verif.Model.Ser
/-!
# Model of internally tagged enums (`#[serde(tag = "…")]`)

The reader of such an enum (serde, `TaggedContentVisitor`) takes the tag out of a map or a sequence and buffers the rest as `Content`.  Once
the keys show that this is what happens (`is_serde_tag_or_content`, src/de/mod.rs:1388-1471), the value of the tag is read by
src/de/tag.rs, that is as a string.  What serde and serde_derive do around it is external code, written down here.
-/

namespace Ron

/-! ### Writing -/

/-- The data that serde's `TaggedSerializer` (external) has the serializer write for a newtype variant with the given data.  `none` is its
error "cannot serialize tagged newtype variant". -/
def taggedNewtype (tag id : Text) : SVal → Option SVal
  | .unit => some (.map (some 1) [(.str tag, .str id)])
  | .unitStruct _ => some (.map (some 1) [(.str tag, .str id)])
  | .newtypeStruct _ v => taggedNewtype tag id v
  | .unitVariant _ m => some (.map (some 2) [(.str tag, .str id), (.str m, .unit)])
  | .newtypeVariant _ m v => some (.map (some 2) [(.str tag, .str id), (.str m, v)])
  | .tupleVariant _ m vs => some (.map (some 2) [(.str tag, .str id), (.str m, .tupleStruct m vs)])
  | .structVariant _ m fs => some (.map (some 2) [(.str tag, .str id), (.str m, .struct m fs)])
  | .map n kvs => some (.map (n.map (· + 1)) ((.str tag, .str id) :: kvs))
  | .struct name fs => some (.struct name ((tag, .str id) :: fs))
  | _ => none

/-- The data that serde_derive (external) has the serializer write for a value of an internally tagged enum.  The value itself is given as
that of an externally tagged enum.  serde_derive refuses tuple variants. -/
def taggedSer (tag : Text) : SVal → Option SVal
  | .unitVariant name id => some (.struct name [(tag, .str id)])
  | .newtypeVariant _ id v => taggedNewtype tag id v
  | .structVariant name id fs => some (.struct name ((tag, .str id) :: fs))
  | _ => none

/-! ### Reading -/

/-- serde's `TagOrContent` (external). -/
inductive TagKey
  | tag
  | content (c : Content)

/-- serde's `TagOrContentVisitor` (external): it takes whatever `ContentVisitor` takes. -/
def tagKeyOf (tag : Text) : Content → TagKey
  | .str t => if t = tag then .tag else .content (.str t)
  | .bytes b => if b = utf8EncAll tag then .tag else .content (.bytes b)
  | c => .content c

section
variable [Env]

/-- The variant identifier of a derived enum, from a string. -/
def variantOf (variants : List Text) (t : Text) : Except Err Text :=
  if variants.contains t then .ok t else .error (.noSuchEnumVariant variants t none)

/-- src/de/tag.rs:19-24 and 34-46: the value of the tag is a string; here with the variant identifier of a derived enum. -/
def tagValue (variants : List Text) : P Text := do
  let t ← string
  liftE (variantOf variants t)

/-- The variant identifier of a derived enum from the deserializer itself: an identifier (src/de/mod.rs:903-909). -/
def tagIdent (variants : List Text) : P Text := do
  let t ← deIdentifier
  liftE (variantOf variants t)

/-- The loop of a `visit_map` (external) over the entries given by src/de/mod.rs:1128-1177: after each key a check that does not read on,
then the value, which gives the new state. -/
def foldLoop {κ σ : Type} (term : Char) (key : P κ) (check : σ → κ → Except Err Unit) (val : σ → κ → P σ) : Nat → Bool → σ → P σ
  | 0, _, _ => fail .fuel
  | f + 1, had, st => do
    match ← nextKey term had key with
    | none => pure st
    | some k =>
      liftE (check st k)
      let (st, had) ← nextValue (val st k)
      foldLoop term key check val f had st

/-- `foldLoop` with enough fuel for the remaining input. -/
def foldMap {κ σ : Type} (term : Char) (key : P κ) (check : σ → κ → Except Err Unit) (val : σ → κ → P σ) (st : σ) : P σ := do
  let s ← getSt
  foldLoop term key check val (s.rest.length + 1) true st

/-- `TaggedContentVisitor::visit_map` (serde): the tag may occur once. -/
def taggedCheck (tag : Text) (st : Option Text × List (Content × Content)) (k : Content) : Except Err Unit :=
  match tagKeyOf tag k with
  | .tag => if st.1.isSome then .error (.duplicateStructField tag none) else .ok ()
  | .content _ => .ok ()

/-- `TaggedContentVisitor::visit_map` (serde): the values.  That of the tag is read by src/de/tag.rs, all others as `Content`
(src/de/mod.rs:1161-1169). -/
def taggedVal (tag : Text) (variants : List Text) (any : P Content) (st : Option Text × List (Content × Content)) (k : Content) :
    P (Option Text × List (Content × Content)) :=
  match tagKeyOf tag k with
  | .tag => do
    let id ← tagValue variants
    pure (some id, st.2)
  | .content k => do
    let v ← any
    pure (st.1, st.2 ++ [(k, v)])

/-- `TaggedContentVisitor::visit_map` (serde). -/
def taggedMap (tag : Text) (variants : List Text) (term : Char) (key any : P Content) : P (Text × Content) := do
  let st ← foldMap term key (taggedCheck tag) (taggedVal tag variants any) (none, [])
  match st.1 with
  | some id => pure (id, .map st.2)
  | none => fail (.missingStructField tag none)

/-- `TaggedContentVisitor::visit_seq` (serde): the first element is the tag. -/
def taggedSeq (tag : Text) (variants : List Text) (term : Char) (any : P Content) : P (Text × Content) := do
  match ← nextElement term true (tagIdent variants) with
  | none => fail (.missingStructField tag none)
  | some (id, had) =>
    let s ← getSt
    let cs ← seqLoop term any (s.rest.length + 2) had
    pure (id, .seq cs)

/-- src/de/mod.rs:174-234 `handle_any_struct` for `TaggedContentVisitor`, whose value is neither `Content` nor `TagOrContent`: a name
is ignored. -/
def taggedStruct (tag : Text) (variants : List Text) (any : Bool → P Content) : P (Text × Content) := do
  match ← checkStructType .noParensMeanUnit .imprecise with
  | .unit => fail (.invalidValueForType [] [])
  | .named => structAfterName [] (taggedMap tag variants ')' contentIdent (any false))
  | _ => deTuple (taggedSeq tag variants ')' (any false))

/-- src/de/mod.rs:378-411 for `TaggedContentVisitor`.  Anything but a parenthesis, bracket or brace is an error; simplified: a range whose
tag is called `start` or `end` is an error as well. -/
def taggedChar (tag : Text) (variants : List Text) (any : Bool → P Content) : P (Text × Content) := do
  let c ← peekCharOrEof
  if c == '(' then taggedStruct tag variants any
  else if c == '[' then deSeq (taggedSeq tag variants ']' (any false))
  else if c == '{' then deMap (taggedMap tag variants '}' (any false) (any false))
  else
    let _ ← contentChar any false
    fail (.invalidValueForType [] [])

/-- One of the words. -/
def consumeWord : List Text → P Bool
  | [] => pure false
  | w :: ws => do
    if ← consumeIdent w then pure true else consumeWord ws

/-- src/de/mod.rs:347-411: `deserialize_any` outside of an unwrapped newtype variant, for `TaggedContentVisitor`. -/
def taggedPlain (tag : Text) (variants : List Text) (any : Bool → P Content) : P (Text × Content) := do
  if ← consumeWord [c!"true", c!"false"] then fail (.invalidValueForType [] [])
  else if ← checkIdent c!"Some" then fail (.invalidValueForType [] [])
  else if ← consumeWord [c!"None"] then fail (.invalidValueForType [] [])
  else if ← consumeStr c!"()" then fail (.invalidValueForType [] [])
  else if ← consumeWord [c!"inf", c!"inff32", c!"inff64", c!"NaN", c!"NaNf32", c!"NaNf64"] then fail (.invalidValueForType [] [])
  else
    match ← skipIdentifier with
    | some _ =>
      skipWs
      taggedStruct tag variants any
    | none => taggedChar tag variants any

/-- src/de/mod.rs:313-412 `deserialize_any` for `TaggedContentVisitor`. -/
def taggedBody (tag : Text) (variants : List Text) (any : Bool → P Content) : P (Text × Content) := do
  let s ← getSt
  if s.nv then
    if ← checkChar ')' then
      deUnit
      fail (.invalidValueForType [] [])
    else
      match ← checkStructType .insideNewtype .differentiate with
      | .named => structAfterName [] (taggedMap tag variants ')' contentIdent (any false))
      | .emptyTuple => deTuple (taggedSeq tag variants ')' (any false))
      | .nonNewtypeTuple => deTuple (taggedSeq tag variants ')' (any false))
      | _ =>
        setNv false
        taggedPlain tag variants any
  else taggedPlain tag variants any

/-- The tag and the buffered rest, with enough fuel for the remaining input. -/
def deTagged (tag : Text) (variants : List Text) : P (Text × Content) := do
  let s ← getSt
  taggedBody tag variants (contentAny (2 * s.rest.length + 2))

/-- One variant of an internally tagged enum from the buffered rest (serde_derive, `deserialize_internally_tagged_variant`).  The result is
the value as that of an externally tagged enum. -/
def taggedAs (D : Nat → Ty) (f : Nat) (name id : Text) : Variant → Content → Except Err SVal
  | .unit, .map _ => .ok (.unitVariant name id)
  | .unit, .seq [] => .ok (.unitVariant name id)
  | .newtype t, c => (c.into true D f t).map (SVal.newtypeVariant name id)
  | .struct deny fields, .map es =>
    (contentStructOf (fieldOf D f) (Content.into true D f) deny fields es).map (SVal.structVariant name id)
  | .struct _ fields, .seq cs =>
    (contentTuple (fields.map fun e => Content.into true D f e.2) cs).map fun vs => .structVariant name id ((fields.map Prod.fst).zip vs)
  | _, _ => badContent

/-- The variant that the tag names. -/
def taggedFrom (D : Nat → Ty) (f : Nat) (name : Text) (variants : List (Text × Variant)) (id : Text) (c : Content) : Except Err SVal :=
  match variants.find? (fun e => e.1 = id) with
  | none => .error .fuel
  | some (_, k) => taggedAs D f name id k c

/-- An internally tagged enum. -/
def deInternal (D : Nat → Ty) (f : Nat) (tag name : Text) (variants : List (Text × Variant)) : P SVal := do
  let r ← deTagged tag (variants.map Prod.fst)
  liftE (taggedFrom D f name variants r.1 r.2)

end

end Ron
