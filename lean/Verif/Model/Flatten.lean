import Verif.Model.Tagged
/-!
# Model of structs with flattened fields (`#[serde(flatten)]`)

Such a struct is written as a map with strings as keys, and read with `deserialize_map`.  The deserializer recognises the visitor of a
derived struct by its description, which starts with "struct " (src/de/mod.rs:743-752), and then reads keys with src/de/id.rs:16-52, that
is as strings.  What serde and serde_derive do around it (`FlatMapSerializer`, `FlatMapDeserializer`) is external code, written down here for
flattened structs and maps; simplified: without `deny_unknown_fields` on the outer struct, which serde does not support together with
flattening.
-/

namespace Ron

/-- A field of a struct: a plain one, a flattened derived struct or a flattened map. -/
inductive FlatTy
  | plain (t : Ty)
  | struct (name : Text) (fields : List (Text × Ty))
  | map (key val : Ty)

/-- The plain fields. -/
def flatPlain : List (Text × FlatTy) → List (Text × Ty)
  | [] => []
  | (k, .plain t) :: fields => (k, t) :: flatPlain fields
  | _ :: fields => flatPlain fields

/-! ### Writing -/

/-- The entries that a derived `Serialize` (external) gives to `serialize_map`: a plain field, the fields of a flattened struct, the entries
of a flattened map (serde, `FlatMapSerializer`). -/
def flatEntries : List (Text × FlatTy) → List (Text × SVal) → Option (List (SVal × SVal))
  | [], [] => some []
  | (k, .plain _) :: fields, (_, v) :: fs => (flatEntries fields fs).map ((.str k, v) :: ·)
  | (_, .struct _ _) :: fields, (_, .struct _ gs) :: fs => (flatEntries fields fs).map (gs.map (fun e => (.str e.1, e.2)) ++ ·)
  | (_, .map _ _) :: fields, (_, .map _ kvs) :: fs => (flatEntries fields fs).map (kvs ++ ·)
  | _, _ => none

/-- The data that a derived `Serialize` (external) has the serializer write for a struct with flattened fields: a map of unknown length. -/
def flatSer (fields : List (Text × FlatTy)) : SVal → Option SVal
  | .struct _ fs => (flatEntries fields fs).map (SVal.map none)
  | _ => none

/-! ### Reading -/

/-- Does a flattened struct with these fields take an entry with this key (serde, `flat_map_take_entry`)? -/
def flatTakes (fields : List (Text × Ty)) : Content → Bool
  | .str k => (fields.map Prod.fst).contains k
  | _ => false

section
variable [Env]

/-- The fields after the loop (serde_derive, serde `FlatMapDeserializer`).  The plain fields are given.  A flattened struct takes the
entries that are called like its fields (`FlatStructAccess`, `ContentDeserializer`), a flattened map reads all entries that are left and
leaves them there (`FlatMapAccess`, `ContentRefDeserializer`). -/
def flatWalk (D : Nat → Ty) (f : Nat) : List (Text × FlatTy) → List (Text × SVal) → List (Content × Content) → Except Err (List (Text × SVal))
  | [], _, _ => .ok []
  | (k, .plain _) :: fields, (_, v) :: ps, es => (flatWalk D f fields ps es).map ((k, v) :: ·)
  | (_, .plain _) :: _, [], _ => .error .fuel
  | (k, .struct name gs) :: fields, ps, es => do
    let vs ← contentStructOf (fieldOf D f) (Content.into true D f) false gs (es.filter fun e => flatTakes gs e.1)
    let r ← flatWalk D f fields ps (es.filter fun e => !flatTakes gs e.1)
    .ok ((k, .struct name vs) :: r)
  | (k, .map key val) :: fields, ps, es => do
    let kvs ← contentPairs (Content.into false D f key) (Content.into false D f val) es
    let r ← flatWalk D f fields ps es
    .ok ((k, .map (some kvs.length) kvs) :: r)

/-- What has been read so far: plain fields, and all other entries. -/
abbrev FlatSt := (Text → Option SVal) × List (Content × Content)

/-- The `visit_map` of a derived struct with flattened fields: a plain field may occur once. -/
def flatCheck (plain : List (Text × Ty)) (st : FlatSt) (k : Text) : Except Err Unit :=
  if (plain.map Prod.fst).contains k then
    if (st.1 k).isSome then .error (.duplicateStructField k none) else .ok ()
  else .ok ()

/-- The `visit_map` of a derived struct with flattened fields: the value of a plain field is read as its type, any other as `Content`. -/
def flatVal (D : Nat → Ty) (f : Nat) (plain : List (Text × Ty)) (st : FlatSt) (k : Text) : P FlatSt :=
  match plain.find? (fun e => e.1 = k) with
  | some (_, t) => do
    let v ← deTy D f t
    pure ((fun j => if j = k then some v else st.1 j), st.2)
  | none => do
    let c ← deContent
    pure (st.1, st.2 ++ [(.str k, c)])

/-- The `visit_map` of a derived struct with flattened fields.  Keys are strings (src/de/mod.rs:1139-1141, src/de/id.rs:23-25). -/
def flatVisit (D : Nat → Ty) (f : Nat) (name : Text) (fields : List (Text × FlatTy)) : P SVal := do
  let st ← foldMap '}' string (flatCheck (flatPlain fields)) (flatVal D f (flatPlain fields)) (fun _ => none, [])
  let ps ← liftE (collectFields (fieldOf D f) st.1 (flatPlain fields))
  let fs ← liftE (flatWalk D f fields ps st.2)
  pure (.struct name fs)

/-- src/de/mod.rs:731-770: a struct with flattened fields. -/
def deFlat (D : Nat → Ty) (f : Nat) (name : Text) (fields : List (Text × FlatTy)) : P SVal := deMap (flatVisit D f name fields)

end

end Ron
