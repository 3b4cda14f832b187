import Verif.Model.Tagged
/-!
# Model of structs whose fields have serde attributes

`#[serde(default)]`, `default = "…"`, `alias`, `rename`, `skip_deserializing`, `skip_serializing`, `skip_serializing_if` and `skip`.  Such a struct is
written with `serialize_struct` (src/ser/mod.rs) and read with `deserialize_struct` (src/de/mod.rs:772-874); the visitor is the code that
serde_derive (external) generates, written down here.  Simplified: the struct is not called like a range of std, so that
src/de/mod.rs:781-865 does not apply; defaults and predicates do not panic.
-/

namespace Ron

/-- A field of a struct with its attributes (serde_derive, external). -/
structure AField where
  /-- The name of the field in the Rust code. -/
  id : Text
  /-- The name that is read (`rename`, `rename(deserialize = "…")`). -/
  name : Text
  /-- Other names that are read (`alias`). -/
  aliases : List Text
  /-- The name that is written (`rename`, `rename(serialize = "…")`). -/
  out : Text
  /-- The type. -/
  ty : Ty
  /-- The value if the field does not occur (`default`, of the field or the struct; serde_derive demands one for `skip_deserializing`). -/
  dflt : Option SVal
  /-- `skip_deserializing`: no name is read. -/
  skipDe : Bool
  /-- `skip_serializing_if`; always true for `skip_serializing`, always false without. -/
  skipIf : SVal → Bool

/-- The arms of serde_derive's `__FieldVisitor` (external) that give this field. -/
def AField.reads (F : AField) (key : Text) : Bool := !F.skipDe && (key == F.name || F.aliases.contains key)

/-! ### Writing -/

/-- The data that serde_derive (external) has the serializer write: fields with `skip_serializing_if` are left out (`skip_field` does nothing,
and the length given to `serialize_struct` leaves them out).  `vs` are the values of the fields in the order of the type. -/
def faFields : List AField → List SVal → List (Text × SVal)
  | F :: Fs, v :: vs => if F.skipIf v then faFields Fs vs else (F.out, v) :: faFields Fs vs
  | _, _ => []

/-- `Serialize::serialize` of the struct. -/
def faSer (name : Text) (fields : List AField) (vs : List SVal) : SVal := .struct name (faFields fields vs)

/-! ### Reading -/

section
variable [Env]

/-- serde_derive's `__FieldVisitor` (external) on src/de/id.rs:16-27; `none` is an ignored field.  `known` is the list `FIELDS` that the error
shows. -/
def faKey (deny : Bool) (known : List Text) (fields : List AField) : P (Option AField) := do
  let key ← deIdentifier
  match fields.find? (fun F => F.reads key) with
  | some F => pure (some F)
  | none => if deny then fail (.noSuchStructField known key none) else pure none

/-- `visit_map` (serde_derive): each field at most once, under whatever name. -/
def faCheck (got : Text → Option SVal) : Option AField → Except Err Unit
  | some F => if (got F.id).isSome then .error (.duplicateStructField F.name none) else .ok ()
  | none => .ok ()

/-- `visit_map` (serde_derive): the values. -/
def faVal (D : Nat → Ty) (f : Nat) (got : Text → Option SVal) : Option AField → P (Text → Option SVal)
  | some F => do
    let v ← deTy D f F.ty
    pure (fun k => if k = F.id then some v else got k)
  | none => do
    deIgnored
    pure got

/-- The value of a field after the last entry (serde_derive, and serde's `missing_field` for options). -/
def faValue (isOption : Ty → Bool) (got : Text → Option SVal) (F : AField) : Except Err SVal :=
  match got F.id with
  | some v => .ok v
  | none =>
    match F.dflt with
    | some v => .ok v
    | none => if isOption F.ty then .ok .none else .error (.missingStructField F.name none)

/-- After the last entry. -/
def faEnd (isOption : Ty → Bool) (got : Text → Option SVal) : List AField → Except Err (List SVal)
  | [] => .ok []
  | F :: Fs => do
    let v ← faValue isOption got F
    let vs ← faEnd isOption got Fs
    pure (v :: vs)

/-- `visit_map` (serde_derive). -/
def faVisit (D : Nat → Ty) (f : Nat) (deny : Bool) (known : List Text) (fields : List AField) : P (List SVal) := do
  let got ← foldMap ')' (faKey deny known fields) faCheck (faVal D f) (fun _ => none)
  liftE (faEnd (fieldOf D f) got fields)

/-- The struct: src/de/mod.rs:867-873 of `deserialize_struct`.  The result is the list of the values of the fields, in the order of the type. -/
def deFieldAttrs (D : Nat → Ty) (f : Nat) (name : Text) (deny : Bool) (known : List Text) (fields : List AField) : P (List SVal) := do
  let s ← getSt
  if !s.nv then
    let _ ← consumeStructName name
  skipWs
  structAfterName name (faVisit D f deny known fields)

end

end Ron
