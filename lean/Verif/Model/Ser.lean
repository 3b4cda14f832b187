import Verif.Model.Parser
/-!
# Model of the serializer (src/ser/mod.rs, src/ser/raw.rs, src/ser/value.rs, src/options.rs)

The `Serialize` implementation of the user's data is represented by the tree `SVal` of the serde calls it makes.
The `core::fmt::Write` behind the serializer is represented by the text that reached it and an oracle that tells
which write fails.  `write!(output, "{}", x)` is one write here.
-/

namespace Ron

variable [Env]

/-- src/ser/path_meta.rs:113-116 `Field` (the `HashMap<String, Field>` of `Fields` is a partial function). -/
inductive MetaField
  | mk (doc : Text) (fields : Option (Text → Option MetaField))

/-- src/ser/path_meta.rs:136-141 `doc`. -/
def MetaField.doc : MetaField → Text
  | .mk d _ => d
/-- src/ser/path_meta.rs:170-172 `fields`. -/
def MetaField.fields : MetaField → Option (Text → Option MetaField)
  | .mk _ f => f

/-- src/ser/mod.rs:87-125 `PrettyConfig`. -/
structure PrettyConfig where
  depthLimit : Nat := 2 ^ 64 - 1
  newLine : Text := c!"\n"
  indentor : Text := c!"    "
  separator : Text := c!" "
  structNames : Bool := false
  separateTupleMembers : Bool := false
  enumerateArrays : Bool := false
  extensions : Exts := {}
  compactArrays : Bool := false
  escapeStrings : Bool := true
  compactStructs : Bool := false
  compactMaps : Bool := false
  numberSuffixes : Bool := false
  pathMeta : Option MetaField := none
  compactRanges : Bool := false

/-- src/options.rs:41-65 `Options` and its default. -/
structure Options where
  defaultExtensions : Exts := {}
  recursionLimit : Option Nat := some 128
deriving DecidableEq

/-- src/options.rs:69-73. -/
def Options.withDefaultExtension (o : Options) (e : Exts) : Options :=
  { o with defaultExtensions := o.defaultExtensions.union e }
/-- src/options.rs:76-80. -/
def Options.withoutDefaultExtension (o : Options) (e : Exts) : Options :=
  { o with defaultExtensions := o.defaultExtensions.inter e.compl }
/-- src/options.rs:83-87. -/
def Options.withRecursionLimit (o : Options) (n : Nat) : Options := { o with recursionLimit := some n }
/-- src/options.rs:90-97. -/
def Options.withoutRecursionLimit (o : Options) : Options := { o with recursionLimit := none }

/-- The writer: what reached it and which writes fail.  `fault out t = some n`: having received `out`, the writer
fails on the write of `t` after `n` characters of it. -/
structure Writer where
  out : Text := []
  fault : Text → Text → Option Nat := fun _ _ => none
  /-- the error slot of the io adapter (src/options.rs:291-309) -/
  failed : Bool := false

/-- src/ser/mod.rs:418-427 `Serializer`; `pretty` is the configuration with the current indent. -/
structure Ser where
  w : Writer
  pretty : Option (PrettyConfig × Nat)
  defaultExtensions : Exts
  isEmpty : Option Bool
  nv : Bool
  limit : Option Nat
  isd : Nat

/-- Result of a serializer action. -/
inductive WRes (α : Type)
  | ok (a : α) (s : Ser)
  | err (e : Err) (s : Ser)

/-- Serializer actions. -/
def W (α : Type) : Type := Ser → WRes α

instance : Monad W where
  pure a := fun s => .ok a s
  bind f g := fun s => match f s with
    | .ok a s' => g a s'
    | .err e s' => .err e s'

/-- `return Err(e)`. -/
def wfail {α : Type} (e : Err) : W α := fun s => .err e s
/-- Read the serializer. -/
def wget : W Ser := fun s => .ok s s
/-- Change the serializer. -/
def wmod (f : Ser → Ser) : W Unit := fun s => .ok () (f s)

/-- `self.output.write_str(t)?`. -/
def write (t : Text) : W Unit := fun s =>
  match s.w.fault s.w.out t with
  | none => .ok () { s with w := { s.w with out := s.w.out ++ t } }
  | some n => .err .fmt { s with w := { s.w with out := s.w.out ++ t.take n, failed := true } }

/-- A sequence of writes. -/
def writeAll : List Text → W Unit
  | [] => pure ()
  | t :: ts => do write t; writeAll ts

namespace Ser
/-- src/ser/mod.rs:497-501. -/
def separateTupleMembers (s : Ser) : Bool := match s.pretty with | some (c, _) => c.separateTupleMembers | none => false
/-- src/ser/mod.rs:503-507. -/
def compactArrays (s : Ser) : Bool := match s.pretty with | some (c, _) => c.compactArrays | none => false
/-- src/ser/mod.rs:509-513. -/
def compactStructs (s : Ser) : Bool := match s.pretty with | some (c, _) => c.compactStructs | none => false
/-- src/ser/mod.rs:515-519. -/
def compactMaps (s : Ser) : Bool := match s.pretty with | some (c, _) => c.compactMaps | none => false
/-- src/ser/mod.rs:521-525. -/
def numberSuffixes (s : Ser) : Bool := match s.pretty with | some (c, _) => c.numberSuffixes | none => false
/-- src/ser/mod.rs:527-531. -/
def compactRanges (s : Ser) : Bool := match s.pretty with | some (c, _) => c.compactRanges | none => false
/-- src/ser/mod.rs:533-539. -/
def extensions (s : Ser) : Exts :=
  s.defaultExtensions.union (match s.pretty with | some (c, _) => c.extensions | none => {})
/-- src/ser/mod.rs:541-545. -/
def escapeStrings (s : Ser) : Bool := match s.pretty with | some (c, _) => c.escapeStrings | none => true
/-- src/ser/mod.rs:699-706. -/
def structNames (s : Ser) : Bool :=
  s.extensions.explicitStructNames || (match s.pretty with | some (c, _) => c.structNames | none => false)
end Ser

/-! ### Layout -/

/-- src/ser/mod.rs:547-559 `start_indent`. -/
def startIndent : W Unit := do
  let s ← wget
  match s.pretty with
  | none => pure ()
  | some (c, i) =>
    wmod fun s => { s with pretty := some (c, i + 1) }
    if i + 1 ≤ c.depthLimit && !s.isEmpty.getD false then write c.newLine else pure ()

/-- src/ser/mod.rs:429-436 and 562-567 `indent`. -/
def indent : W Unit := do
  let s ← wget
  match s.pretty with
  | none => pure ()
  | some (c, i) => if i ≤ c.depthLimit then writeAll (List.replicate i c.indentor) else pure ()

/-- src/ser/mod.rs:568-584 `end_indent`.  (`pretty.indent -= 1` never underflows: every call is preceded by a
`start_indent`; the model uses truncated subtraction.) -/
def endIndent : W Unit := do
  let s ← wget
  match s.pretty with
  | none => pure ()
  | some (c, i) =>
    if i ≤ c.depthLimit && !s.isEmpty.getD false then writeAll (List.replicate (i - 1) c.indentor) else pure ()
    wmod fun s => { s with pretty := some (c, i - 1), isEmpty := none }

/-! ### Strings, identifiers, numbers -/

/-- lower-case hexadecimal digits without leading zeros -/
def hexText (n : Nat) : Text := Nat.toDigits 16 n

/-- `char::escape_debug` (std). -/
def escapeDebug (c : Char) : Text :=
  if c = '\x00' then c!"\\0" else if c = '\t' then c!"\\t" else if c = '\r' then c!"\\r"
  else if c = '\n' then c!"\\n" else if c = '\'' then c!"\\'" else if c = '"' then c!"\\\""
  else if c = '\\' then c!"\\\\"
  else if Env.escU c then c!"\\u{" ++ hexText c.toNat ++ c!"}"
  else [c]

/-- src/ser/mod.rs:586-594 `serialize_escaped_str`. -/
def serEscapedStr (v : Text) : W Unit := do
  write c!"\""
  writeAll ((v.flatMap escapeDebug).map ([·]))
  write c!"\""

/-- src/ser/mod.rs:598-602: the longest run of `#`. -/
def maxHashes : Text → Nat → Nat → Nat
  | [], _, m => m
  | c :: cs, n, m => if c == '#' then maxHashes cs (n + 1) (Nat.max m (n + 1)) else maxHashes cs 0 m

/-- src/ser/mod.rs:596-616 `serialize_unescaped_or_raw_str` and 629-647 `serialize_unescaped_or_raw_byte_str`
(`pre` is the empty text or `b`). -/
def serRawStr (pre : Text) (v : Text) : W Unit := do
  if v.contains '"' || v.contains '\\' then
    let hashes := List.replicate (maxHashes v 0 0 + 1) '#'
    write (pre ++ c!"r")
    write hashes
    write c!"\""
    write v
    write c!"\""
    write hashes
  else
    write (pre ++ c!"\"")
    write v
    write c!"\""

/-- src/ser/mod.rs:618-625 `serialize_escaped_byte_str`. -/
def serEscapedBytes (v : List UInt8) : W Unit := do
  write c!"b\""
  writeAll ((v.flatMap escapeDefault).map ([·]))
  write c!"\""

/-- `{}` of an integer. -/
def intText (v : Int) : Text := if v < 0 then '-' :: natText v.natAbs else natText v.natAbs

/-- src/ser/mod.rs:649-669 `serialize_sint`, `serialize_uint` (the suffixes of 744-788 are `IntTy.suffix`). -/
def serInt (t : IntTy) (v : Int) : W Unit := do
  write (intText v)
  let s ← wget
  if s.numberSuffixes then write t.suffix else pure ()

/-- src/ser/mod.rs:787-805 `serialize_f32`. -/
def serF32 (b : F32) : W Unit := do
  if b.isNan && b.isNeg then write c!"-" else pure ()
  write (Env.fmt32 b)
  if b.integral then write c!".0" else pure ()
  let s ← wget
  if s.numberSuffixes then write c!"f32" else pure ()

/-- src/ser/mod.rs:807-825 `serialize_f64`. -/
def serF64 (b : F64) : W Unit := do
  if b.isNan && b.isNeg then write c!"-" else pure ()
  write (Env.fmt64 b)
  if b.integral then write c!".0" else pure ()
  let s ← wget
  if s.numberSuffixes then write c!"f64" else pure ()

/-- src/value/number.rs:113-133 `Serialize for Number`. -/
def serNumber : Number → W Unit
  | .int t v => serInt t v
  | .f32 b => serF32 b
  | .f64 b => serF64 b

/-- src/ser/mod.rs:827-835 `serialize_char`. -/
def serChar (c : Char) : W Unit := do
  write c!"'"
  if c == '\\' || c == '\'' then write c!"\\" else pure ()
  write [c]
  write c!"'"

/-- src/ser/mod.rs:837-845 `serialize_str`. -/
def serStr (v : Text) : W Unit := do
  let s ← wget
  if s.escapeStrings then serEscapedStr v else serRawStr [] v

/-- src/ser/mod.rs:847-860 `serialize_bytes`. -/
def serBytes (v : List UInt8) : W Unit := do
  let s ← wget
  if !s.escapeStrings then
    match utf8Dec v with
    | some t => serRawStr c!"b" t
    | none => serEscapedBytes v
  else serEscapedBytes v

/-- src/ser/mod.rs:689-694 `validate_identifier`. -/
def validateIdentifier (name : Text) : W Unit :=
  if name.isEmpty || !name.all isIdentRaw then wfail (.invalidIdentifier name) else pure ()

/-- src/ser/mod.rs:676-679: names that are keywords elsewhere. -/
def reservedNames : List Text :=
  [c!"true", c!"false", c!"Some", c!"None", c!"inf", c!"inff32", c!"inff64", c!"NaN", c!"NaNf32", c!"NaNf64"]

/-- src/ser/mod.rs:673-680: does the name need `r#`? -/
def needsRaw (name : Text) : Bool :=
  (match name with
   | [] => true
   | c :: cs => !isIdentFirst c || !cs.all Env.xidCont) || reservedNames.contains name

/-- src/ser/mod.rs:671-686 `write_identifier`. -/
def writeIdentifier (name : Text) : W Unit := do
  validateIdentifier name
  if needsRaw name then write c!"r#" else pure ()
  write name

/-! ### Recursion guard -/

/-- src/ser/mod.rs:709-727 `guard_recursion!`: entering. -/
def guardEnter : W Unit := fun s =>
  match s.limit with
  | none => .ok () s
  | some 0 => .err .exceededRecursionLimit s
  | some (n + 1) => .ok () { s with limit := some n }

/-- src/ser/mod.rs:721-723: leaving (`saturating_add`; the model does not saturate). -/
def guardLeave : W Unit := wmod fun s => { s with limit := s.limit.map (· + 1) }

/-- `guard_recursion! { self => f? }`: an error in `f` leaves at once. -/
def guardQ {α : Type} (f : W α) : W α := do
  guardEnter
  let a ← f
  guardLeave
  pure a

/-- `guard_recursion! { self => f }`: the limit is restored after an error as well. -/
def guardR {α : Type} (f : W α) : W α := do
  guardEnter
  fun s => match f s with
    | .ok a s' => .ok a { s' with limit := s'.limit.map (· + 1) }
    | .err e s' => .err e { s' with limit := s'.limit.map (· + 1) }

/-- src/ser/mod.rs:1240-1246 `Drop for Compound`: runs when the compound goes out of scope, after success or failure. -/
def dropCompound {α : Type} (f : W α) : W α := fun s =>
  match f s with
  | .ok a s' => .ok a { s' with limit := s'.limit.map (· + 1) }
  | .err e s' => .err e { s' with limit := s'.limit.map (· + 1) }

/-! ### Data -/

/-- The serde calls a `Serialize` implementation makes.  Lengths of tuples and structs are those of the lists (as
derived implementations pass them); `raw` is a `RawValue` (src/value/raw.rs:187-191). -/
inductive SVal
  | bool (b : Bool)
  | num (n : Number)
  | char (c : Char)
  | str (t : Text)
  | bytes (b : List UInt8)
  | none
  | some (v : SVal)
  | unit
  | unitStruct (name : Text)
  | unitVariant (name variant : Text)
  | newtypeStruct (name : Text) (v : SVal)
  | newtypeVariant (name variant : Text) (v : SVal)
  | seq (len : Option Nat) (vs : List SVal)
  | tuple (vs : List SVal)
  | tupleStruct (name : Text) (vs : List SVal)
  | tupleVariant (name variant : Text) (vs : List SVal)
  | map (len : Option Nat) (kvs : List (SVal × SVal))
  | struct (name : Text) (fs : List (Text × SVal))
  | structVariant (name variant : Text) (fs : List (Text × SVal))
  | raw (ron : Text)

/-- src/ser/mod.rs:1232-1237 `try_serialize_number`, src/value/number.rs:353-534 `NumberSerializer`. -/
def SVal.asNumber : SVal → Option Number
  | .num n => Option.some n
  | _ => Option.none

/-- src/ser/mod.rs:1204-1210 `RangeKind`. -/
inductive RangeKind
  | range | rangeInclusive | rangeFrom | rangeTo | rangeToInclusive
deriving DecidableEq

/-- src/ser/mod.rs:1212-1218 `RangeCompound`. -/
structure RangeC where
  kind : RangeKind
  first : Option (Text × Number) := none
  second : Option (Text × Number) := none
  fallback : Bool := false

/-- src/ser/mod.rs:1173-1180 `Compound` without the serializer (`rest` is `State::Rest`). -/
structure Comp where
  rest : Bool := false
  nv : Bool := false
  idx : Nat := 0
  range : Option RangeC := none

/-- `write_char(',')` and what follows it between elements (src/ser/mod.rs:1259-1266, 1316-1323, 1400-1408,
1543-1551); `compact` is true if the members stay on one line. -/
def betweenSep (compact : Bool) : W Unit := do
  write c!","
  let s ← wget
  match s.pretty with
  | none => pure ()
  | some (c, i) => if i ≤ c.depthLimit && !compact then write c.newLine else write c.separator

/-- The trailing comma of src/ser/mod.rs:1286-1293, 1336-1343, 1434-1441, 1630-1637. -/
def trailingComma (rest compact : Bool) : W Unit := do
  let s ← wget
  match rest, s.pretty with
  | true, some (c, i) =>
    if i ≤ c.depthLimit && !compact then do
      write c!","
      write c.newLine
    else pure ()
  | _, _ => pure ()

/-- src/ser/mod.rs:1273-1278: the index of an element as a comment; the result is the next index. -/
def elemIndex (pretty : Option (PrettyConfig × Nat)) (idx : Nat) : W Nat :=
  match pretty with
  | some (p, i) =>
    if i ≤ p.depthLimit && p.enumerateArrays then do
      write (c!"/*[" ++ natText idx ++ c!"]*/ ")
      pure (idx + 1)
    else pure idx
  | none => pure idx

/-- The separator after a colon (src/ser/mod.rs:1424-1426, 1572-1574). -/
def colonSep (pretty : Option (PrettyConfig × Nat)) : W Unit :=
  match pretty with
  | some (p, _) => write p.separator
  | none => pure ()

/-- src/ser/mod.rs:1252-1283 `SerializeSeq::serialize_element` around the element. -/
def seqElement (c : Comp) (v : W Unit) : W Comp := do
  let s ← wget
  if c.rest then betweenSep s.compactArrays else pure ()
  if !s.compactArrays then indent else pure ()
  let c := { c with rest := true }
  let idx ← elemIndex s.pretty c.idx
  guardQ v
  pure { c with idx := idx }

/-- src/ser/mod.rs:1285-1302 `SerializeSeq::end`. -/
def seqEnd (c : Comp) : W Unit := do
  let s ← wget
  trailingComma c.rest s.compactArrays
  if !s.compactArrays then endIndent else pure ()
  write c!"]"

/-- src/ser/mod.rs:1309-1333 `SerializeTuple::serialize_element`. -/
def tupleElement (c : Comp) (v : W Unit) : W Comp := do
  let s ← wget
  if c.rest then betweenSep (!s.separateTupleMembers) else pure ()
  if s.separateTupleMembers then indent else pure ()
  guardQ v
  pure { c with rest := true }

/-- src/ser/mod.rs:1335-1353 `SerializeTuple::end`. -/
def tupleEnd (c : Comp) : W Unit := do
  let s ← wget
  trailingComma c.rest (!s.separateTupleMembers)
  if s.separateTupleMembers then endIndent else pure ()
  if !c.nv then write c!")" else pure ()

/-- src/ser/mod.rs:1393-1431 `SerializeMap::serialize_key` and `serialize_value`. -/
def mapEntry (c : Comp) (k v : W Unit) : W Comp := do
  let s ← wget
  if c.rest then betweenSep s.compactMaps else pure ()
  if !s.compactMaps then indent else pure ()
  guardR k
  write c!":"
  colonSep s.pretty
  guardQ v
  pure { c with rest := true }

/-- src/ser/mod.rs:1433-1450 `SerializeMap::end`. -/
def mapEnd (c : Comp) : W Unit := do
  let s ← wget
  trailingComma c.rest s.compactMaps
  if !s.compactMaps then endIndent else pure ()
  write c!"}"

/-- `str::lines` (std): split at `\n`, drop a final empty piece and one `\r` before each `\n`. -/
def splitLines : Text → Text → List Text
  | [], cur => if cur.isEmpty then [] else [cur.reverse]
  | c :: cs, cur =>
    if c == '\n' then
      (match cur with
       | '\r' :: cur' => cur'.reverse
       | _ => cur.reverse) :: splitLines cs []
    else splitLines cs (c :: cur)

/-- src/ser/mod.rs:1558-1565: the documentation lines of a field. -/
def docLines : List Text → W Unit
  | [] => pure ()
  | l :: ls => do
    write c!"/// "
    write l
    write c!"\n"
    indent
    docLines ls

/-- src/ser/mod.rs:1531-1538: take the metadata of the field out of the configuration.  The first component is
`restore_field`. -/
def takeMeta (key : Text) : W (Option MetaField) := fun s =>
  match s.pretty with
  | some (c, i) =>
    match c.pathMeta with
    | some f =>
      match f.fields with
      | some fs =>
        .ok (some (.mk f.doc (some (fun k => if k = key then none else fs k))))
          { s with pretty := some ({ c with pathMeta := fs key }, i) }
      | none => .ok (some f) { s with pretty := some ({ c with pathMeta := none }, i) }
    | none => .ok none s
  | none => .ok none s

/-- src/ser/mod.rs:1578-1588: put the metadata back. -/
def restoreMeta (key : Text) (restore : Option MetaField) : W Unit := wmod fun s =>
  match s.pretty with
  | some (c, i) =>
    let m := match restore, c.pathMeta with
      | some f, some inner =>
        match f.fields with
        | some fs => some (.mk f.doc (some (fun k => if k = key then some inner else fs k)))
        | none => some f
      | r, _ => r
    { s with pretty := some ({ c with pathMeta := m }, i) }
  | none => s

/-- src/ser/mod.rs:1554-1567: the indentation and the documentation of a field. -/
def fieldLead (pretty : Option (PrettyConfig × Nat)) : W Unit := do
  indent
  match pretty with
  | some (p, _) =>
    match p.pathMeta with
    | some f => docLines (splitLines f.doc [])
    | none => pure ()
  | none => pure ()

/-- src/ser/mod.rs:1531-1590: a field of a struct, printed in full. -/
def fieldPlain (c : Comp) (key : Text) (v : W Unit) : W Comp := do
  let restore ← takeMeta key
  let s ← wget
  if c.rest then betweenSep s.compactStructs else pure ()
  if !s.compactStructs then fieldLead s.pretty else pure ()
  writeIdentifier key
  write c!":"
  colonSep s.pretty
  guardQ v
  restoreMeta key restore
  pure { c with rest := true }

/-- src/ser/mod.rs:1468-1483: the key a range expects next. -/
def RangeC.expectedKey (r : RangeC) : Text :=
  match r.kind with
  | .rangeTo | .rangeToInclusive => if r.first.isNone then c!"end" else []
  | _ => if r.first.isNone then c!"start" else c!"end"

/-- src/ser/mod.rs:1485-1490: the number of fields of a range. -/
def RangeC.maxFields (r : RangeC) : Nat :=
  match r.kind with
  | .rangeFrom | .rangeTo | .rangeToInclusive => 1
  | .range | .rangeInclusive => 2

/-- Replay of buffered fields (src/ser/mod.rs:1520-1526). -/
def replayField (c : Comp) : Option (Text × Number) → W Comp
  | some (k, n) => fieldPlain c k (serNumber n)
  | none => pure c

/-- src/ser/mod.rs:1514-1526: switch from compact range syntax to a struct. -/
def rangeFallback (c : Comp) (r : RangeC) : W Comp := do
  write c!"("
  let s ← wget
  if !s.compactStructs then do
    wmod fun s => { s with isEmpty := some false }
    startIndent
  else pure ()
  let c := { c with range := some { r with first := none, second := none, fallback := true } }
  let c ← replayField c r.first
  replayField c r.second

/-- src/ser/mod.rs:1458-1591 `SerializeStruct::serialize_field`; `num` is `try_serialize_number(value)`. -/
def structField (c : Comp) (key : Text) (num : Option Number) (v : W Unit) : W Comp :=
  match c.range with
  | none => fieldPlain c key v
  | some r =>
    if r.fallback then fieldPlain c key v
    else
      match num with
      | some n =>
        if key ≠ r.expectedKey || (r.first.isSome && r.maxFields < 2) || r.second.isSome then do
          let c ← rangeFallback c r
          fieldPlain c key v
        else if r.first.isNone then pure { c with range := some { r with first := some (key, n) } }
        else pure { c with range := some { r with second := some (key, n) } }
      | none => do
        let c ← rangeFallback c r
        fieldPlain c key v

/-- A buffered bound. -/
def serBound : Option (Text × Number) → W Unit
  | some (_, n) => serNumber n
  | none => pure ()

/-- src/ser/mod.rs:1595-1626: the compact range. -/
def rangeEnd (r : RangeC) : W Unit :=
  match r.kind with
  | .rangeFrom => do serBound r.first; write c!".."
  | .rangeTo => do write c!".."; serBound r.first
  | .rangeToInclusive => do write c!"..="; serBound r.first
  | .range => do serBound r.first; write c!".."; serBound r.second
  | .rangeInclusive => do serBound r.first; write c!"..="; serBound r.second

/-- src/ser/mod.rs:1593-1648 `SerializeStruct::end`. -/
def structEnd (c : Comp) : W Unit := do
  let plain : W Unit := do
    let s ← wget
    trailingComma c.rest s.compactStructs
    if !s.compactStructs then endIndent else pure ()
    if !c.nv then write c!")" else pure ()
  match c.range with
  | some r => if r.fallback then plain else rangeEnd r
  | none => plain

/-! ### Openings -/

/-- src/ser/mod.rs:1009-1024 `serialize_seq`. -/
def seqOpen (len : Option Nat) : W Comp := do
  wmod fun s => { s with nv := false, isd := 0 }
  write c!"["
  let s ← wget
  if !s.compactArrays then do
    (match len with
     | some n => wmod fun s => { s with isEmpty := some (n == 0) }
     | none => pure ())
    startIndent
  else pure ()
  pure {}

/-- The common part of src/ser/mod.rs:1035-1039 and 1072-1076. -/
def tupleIndent (len : Nat) : W Unit := do
  let s ← wget
  if s.separateTupleMembers then do
    wmod fun s => { s with isEmpty := some (len == 0) }
    startIndent
  else pure ()

/-- src/ser/mod.rs:1026-1042 `serialize_tuple`. -/
def tupleOpen (len : Nat) : W Comp := do
  let s ← wget
  wmod fun s => { s with nv := false, isd := 0 }
  if !s.nv then write c!"(" else pure ()
  tupleIndent len
  pure { nv := s.nv }

/-- The name of a struct: written if `struct_names` and not inside an unwrapped variant, validated otherwise. -/
def structName (name : Text) : W Unit := do
  let s ← wget
  if s.structNames && !s.nv then writeIdentifier name else validateIdentifier name

/-- src/ser/mod.rs:1058-1079 `serialize_tuple_variant`. -/
def tupleVariantOpen (name variant : Text) (len : Nat) : W Comp := do
  wmod fun s => { s with nv := false, isd := 0 }
  validateIdentifier name
  writeIdentifier variant
  write c!"("
  tupleIndent len
  pure {}

/-- src/ser/mod.rs:1081-1096 `serialize_map`. -/
def mapOpen (len : Option Nat) : W Comp := do
  wmod fun s => { s with nv := false, isd := 0 }
  write c!"{"
  let s ← wget
  if !s.compactMaps then do
    (match len with
     | some n => wmod fun s => { s with isEmpty := some (n == 0) }
     | none => pure ())
    startIndent
  else pure ()
  pure {}

/-- src/ser/mod.rs:1100-1121: the kind of a struct that may be printed as a range. -/
def rangeKindOf (name : Text) (len : Nat) : Option RangeKind :=
  if len = 2 ∧ name = c!"Range" then some .range
  else if len = 2 ∧ name = c!"RangeInclusive" then some .rangeInclusive
  else if len = 1 ∧ name = c!"RangeFrom" then some .rangeFrom
  else if len = 1 ∧ name = c!"RangeTo" then some .rangeTo
  else if len = 1 ∧ name = c!"RangeToInclusive" then some .rangeToInclusive
  else none

/-- The common part of src/ser/mod.rs:1137-1140 and 1159-1162. -/
def structIndent (len : Nat) : W Unit := do
  let s ← wget
  if !s.compactStructs then do
    wmod fun s => { s with isEmpty := some (len == 0) }
    startIndent
  else pure ()

/-- src/ser/mod.rs:1123-1142: a struct in the usual syntax. -/
def structOpenPlain (name : Text) (len : Nat) : W Comp := do
  let s ← wget
  wmod fun s => { s with nv := false, isd := 0 }
  if s.nv then validateIdentifier name
  else do
    if s.structNames then writeIdentifier name else validateIdentifier name
    write c!"("
  structIndent len
  pure { nv := s.nv }

/-- src/ser/mod.rs:1098-1143 `serialize_struct`. -/
def structOpen (name : Text) (len : Nat) : W Comp := do
  let s ← wget
  match s.compactRanges, rangeKindOf name len with
  | true, some k => do
    wmod fun s => { s with nv := false, isd := 0 }
    pure { range := some { kind := k } }
  | _, _ => structOpenPlain name len

/-- src/ser/mod.rs:1145-1165 `serialize_struct_variant`. -/
def structVariantOpen (name variant : Text) (len : Nat) : W Comp := do
  wmod fun s => { s with nv := false, isd := 0 }
  validateIdentifier name
  writeIdentifier variant
  write c!"("
  structIndent len
  pure {}

/-- src/ser/mod.rs:902-908 `serialize_unit`. -/
def serUnit : W Unit := do
  let s ← wget
  if !s.nv then write c!"()" else pure ()

/-- `Some(` repeated (src/ser/mod.rs:867-869, 946-948). -/
def openSomes (n : Nat) : W Unit := writeAll (List.replicate n c!"Some(")
/-- `)` repeated (src/ser/mod.rs:871-873, 952-954). -/
def closeSomes (n : Nat) : W Unit := writeAll (List.replicate n c!")")

/-- src/ser/mod.rs:862-876 `serialize_none`. -/
def serNone : W Unit := do
  let s ← wget
  wmod fun s => { s with isd := 0 }
  openSomes s.isd
  write c!"None"
  closeSomes s.isd

/-- src/ser/mod.rs:878-900 `serialize_some`. -/
def serSome (v : W Unit) : W Unit := do
  let s ← wget
  if s.extensions.implicitSome then do
    wmod fun s => { s with isd := s.isd + 1 }
    guardQ v
    wmod fun s => { s with isd := 0 }
  else do
    wmod fun s => { s with nv := s.extensions.unwrapVariantNewtypes }
    write c!"Some("
    guardQ v
    write c!")"
    wmod fun s => { s with nv := false }

/-- src/ser/mod.rs:910-924 `serialize_unit_struct`. -/
def serUnitStruct (name : Text) : W Unit := do
  let s ← wget
  if s.compactRanges && name == c!"RangeFull" then write c!".."
  else if s.structNames && !s.nv then writeIdentifier name
  else do
    validateIdentifier name
    serUnit

/-- src/ser/mod.rs:942-957: a raw value (the inner serializer, src/ser/raw.rs:86-89, writes the text). -/
def serRaw (ron : Text) : W Unit := do
  let s ← wget
  wmod fun s => { s with isd := 0 }
  openSomes s.isd
  guardR (write ron)
  closeSomes s.isd

/-- src/ser/mod.rs:959-979 `serialize_newtype_struct`. -/
def serNewtypeStruct (name : Text) (v : W Unit) : W Unit := do
  let s ← wget
  if s.extensions.unwrapNewtypes || s.nv then do
    wmod fun s => { s with nv := false }
    validateIdentifier name
    guardR v
  else do
    if s.structNames then writeIdentifier name else validateIdentifier name
    wmod fun s => { s with isd := 0 }
    write c!"("
    guardQ v
    write c!")"

/-- src/ser/mod.rs:982-1007 `serialize_newtype_variant`. -/
def serNewtypeVariant (name variant : Text) (v : W Unit) : W Unit := do
  validateIdentifier name
  writeIdentifier variant
  write c!"("
  wmod fun s => { s with nv := s.extensions.unwrapVariantNewtypes, isd := 0 }
  guardQ v
  wmod fun s => { s with nv := false }
  write c!")"

mutual
/-- `value.serialize(&mut serializer)` (src/ser/mod.rs:729-1166). -/
def ser : SVal → W Unit
  | .bool b => write (if b then c!"true" else c!"false")
  | .num n => serNumber n
  | .char c => serChar c
  | .str t => serStr t
  | .bytes b => serBytes b
  | .none => serNone
  | .some v => serSome (ser v)
  | .unit => serUnit
  | .unitStruct name => serUnitStruct name
  | .unitVariant name variant => do
    validateIdentifier name
    writeIdentifier variant
  | .newtypeStruct name v => serNewtypeStruct name (ser v)
  | .newtypeVariant name variant v => serNewtypeVariant name variant (ser v)
  | .seq len vs => do
    let c ← seqOpen len
    dropCompound (do
      let c ← serSeq c vs
      seqEnd c)
  | .tuple vs => do
    let c ← tupleOpen vs.length
    dropCompound (do
      let c ← serTuple c vs
      tupleEnd c)
  | .tupleStruct name vs => do
    structName name
    let c ← tupleOpen vs.length
    dropCompound (do
      let c ← serTuple c vs
      tupleEnd c)
  | .tupleVariant name variant vs => do
    let c ← tupleVariantOpen name variant vs.length
    dropCompound (do
      let c ← serTuple c vs
      tupleEnd c)
  | .map len kvs => do
    let c ← mapOpen len
    dropCompound (do
      let c ← serMap c kvs
      mapEnd c)
  | .struct name fs => do
    let c ← structOpen name fs.length
    dropCompound (do
      let c ← serFields c fs
      structEnd c)
  | .structVariant name variant fs => do
    let c ← structVariantOpen name variant fs.length
    dropCompound (do
      let c ← serFields c fs
      structEnd c)
  | .raw ron => serRaw ron
/-- The elements of a sequence. -/
def serSeq (c : Comp) : List SVal → W Comp
  | [] => pure c
  | v :: vs => do
    let c ← seqElement c (ser v)
    serSeq c vs
/-- The elements of a tuple. -/
def serTuple (c : Comp) : List SVal → W Comp
  | [] => pure c
  | v :: vs => do
    let c ← tupleElement c (ser v)
    serTuple c vs
/-- The entries of a map. -/
def serMap (c : Comp) : List (SVal × SVal) → W Comp
  | [] => pure c
  | (k, v) :: kvs => do
    let c ← mapEntry c (ser k) (ser v)
    serMap c kvs
/-- The fields of a struct. -/
def serFields (c : Comp) : List (Text × SVal) → W Comp
  | [] => pure c
  | (k, v) :: fs => do
    let c ← structField c k v.asNumber (ser v)
    serFields c fs
end

/-! ### Entry points -/

/-- src/ser/mod.rs:473-478: the extension header. -/
def header (names : List Text) (newLine : Text) : W Unit :=
  match names with
  | [] => pure ()
  | n :: ns => do
    write (c!"#![enable(" ++ n ++ c!")]")
    write newLine
    header ns newLine

/-- src/ser/mod.rs:451-489 `Serializer::with_options`, as an action on the serializer it is going to return. -/
def serNew : W Unit := do
  let s ← wget
  match s.pretty with
  | none => pure ()
  | some (c, _) =>
    if !c.newLine.all isWs then wfail (.message c!"Invalid non-whitespace `PrettyConfig::new_line`")
    else if !c.indentor.all isWs then wfail (.message c!"Invalid non-whitespace `PrettyConfig::indentor`")
    else if !c.separator.all isWs then wfail (.message c!"Invalid non-whitespace `PrettyConfig::separator`")
    else header (s.defaultExtensions.compl.inter c.extensions).names c.newLine

/-- The fields of the returned serializer (src/ser/mod.rs:480-488). -/
def Ser.init (o : Options) (config : Option PrettyConfig) (w : Writer) : Ser :=
  { w := w, pretty := config.map (·, 0), defaultExtensions := o.defaultExtensions, isEmpty := none, nv := false,
    limit := o.recursionLimit, isd := 0 }

/-- src/options.rs:208-225 `to_writer`, `to_writer_pretty`: the result and what reached the writer. -/
def toWriter (o : Options) (config : Option PrettyConfig) (w : Writer) (v : SVal) : WRes Unit :=
  (do serNew; ser v : W Unit) (Ser.init o config w)

/-- src/options.rs:273-289 `to_string`, `to_string_pretty` (a `String` never fails). -/
def toText (o : Options) (config : Option PrettyConfig) (v : SVal) : Except Err Text :=
  match toWriter o config {} v with
  | .ok _ s => .ok s.w.out
  | .err e _ => .error e

/-- src/options.rs:233-265 `to_io_writer`, `to_io_writer_pretty`: the error kept by the adapter wins. -/
def toIoWriter (o : Options) (config : Option PrettyConfig) (w : Writer) (v : SVal) : Except Err Unit × Text :=
  match toWriter o config w v with
  | .ok _ s => (if s.w.failed then .error (.io []) else .ok (), s.w.out)
  | .err e s => (if s.w.failed then .error (.io []) else .error e, s.w.out)

end Ron
