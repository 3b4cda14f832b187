import Verif.Model.De
/-!
# Model of reading into serde's `Content`

`Content` (serde, `private/de.rs`, external) is the buffer in which serde keeps data of untagged and internally tagged enums before it
knows their type.  Its visitor takes everything but 128-bit integers.  The deserializer recognises this target type
(`is_serde_content`, src/de/mod.rs:1329-1386) and then keeps the names of enum variants.

The flag `serde_content_newtype` (src/de/mod.rs:39) is an argument here: it is set right before the data of a variant is read
(1320-1323), which starts with a parenthesis, and taken back by `handle_any_struct` (183-184).
-/

namespace Ron

/-- serde's `Content` (external), the cases that this deserializer produces.  Owned and borrowed strings are not told apart. -/
inductive Content
  | bool (b : Bool)
  | num (n : Number)
  | char (c : Char)
  | str (t : Text)
  | bytes (b : List UInt8)
  | unit
  | none
  | some (c : Content)
  | seq (cs : List Content)
  | map (es : List (Content × Content))

/-- `ContentVisitor::visit_u8` to `visit_f64` (serde): there is no `visit_i128` and no `visit_u128`. -/
def Content.ofNumber : Number → Except Err Content
  | .int t v => if t.bits = 128 then .error (.invalidValueForType [] []) else .ok (.num (.int t v))
  | n => .ok (.num n)

section
variable [Env]

/-- src/de/mod.rs:236-259 `handle_float_range_or_value` for `Content`. -/
def contentRange (n : Number) : P Content := do
  if ← consumeStr c!"..=" then
    let e ← anyNumber
    let a ← liftE (Content.ofNumber n)
    let b ← liftE (Content.ofNumber e)
    pure (.map [(.str c!"start", a), (.str c!"end", b)])
  else if ← consumeStr c!".." then
    let s ← getSt
    if !(match s.rest with | [] => false | c :: _ => isNumberStart s.rest c) then
      let a ← liftE (Content.ofNumber n)
      pure (.map [(.str c!"start", a)])
    else
      let e ← anyNumber
      let a ← liftE (Content.ofNumber n)
      let b ← liftE (Content.ofNumber e)
      pure (.map [(.str c!"start", a), (.str c!"end", b)])
  else liftE (Content.ofNumber n)

/-- `ContentVisitor::visit_seq` (serde). -/
def contentSeq (term : Char) (any : P Content) : P Content := do
  let cs ← readSeq term any
  pure (.seq cs)

/-- `ContentVisitor::visit_map` (serde): a list of entries. -/
def contentMap (term : Char) (key any : P Content) : P Content := do
  let es ← readMap term key any
  pure (.map es)

/-- A key of a named struct read as `Content` (src/de/id.rs:16-52). -/
def contentIdent : P Content := do
  let id ← deIdentifier
  pure (.str id)

/-- src/de/mod.rs:174-234 `handle_any_struct` for `Content`, with `SerdeEnumContent` (1296-1327).  `sc` is
`serde_content_newtype`; the closing parenthesis of a newtype is consumed if it is there (216-223). -/
def contentStruct (any : Bool → P Content) (sc : Bool) (ident : Option Text) : P Content := do
  match ← checkStructType .noParensMeanUnit (if sc then .differentiate else .imprecise), ident with
  | .unit, some id => pure (.str id)
  | .unit, none => pure .unit
  | _, some id =>
    skipWs
    let c ← any true
    pure (.map [(.str id, c)])
  | .named, none => structAfterName [] (contentMap ')' contentIdent (any false))
  | ty, none =>
    if ty = .newtypeTuple ∧ sc = true then
      let _ ← consumeChar '('
      skipWs
      let r ← attempt (any false)
      skipWs
      let _ ← consumeChar ')'
      liftE r
    else deTuple (contentSeq ')' (any false))

/-- src/de/mod.rs:378-411: `deserialize_any` on the next character, for `Content`. -/
def contentChar (any : Bool → P Content) (sc : Bool) : P Content := do
  let c ← peekCharOrEof
  let s ← getSt
  if c == '(' then contentStruct any sc none
  else if c == '[' then deSeq (contentSeq ']' (any false))
  else if c == '{' then deMap (contentMap '}' (any false) (any false))
  else if isDigit c || c == '+' || c == '-' || c == '.' || c == 'b' then
    if c == 'b' && !startsWith s.rest c!"b'" then
      let b ← byteString
      pure (.bytes b)
    else if ← consumeStr c!"..=" then
      let e ← anyNumber
      let b ← liftE (Content.ofNumber e)
      pure (.map [(.str c!"end", b)])
    else if ← consumeStr c!".." then
      if (match s.rest.drop 2 with | [] => false | c :: _ => isNumberStart s.rest c) then
        let e ← anyNumber
        let b ← liftE (Content.ofNumber e)
        pure (.map [(.str c!"end", b)])
      else pure .unit
    else
      let n ← anyNumber
      contentRange n
  else if c == '"' || c == 'r' then
    let t ← string
    pure (.str t)
  else if c == '\'' then
    let ch ← charLit
    pure (.char ch)
  else fail (.unexpectedChar c)

/-- src/de/mod.rs:347-411: `deserialize_any` outside of an unwrapped newtype variant, for `Content`. -/
def contentPlain (any : Bool → P Content) (sc : Bool) : P Content := do
  if ← consumeIdent c!"true" then pure (.bool true)
  else if ← consumeIdent c!"false" then pure (.bool false)
  else if ← checkIdent c!"Some" then deOption .none (do let v ← any false; pure (.some v))
  else if ← consumeIdent c!"None" then pure .none
  else if ← consumeStr c!"()" then pure .unit
  else if ← consumeIdent c!"inf" then contentRange (.f32 F32.inf)
  else if ← consumeIdent c!"inff32" then contentRange (.f32 F32.inf)
  else if ← consumeIdent c!"inff64" then contentRange (.f64 F64.inf)
  else if ← consumeIdent c!"NaN" then contentRange (.f32 F32.nan)
  else if ← consumeIdent c!"NaNf32" then contentRange (.f32 F32.nan)
  else if ← consumeIdent c!"NaNf64" then contentRange (.f64 F64.nan)
  else
    match ← skipIdentifier with
    | some id =>
      skipWs
      contentStruct any sc (some id)
    | none => contentChar any sc

/-- src/de/mod.rs:313-412 `deserialize_any` for `Content`, with `any` for the nested calls. -/
def contentBody (any : Bool → P Content) (sc : Bool) : P Content := do
  let s ← getSt
  if s.nv then
    if ← checkChar ')' then
      deUnit
      pure .unit
    else
      match ← checkStructType .insideNewtype .differentiate with
      | .named => structAfterName [] (contentMap ')' contentIdent (any false))
      | .emptyTuple => deTuple (contentSeq ')' (any false))
      | .nonNewtypeTuple => deTuple (contentSeq ')' (any false))
      | _ =>
        setNv false
        contentPlain any sc
  else contentPlain any sc

/-- src/de/mod.rs:313-412 `deserialize_any` for `Content`. -/
def contentAny : Nat → Bool → P Content
  | 0, _ => fail .fuel
  | f + 1, sc => contentBody (contentAny f) sc

/-- `Content::deserialize` with enough fuel for the remaining input. -/
def deContent : P Content := do
  let s ← getSt
  contentAny (2 * s.rest.length + 2) false

end

end Ron
