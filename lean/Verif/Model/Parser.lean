import Verif.Model.Utf8
/-!
# The token parser, src/parse.rs

A cursor (`ParserCursor.cursor`, a byte offset) is the suffix of the source that starts there.
-/

namespace Ron

/-- State of `Parser` (src/parse.rs:62-75) and of `Deserializer` (src/de/mod.rs:36-42) in one record.
`serde_content_newtype` is only set while data is read into serde's `Content`; Model/Content passes it as an argument. -/
structure St where
  /-- `Parser::src`, the whole document -/
  src : Text
  /-- `Parser::cursor.cursor` -/
  rest : Text
  /-- `Parser::cursor.pre_ws_cursor` -/
  preWs : Text
  /-- `Parser::cursor.last_ws_len` counted in characters; `none` is `WS_CURSOR_UNCLOSED_LINE` -/
  lastWs : Option Nat
  /-- `Parser::prev_cursor.cursor` -/
  prev : Text
  /-- `Parser::exts` -/
  exts : Exts
  /-- `Deserializer::newtype_variant` -/
  nv : Bool
  /-- `Deserializer::last_identifier` -/
  lastIdent : Option Text
  /-- `Deserializer::recursion_limit` -/
  limit : Option Nat
deriving DecidableEq, Repr

/-- src/parse.rs:70-75 `ParserCursor`. -/
structure Cur where
  rest : Text
  preWs : Text
  lastWs : Option Nat

/-- Result of a parser function.  Rust keeps the parser state on errors (it is read by `span_error`), so do we. -/
inductive Res (α : Type) where
  | ok (a : α) (s : St)
  | err (e : Err) (s : St)
deriving DecidableEq, Repr

/-- A parser function. -/
def P (α : Type) := St → Res α

/-- `?` propagation. -/
@[inline] def P.bind {α β : Type} (f : P α) (g : α → P β) : P β := fun s =>
  match f s with
  | .ok a s' => g a s'
  | .err e s' => .err e s'

instance : Monad P where
  pure a := fun s => .ok a s
  bind := P.bind

/-- `return Err(e)`. -/
def fail {α : Type} (e : Err) : P α := fun s => .err e s

/-- read the state -/
def getSt : P St := fun s => .ok s s

/-- change the state -/
def modSt (f : St → St) : P Unit := fun s => .ok () (f s)

/-- `Result` as a value, keeping the state (`match self.f() { Ok.. Err.. }`). -/
def attempt {α : Type} (f : P α) : P (Except Err α) := fun s =>
  match f s with
  | .ok a s' => .ok (.ok a) s'
  | .err e s' => .ok (.error e) s'

/-- `map_err`. -/
def mapErr {α : Type} (g : Err → Err) (f : P α) : P α := fun s =>
  match f s with
  | .ok a s' => .ok a s'
  | .err e s' => .err (g e) s'

/-- `self.cursor`. -/
def cursor : P Cur := fun s => .ok ⟨s.rest, s.preWs, s.lastWs⟩ s

/-- src/parse.rs:133-135 `set_cursor`. -/
def setCursor (c : Cur) : P Unit := modSt fun s => { s with rest := c.rest, preWs := c.preWs, lastWs := c.lastWs }

/-- src/parse.rs:151-154 `advance_bytes` (argument in characters).  Beyond the end of the source the next `src()` (128-131) would
panic; here the step itself does. -/
def advance (n : Nat) : P Unit := fun s =>
  if n ≤ s.rest.length then .ok () { s with prev := s.rest, rest := s.rest.drop n } else .err .panic s

/-- src/parse.rs:156-160 `next_char`: does not update `prev_cursor`. -/
def nextChar : P Char := fun s =>
  match s.rest with
  | [] => .err .eof s
  | c :: r => .ok c { s with rest := r }

/-- src/parse.rs:162-164 `skip_next_char`. -/
def skipNextChar : P Unit := modSt fun s => { s with rest := s.rest.drop 1 }

/-- src/parse.rs:166-168 `peek_char`. -/
def peekChar : P (Option Char) := fun s => .ok s.rest.head? s

/-- src/parse.rs:170-172 `peek_char_or_eof`. -/
def peekCharOrEof : P Char := fun s =>
  match s.rest with
  | [] => .err .eof s
  | c :: _ => .ok c s

/-- `str::starts_with` (std). -/
def startsWith (t pre : Text) : Bool := pre.isPrefixOf t

/-- src/parse.rs:178-180 `check_str`. -/
def checkStr (t : Text) : P Bool := fun s => .ok (startsWith s.rest t) s

/-- src/parse.rs:174-176 `check_char`. -/
def checkChar (c : Char) : P Bool := checkStr [c]

/-- src/parse.rs:190-198 `consume_str`. -/
def consumeStr (t : Text) : P Bool := fun s =>
  if startsWith s.rest t then .ok true { s with prev := s.rest, rest := s.rest.drop t.length }
  else .ok false s

/-- src/parse.rs:200-208 `consume_char`. -/
def consumeChar (c : Char) : P Bool := consumeStr [c]

/-- src/parse.rs:224-230 `expect_char`. -/
def expectChar (c : Char) (e : Err) : P Unit := do
  if ← consumeChar c then pure () else fail e

/-- src/parse.rs:231-242 `next_chars_while_len`, `next_chars_while_from_len`. -/
def whileLen (f : Char → Bool) (t : Text) : Nat := (t.takeWhile f).length

/-- src/parse.rs:147-149 `is_number_start`, with the remaining source `t`. -/
def isNumberStart (t : Text) (c : Char) : Bool :=
  (isDigit c || c == '+' || c == '-' || c == '.' || c == 'b') && (c != 'b' || startsWith t c!"b'")

/-! ### Layout -/

/-- src/parse.rs:1442-1446 `Comment`. -/
inductive Comment
  | closedLine | unclosedLine | block
deriving DecidableEq

/-- src/parse.rs:1413-1429, the `while level > 0` loop of `skip_comment`. -/
def blockLoop : Nat → Nat → P Unit
  | _, 0 => pure ()
  | 0, _ + 1 => fail .fuel
  | f + 1, level + 1 => do
    let s ← getSt
    let n := whileLen (fun c => !(c == '/' || c == '*')) s.rest
    if s.rest.isEmpty then fail .unclosedBlockComment
    else
      advance n
      if ← consumeStr c!"/*" then blockLoop f (level + 2)
      else if ← consumeStr c!"*/" then blockLoop f level
      else
        let _ ← mapErr (fun _ => .unclosedBlockComment) nextChar
        blockLoop f (level + 1)

/-- src/parse.rs:1396-1439 `skip_comment`. -/
def skipComment : P (Option Comment) := do
  if ← consumeChar '/' then
    let c ← nextChar
    if c == '/' then
      let s ← getSt
      advance (whileLen (fun c => c != '\n') s.rest)
      let s ← getSt
      if s.rest.isEmpty then pure (some .unclosedLine) else pure (some .closedLine)
    else if c == '*' then
      let s ← getSt
      blockLoop (s.rest.length + 1) 1
      pure (some .block)
    else fail (.unexpectedChar c)
  else pure none

/-- src/parse.rs:1073-1084, the loop of `skip_ws`; `true` means "left by an unclosed line comment". -/
def skipWsLoop : Nat → P Bool
  | 0 => fail .fuel
  | f + 1 => do
    let s ← getSt
    advance (whileLen isWs s.rest)
    match ← skipComment with
    | none => pure false
    | some .unclosedLine => pure true
    | some _ => skipWsLoop f

/-- src/parse.rs:1062-1067: start of `skip_ws`. `pre_ws_cursor + last_ws_len < cursor` is
`|rest| + last_ws_len < |preWs|` in terms of suffix lengths. -/
def St.trackWs (s : St) : St :=
  match s.lastWs with
  | some k => if s.rest.length + k < s.preWs.length then { s with preWs := s.rest } else s
  | none => s

/-- src/parse.rs:1061-1089 `skip_ws`. -/
def skipWs : P Unit := do
  modSt St.trackWs
  let s ← getSt
  if s.rest.isEmpty then pure ()
  else
    if ← skipWsLoop (s.rest.length + 1) then
      modSt fun s => { s with lastWs := none }
    else
      modSt fun s => { s with lastWs := some (s.preWs.length - s.rest.length) }

/-- src/parse.rs:1091-1093 `has_unclosed_line_comment`. -/
def hasUnclosedLineComment : P Bool := fun s => .ok (s.rest.isEmpty && s.lastWs.isNone) s

/-- src/parse.rs:210-222 `consume_all`: every element is tried, even after a mismatch. -/
def consumeAll : List Text → Bool → P Bool
  | [], acc => pure acc
  | t :: ts, acc => do
    if ← consumeStr t then
      skipWs
      consumeAll ts acc
    else consumeAll ts false

/-- src/parse.rs:551-561 `comma`. -/
def comma : P Bool := do
  skipWs
  if ← consumeChar ',' then
    skipWs
    pure true
  else pure false

/-! ### Identifiers -/

variable [Env]

/-- src/parse.rs:569-574 `check_ident_other_char` on the text after the index. -/
def headXid (t : Text) : Bool :=
  match t with
  | [] => false
  | c :: _ => Env.xidCont c

/-- src/parse.rs:565-567 `check_ident`. -/
def checkIdent (t : Text) : P Bool := fun s =>
  .ok (startsWith s.rest t && !headXid (s.rest.drop t.length)) s

/-- src/parse.rs:703-711 `consume_ident`. -/
def consumeIdent (t : Text) : P Bool := do
  if ← checkIdent t then
    advance t.length
    pure true
  else pure false

/-- The (raw) (byte) string prefixes tested by src/parse.rs:923-930 and 976-983. -/
def startsStringLike (t : Text) : Bool :=
  startsWith t c!"b\"" || startsWith t c!"b'" || startsWith t c!"br#" || startsWith t c!"br\"" ||
  startsWith t c!"r\"" || startsWith t c!"r#\"" || startsWith t c!"r##"

/-- src/parse.rs:921-958 `skip_identifier`. -/
def skipIdentifier : P (Option Text) := do
  let s ← getSt
  if startsStringLike s.rest then pure none
  else if startsWith s.rest c!"r#" then
    let len := whileLen isIdentRaw (s.rest.drop 2)
    if len > 0 then
      advance (2 + len)
      pure (some ((s.rest.drop 2).take len))
    else pure none
  else
    match s.rest with
    | [] => pure none
    | c :: r =>
      if isIdentFirst c then
        let len := 1 + whileLen Env.xidCont r
        advance len
        pure (some (s.rest.take len))
      else pure none

/-- src/parse.rs:960-1030 `identifier`. -/
def identifier : P Text := do
  let first ← peekCharOrEof
  let s ← getSt
  if !isIdentFirst first then
    if isIdentRaw first then
      fail (.suggestRawIdentifier (s.rest.takeWhile isIdentRaw))
    else fail .expectedIdentifier
  else if startsStringLike s.rest then fail .expectedIdentifier
  else if startsWith s.rest c!"r#" then
    let backup ← cursor
    advance 2
    let s ← getSt
    if !(match s.rest with | [] => false | c :: _ => isIdentRaw c) then
      setCursor backup
      fail .expectedIdentifier
    else
      let len := whileLen isIdentRaw s.rest
      advance len
      pure (s.rest.take len)
  else
    let std := if first == 'r' then whileLen Env.xidCont s.rest else 1 + whileLen Env.xidCont (s.rest.drop 1)
    let raw := whileLen isIdentRaw s.rest
    if raw > std then fail (.suggestRawIdentifier (s.rest.take raw))
    else
      advance std
      pure (s.rest.take std)

/-- src/parse.rs:713-742 `consume_struct_name`. -/
def consumeStructName (ident : Text) : P Bool := do
  if ← checkIdent [] then
    let s ← getSt
    if s.exts.explicitStructNames then fail (.expectedStructName ident)
    else pure false
  else
    match ← attempt identifier with
    | .error (.suggestRawIdentifier found) =>
      if found = ident then fail (.suggestRawIdentifier found) else fail (.expectedNamedStructLike ident)
    | .error _ => fail (.expectedNamedStructLike ident)
    | .ok found =>
      if ident.isEmpty then fail (.expectedNamedStructLike ident)
      else if found ≠ ident then fail (.expectedDifferentStructName ident found)
      else pure true

/-! ### Escapes, strings, characters -/

/-- src/parse.rs:1287-1300 `decode_hex`. -/
def decodeHex (c : Char) : Option Nat :=
  if '0' ≤ c && c ≤ '9' then some (c.toNat - 48)
  else if 'a' ≤ c && c ≤ 'f' then some (10 + c.toNat - 97)
  else if 'A' ≤ c && c ≤ 'F' then some (10 + c.toNat - 65)
  else none

/-- `decode_hex(c)?`. -/
def decodeHexP (c : Char) : P Nat :=
  match decodeHex c with
  | some n => pure n
  | none => fail (.invalidEscape c!"Non-hex digit found")

/-- src/parse.rs:1275-1285 `decode_ascii_escape`. -/
def decodeAsciiEscape : P Nat := do
  let c1 ← nextChar
  let d1 ← decodeHexP c1
  let c2 ← nextChar
  let d2 ← decodeHexP c2
  pure (d1 * 16 + d2)

/-- src/parse.rs:1789-1792 `EscapeEncoding`. -/
inductive EscEnc
  | binary | utf8
deriving DecidableEq

/-- src/parse.rs:1794-1797 `EscapeCharacter`. -/
inductive EscChar
  | ascii (b : UInt8)
  | utf8 (c : Char)
deriving DecidableEq

/-- The bytes that escaped_byte_buf pushes for an escape (src/parse.rs:1219-1227). -/
def EscChar.bytes : EscChar → List UInt8
  | .ascii b => [b]
  | .utf8 c => utf8Enc c

/-- `from_utf8(&bytes[..=i]).map(|s| s.chars().next())` (src/parse.rs:1319, 1344). -/
def utf8One (bs : List UInt8) : Option Char := (utf8Dec bs).bind List.head?

/-- The error used three times in src/parse.rs:1326-1351. -/
def badByteEscape : Err := .invalidEscape c!"Not a valid byte-escaped Unicode character"

/-- src/parse.rs:1334-1347: collect up to `n` further `\x..` escapes until they form a character. -/
def moreBytes : Nat → List UInt8 → P Char
  | 0, _ => fail badByteEscape
  | n + 1, acc => do
    if ← consumeStr c!"\\x" then
      let b ← decodeAsciiEscape
      let acc := acc ++ [UInt8.ofNat b]
      match utf8One acc with
      | some c => pure c
      | none => moreBytes n acc
    else fail badByteEscape

/-- src/parse.rs:1359-1373: read up to `n` hex digits of `\u{..}`; returns the value and the digit count. -/
def uniDigits : Nat → Nat → Nat → P (Nat × Nat)
  | 0, acc, k => pure (acc, k)
  | n + 1, acc, k => do
    let c ← peekCharOrEof
    if c == '}' then pure (acc, k)
    else
      skipNextChar
      let d ← decodeHexP c
      uniDigits n (acc * 16 + d) (k + 1)

/-- src/parse.rs:1302-1394 `parse_escape`. -/
def parseEscape (enc : EscEnc) (isChar : Bool) : P EscChar := do
  let c ← nextChar
  if c == '\'' then pure (.ascii 39)
  else if c == '"' then pure (.ascii 34)
  else if c == '\\' then pure (.ascii 92)
  else if c == 'n' then pure (.ascii 10)
  else if c == 'r' then pure (.ascii 13)
  else if c == 't' then pure (.ascii 9)
  else if c == '0' then pure (.ascii 0)
  else if c == 'x' then
    let b ← decodeAsciiEscape
    if enc = .binary then pure (.ascii (UInt8.ofNat b))
    else
      match utf8One [UInt8.ofNat b] with
      | some c => pure (.utf8 c)
      | none =>
        if isChar then fail badByteEscape
        else
          let c ← moreBytes 3 [UInt8.ofNat b]
          pure (.utf8 c)
  else if c == 'u' then
    expectChar '{' (.invalidEscape c!"Missing { in Unicode escape")
    let (v, k) ← uniDigits 6 0 0
    if k == 0 then fail (.invalidEscape c!"Expected 1-6 digits, got 0 digits in Unicode escape")
    else
      expectChar '}' (.invalidEscape c!"No } at the end of Unicode escape")
      match charOf? v with
      | some c => pure (.utf8 c)
      | none => fail (.invalidEscape c!"Not a valid Unicode-escaped character")
  else fail (.invalidEscape c!"Unknown escape character")

/-- src/parse.rs:1215-1249, the loop of `escaped_byte_buf`. -/
def escLoop (enc : EscEnc) : Nat → Nat → List UInt8 → P (List UInt8 × Nat)
  | 0, _, _ => fail .fuel
  | f + 1, i, acc => do
    advance (i + 1)
    let e ← parseEscape enc false
    let s ← getSt
    let next := whileLen (fun c => !(c == '"' || c == '\\')) s.rest
    match s.rest.drop next with
    | [] => fail .expectedStringEnd
    | c :: _ =>
      let acc := acc ++ e.bytes ++ utf8EncAll (s.rest.take next)
      if c == '\\' then escLoop enc f next acc
      else pure (acc, next + 1)

/-- src/parse.rs:1205-1256 `escaped_byte_buf`: the bytes and the remaining advance. -/
def escapedByteBuf (enc : EscEnc) : P (List UInt8 × Nat) := do
  let s ← getSt
  let strEnd := whileLen (fun c => c != '"') s.rest
  if strEnd == s.rest.length then fail .expectedStringEnd
  else
    let body := s.rest.take strEnd
    let esc := whileLen (fun c => c != '\\') body
    if esc < body.length then escLoop enc (s.rest.length + 1) esc (utf8EncAll (body.take esc))
    else pure (utf8EncAll body, strEnd + 1)

/-- `str::find` for a pattern (std): index of the first occurrence. -/
def findSub (pat : Text) : Text → Option Nat
  | [] => if pat.isEmpty then some 0 else none
  | c :: r => if startsWith (c :: r) pat then some 0 else (findSub pat r).map (· + 1)

/-- src/parse.rs:1258-1273 `raw_byte_buf`. -/
def rawByteBuf : P (List UInt8 × Nat) := do
  let s ← getSt
  let n := whileLen (fun c => c == '#') s.rest
  let hashes := s.rest.take n
  advance n
  expectChar '"' .expectedString
  let s ← getSt
  match findSub ('"' :: hashes) s.rest with
  | none => fail .expectedStringEnd
  | some i => pure (utf8EncAll (s.rest.take i), i + n + 1)

/-- `ParsedStr::try_from_bytes` (src/parse.rs:1705-1712) and the advance after it (1186-1188, 1197-1199). -/
def finishStr (r : List UInt8 × Nat) : P Text :=
  match utf8Dec r.1 with
  | some t => do advance r.2; pure t
  | none => fail .utf8Error

/-- src/parse.rs:1183-1192 `escaped_string`. -/
def escapedString : P Text := do
  let r ← escapedByteBuf .utf8
  finishStr r

/-- src/parse.rs:1194-1203 `raw_string`. -/
def rawString : P Text := do
  let r ← rawByteBuf
  finishStr r

/-- src/parse.rs:1173-1181 `string`. -/
def string : P Text := do
  if ← consumeChar '"' then escapedString
  else if ← consumeChar 'r' then rawString
  else fail .expectedString

/-- src/parse.rs:1152-1160 `escaped_byte_string`. -/
def escapedByteString : P (List UInt8) := do
  let (b, n) ← escapedByteBuf .binary
  advance n
  pure b

/-- src/parse.rs:1162-1171 `raw_byte_string`. -/
def rawByteString : P (List UInt8) := do
  let (b, n) ← mapErr (fun e => if e = .expectedString then .expectedByteString else e) rawByteBuf
  advance n
  pure b

/-- src/parse.rs:1142-1150 `byte_string_no_base64`. -/
def byteStringNoBase64 : P (List UInt8) := do
  if ← consumeStr c!"b\"" then escapedByteString
  else if ← consumeStr c!"br" then rawByteString
  else fail .expectedByteString

/-- src/parse.rs:531-549 `char`. -/
def charLit : P Char := do
  expectChar '\'' .expectedChar
  let c ← nextChar
  let c ← (if c == '\\' then do
      match ← parseEscape .utf8 true with
      | .ascii b => pure (Char.ofNat b.toNat)
      | .utf8 c => pure c
    else pure c : P Char)
  expectChar '\'' .expectedChar
  pure c

/-- src/parse.rs:521-529 `bool`. -/
def bool : P Bool := do
  if ← consumeIdent c!"true" then pure true
  else if ← consumeIdent c!"false" then pure false
  else fail .expectedBoolean

/-! ### Base64 recognition -/

/-- src/parse.rs:1722-1723 `CHARSET.iter().position(..)`. -/
def base64Index (c : Char) : Option Nat :=
  if 'A' ≤ c && c ≤ 'Z' then some (c.toNat - 65)
  else if 'a' ≤ c && c ≤ 'z' then some (c.toNat - 97 + 26)
  else if '0' ≤ c && c ≤ '9' then some (c.toNat - 48 + 52)
  else if c == '+' then some 62
  else if c == '/' then some 63
  else none

/-- src/parse.rs:1751-1770, the decode loop.  `bits` = `collected_bits`, `buf` = `byte_buffer` (u16).
One step of the model is one consumed input byte followed by the push if 8 bits are available (`collected_bits`
is below 8 whenever a byte is consumed, so at most one push follows). Result: remaining bits and output. -/
def base64Loop : Text → Nat → Nat → List UInt8 → Option (Nat × List UInt8)
  | [], bits, _, out => some (bits, out)
  | c :: cs, bits, buf, out =>
    match base64Index c with
    | none => none
    | some idx =>
      let buf := buf ||| (idx <<< (10 - bits))
      let bits := bits + 6
      if bits ≥ 8 then base64Loop cs (bits - 8) ((buf % 256) * 256) (out ++ [UInt8.ofNat (buf / 256)])
      else base64Loop cs bits buf out

/-- src/parse.rs:1719-1777 `try_decode_base64`. (`str.len()` is the byte length; non-ASCII input is rejected.) -/
def tryDecodeBase64 (t : Text) : Option (List UInt8) :=
  let len := (utf8EncAll t).length
  if len % 4 ≠ 0 then none
  else
    let noPad := (t.reverse.dropWhile (· == '=')).reverse
    let pad := t.length - noPad.length
    if pad > 2 then none
    else if noPad.contains '=' then none
    else if !t.all (fun c => c.toNat < 128) then none
    else
      match base64Loop noPad 0 0 [] with
      | none => none
      | some (bits, out) => if bits ≠ pad * 2 then none else some out

/-- lower-case hexadecimal digit -/
def hexChar (n : Nat) : Char := if n < 10 then Char.ofNat (48 + n) else Char.ofNat (87 + n)

/-- `core::ascii::escape_default` (std). -/
def escapeDefault (b : UInt8) : Text :=
  let n := b.toNat
  if n = 9 then c!"\\t" else if n = 13 then c!"\\r" else if n = 10 then c!"\\n"
  else if n = 39 then c!"\\'" else if n = 34 then c!"\\\"" else if n = 92 then c!"\\\\"
  else if 32 ≤ n ∧ n < 127 then [Char.ofNat n]
  else ['\\', 'x', hexChar (n / 16), hexChar (n % 16)]

/-- src/parse.rs:1096-1117 `expected_byte_string_found_base64`; the `found` text (a `{:?}` of the string) is
represented by the string itself. -/
def base64Error (t : Text) : Err :=
  match tryDecodeBase64 t with
  | some bs => .invalidValueForType (c!"the Rusty byte string b\"" ++ bs.flatMap escapeDefault ++ c!"\"") t
  | none => .expectedByteString

/-- src/parse.rs:1095-1140 `byte_string`. -/
def byteString : P (List UInt8) := do
  if ← consumeChar '"' then
    let t ← escapedString
    fail (base64Error t)
  else if ← consumeChar 'r' then
    let t ← rawString
    fail (base64Error t)
  else byteStringNoBase64

/-! ### Integers -/

/-- src/parse.rs:247-281 `parse_integer_digits`.  `whole` is `s.len()`, `i` the index of the next character. -/
def intDigits (t : IntTy) (neg : Bool) (base : Nat) (whole : Nat) : Text → Nat → Int → P Int
  | [], _, acc => do
    advance whole
    pure acc
  | c :: cs, i, acc =>
    if c == '_' then intDigits t neg base whole cs (i + 1) acc
    else
      let m := acc * base
      if ¬ t.InRange m then do
        advance whole
        fail .integerOutOfBounds
      else do
        let d ← decodeHexP c
        if d ≥ base then
          advance i
          fail (.invalidIntegerDigit c base)
        else
          let a := if neg then m - d else m + d
          if ¬ t.InRange a then
            advance whole
            fail .integerOutOfBounds
          else intDigits t neg base whole cs (i + 1) a

/-- src/parse.rs:287-302 `parse_integer::<T>`. -/
def parseInteger (t : IntTy) (neg : Bool) (base : Nat) : P Int := do
  let s ← getSt
  let n := whileLen isIntChar s.rest
  if n == 0 then fail .expectedInteger
  else if startsWith s.rest ['_'] then fail .underscoreAtBeginning
  else intDigits t neg base n (s.rest.take n) 0 0

/-- The target of `integer::<T>`: a concrete type or `ParsedInteger`. -/
inductive IntTarget
  | one (t : IntTy)
  | any
deriving DecidableEq

/-- src/parse.rs:53-60 `LargeUInt`. -/
def largeU : IntTy := if Env.int128 then .u128 else .u64
/-- src/parse.rs:53-60 `LargeSInt`. -/
def largeS : IntTy := if Env.int128 then .i128 else .i64

/-- src/parse.rs:1571-1588: smallest signed type holding a value (that already fits `LargeSInt`). -/
def smallestS (v : Int) : IntTy :=
  if IntTy.InRange .i8 v then .i8
  else if IntTy.InRange .i16 v then .i16
  else if IntTy.InRange .i32 v then .i32
  else if !Env.int128 then .i64
  else if IntTy.InRange .i64 v then .i64
  else .i128

/-- src/parse.rs:1593-1610: smallest unsigned type holding a value. -/
def smallestU (v : Int) : IntTy :=
  if IntTy.InRange .u8 v then .u8
  else if IntTy.InRange .u16 v then .u16
  else if IntTy.InRange .u32 v then .u32
  else if !Env.int128 then .u64
  else if IntTy.InRange .u64 v then .u64
  else .u128

/-- `T::parse` (src/parse.rs:1518-1520 and 1567-1611). -/
def IntTarget.parse (tg : IntTarget) (neg : Bool) (base : Nat) : P (IntTy × Int) :=
  match tg with
  | .one t => do let v ← parseInteger t neg base; pure (t, v)
  | .any =>
    if neg then do
      let v ← parseInteger largeS true base
      pure (smallestS v, v)
    else do
      let v ← parseInteger largeU false base
      pure (smallestU v, v)

/-- decimal digits of a number as `{}` prints them -/
def natText (n : Nat) : Text := Nat.toDigits 10 n

/-- The `expected` text of src/parse.rs:1526-1531. -/
def intExpected (t : IntTy) : Text :=
  c!"an " ++ natText t.bits ++ c!"-bit " ++ (if t.signed then [] else c!"un") ++ c!"signed integer"

/-- `T::try_from_parsed_integer` (src/parse.rs:1522-1535 and 1613-1615). -/
def IntTarget.tryFrom (tg : IntTarget) (t : IntTy) (v : Int) (ron : Text) : P (IntTy × Int) :=
  match tg with
  | .any => pure (t, v)
  | .one t' => if t = t' then pure (t, v) else fail (.invalidValueForType (intExpected t') ron)

/-- The order in which src/parse.rs:356-443 tests suffixes. -/
def suffixOrder : List IntTy :=
  [.i8, .i16, .i32, .i64, .u8, .u16, .u32, .u64] ++ (if Env.int128 then [.i128, .u128] else [])

/-- src/parse.rs:356-443: the first suffix that `consume_ident` accepts. -/
def consumeSuffix : List IntTy → P (Option IntTy)
  | [] => pure none
  | t :: ts => do
    if ← consumeIdent t.suffix then pure (some t) else consumeSuffix ts

/-- src/parse.rs:344-349: the base prefix. -/
def basePrefix : P Nat := do
  if ← consumeStr c!"0b" then pure 2
  else if ← consumeStr c!"0o" then pure 8
  else if ← consumeStr c!"0x" then pure 16
  else pure 10

/-- src/parse.rs:316-339: the byte literal after `b'`. -/
def byteLiteral (tg : IntTarget) (backup : Text) : P (IntTy × Int) := do
  let c ← nextChar
  let b ← (if c == '\\' then do
      match ← parseEscape .binary true with
      | .ascii b => pure b.toNat
      | .utf8 _ => fail (.invalidEscape c!"Unexpected Unicode escape in byte literal")
    else if c.toNat < 128 then pure c.toNat
    else fail .expectedByteLiteral : P Nat)
  if ← consumeChar '\'' then
    let s ← getSt
    tg.tryFrom .u8 b (backup.take (backup.length - s.rest.length))
  else fail .expectedByteLiteral

/-- src/parse.rs:342-464: the number after the sign. -/
def unsignedPart (tg : IntTarget) (neg : Bool) (backup : Text) : P (IntTy × Int) := do
  let base ← basePrefix
  let s ← getSt
  let n := whileLen isIntChar s.rest
  let after := s.rest.drop n
  if startsWith after ['i'] || startsWith after ['u'] then
    let intCursor ← cursor
    advance n
    match ← consumeSuffix suffixOrder with
    | some t =>
      let sfx ← getSt
      setCursor intCursor
      let res ← attempt (parseInteger t neg base)
      match res with
      | .error .underscoreAtBeginning => fail .underscoreAtBeginning
      | .error (.invalidIntegerDigit c b) => fail (.invalidIntegerDigit c b)
      | .error e =>
        let _ ← skipIdentifier
        fail e
      | .ok v =>
        let _ ← skipIdentifier
        tg.tryFrom t v (backup.take (backup.length - sfx.rest.length))
    | none =>
      setCursor intCursor
      tg.parse neg base
  else tg.parse neg base

/-- src/parse.rs:304-465 `integer::<T>`. -/
def integer (tg : IntTarget) : P (IntTy × Int) := do
  let s ← getSt
  let c ← peekCharOrEof
  if c == '+' then
    skipNextChar
    unsignedPart tg false s.rest
  else if c == '-' then
    skipNextChar
    unsignedPart tg true s.rest
  else if ← (if c == 'b' then consumeStr c!"b'" else pure false : P Bool) then
    byteLiteral tg s.rest
  else unsignedPart tg false s.rest

/-! ### Floats -/

/-- The target of `float::<T>`: `f32`, `f64` or `ParsedFloat`. -/
inductive FloatTarget
  | f32 | f64 | any
deriving DecidableEq

/-- `T::parse` (src/parse.rs:1627-1629, 1657-1666). `total_cmp` is `Equal` exactly on equal bit patterns. -/
def FloatTarget.parse (tg : FloatTarget) (t : Text) : P Number :=
  match tg with
  | .f32 => match Env.parse32 t with
    | some b => pure (.f32 b)
    | none => fail .expectedFloat
  | .f64 => match Env.parse64 t with
    | some b => pure (.f64 b)
    | none => fail .expectedFloat
  | .any => match Env.parse64 t with
    | some b => if Env.widen (Env.narrow b) = b then pure (.f32 (Env.narrow b)) else pure (.f64 b)
    | none => fail .expectedFloat

/-- `T::try_from_parsed_float` (src/parse.rs:1631-1641, 1668-1670). -/
def FloatTarget.tryFrom (tg : FloatTarget) (v : Number) (ron : Text) : P Number :=
  match tg, v with
  | .any, v => pure v
  | .f32, .f32 b => pure (.f32 b)
  | .f64, .f64 b => pure (.f64 b)
  | .f32, _ => fail (.invalidValueForType c!"a 32-bit floating point number" ron)
  | .f64, _ => fail (.invalidValueForType c!"a 64-bit floating point number" ron)

/-- src/parse.rs:823-830: the table of special literals. -/
def floatLiterals : List (Text × F32 × F64) :=
  [ (c!"inf", F32.inf, F64.inf), (c!"+inf", F32.inf, F64.inf), (c!"-inf", F32.negInf, F64.negInf),
    (c!"NaN", F32.nan, F64.nan), (c!"+NaN", F32.nan, F64.nan), (c!"-NaN", F32.negNan, F64.negNan) ]

/-- src/parse.rs:823-852: the loop over special literals. -/
def floatSpecial (tg : FloatTarget) : List (Text × F32 × F64) → P (Option Number)
  | [] => pure none
  | (lit, v32, v64) :: more => do
    if ← consumeIdent lit then
      let v ← tg.parse lit
      pure (some v)
    else
      let s ← getSt
      if startsWith s.rest (lit ++ c!"f32") && !headXid (s.rest.drop (lit.length + 3)) then
        advance (lit.length + 3)
        let v ← tg.tryFrom (.f32 v32) (s.rest.take (lit.length + 3))
        pure (some v)
      else if startsWith s.rest (lit ++ c!"f64") && !headXid (s.rest.drop (lit.length + 3)) then
        advance (lit.length + 3)
        let v ← tg.tryFrom (.f64 v64) (s.rest.take (lit.length + 3))
        pure (some v)
      else floatSpecial tg more

/-- src/parse.rs:866-883: drop underscores.  `.error i` is an underscore at index `i` where none is allowed. -/
def floatStrip : Text → Nat → Bool → Except Nat Text
  | [], _, _ => .ok []
  | c :: cs, i, allow =>
    if c == '_' then
      if allow then floatStrip cs (i + 1) allow else .error i
    else
      let allow := if isDigit c || c == 'e' || c == 'E' then true else if c == '.' then false else allow
      (floatStrip cs (i + 1) allow).map (c :: ·)

/-- src/parse.rs:819-919 `float::<T>`. -/
def float (tg : FloatTarget) : P Number := do
  match ← floatSpecial tg floatLiterals with
  | some v => pure v
  | none =>
    let s ← getSt
    let raw := s.rest.takeWhile isFloatChar
    let n := (findSub c!".." raw).getD raw.length
    if n == 0 then fail .expectedFloat
    else if startsWith s.rest ['_'] then fail .underscoreAtBeginning
    else
      match floatStrip (s.rest.take n) 0 false with
      | .error i =>
        advance i
        fail .floatUnderscore
      | .ok f =>
        let plain : P Number := do
          let v ← tg.parse f
          advance n
          pure v
        if startsWith (s.rest.drop n) ['f'] then
          let backup ← cursor
          advance n
          let which ← (do
            if ← consumeIdent c!"f32" then pure (some true)
            else if ← consumeIdent c!"f64" then pure (some false)
            else pure none : P (Option Bool))
          match which with
          | some is32 =>
            let parsed := if is32 then (Env.parse32 f).map Number.f32 else (Env.parse64 f).map Number.f64
            match parsed with
            | none =>
              setCursor backup
              fail .expectedFloat
            | some v =>
              let s' ← getSt
              tg.tryFrom v (backup.rest.take (backup.rest.length - s'.rest.length))
          | none =>
            setCursor backup
            plain
        else plain

/-- src/parse.rs:1032-1059 `next_bytes_is_float`. -/
def nextIsFloat (t : Text) : Bool :=
  match t with
  | [] => false
  | c :: r =>
    let u := if c == '+' || c == '-' then r else t
    let raw := u.takeWhile isFloatChar
    let valid := (findSub c!".." raw).getD raw.length
    valid > whileLen isIntChar u

/-- src/parse.rs:467-519 `any_number`. -/
def anyNumber : P Number := do
  if ← consumeIdent c!"inf" then pure (.f32 F32.inf)
  else if ← consumeIdent c!"inff32" then pure (.f32 F32.inf)
  else if ← consumeIdent c!"inff64" then pure (.f64 F64.inf)
  else if ← consumeIdent c!"NaN" then pure (.f32 F32.nan)
  else if ← consumeIdent c!"NaNf32" then pure (.f32 F32.nan)
  else if ← consumeIdent c!"NaNf64" then pure (.f64 F64.nan)
  else
    let s ← getSt
    if nextIsFloat s.rest then float .any
    else
      let backup ← cursor
      match ← attempt (integer .any) with
      | .ok (t, v) => pure (.int t v)
      | .error e =>
        let intCursor ← cursor
        setCursor backup
        match ← attempt (float .any) with
        | .ok v =>
          let s' ← getSt
          if s'.rest.length ≤ intCursor.rest.length then pure v
          else
            setCursor intCursor
            fail e
        | .error _ =>
          setCursor intCursor
          fail e

/-! ### Struct look-ahead -/

/-- src/parse.rs:1673-1680 `StructType`. -/
inductive StructType
  | anyTuple | emptyTuple | newtypeTuple | nonNewtypeTuple | named | unit
deriving DecidableEq

/-- src/parse.rs:1683-1686 `NewtypeMode`. -/
inductive NewtypeMode
  | noParensMeanUnit | insideNewtype
deriving DecidableEq

/-- src/parse.rs:1689-1692 `TupleMode`. -/
inductive TupleMode
  | imprecise | differentiate
deriving DecidableEq

/-- Try a token and roll the cursor back if it does not match.  With `strict`, an unterminated literal
(`ExpectedStringEnd`, `Eof`) is passed on (src/parse.rs:649-667). -/
def tryToken {α : Type} (strict : Bool) (f : P α) : P Unit := do
  let backup ← cursor
  match ← attempt f with
  | .ok _ => pure ()
  | .error e =>
    if strict && (e = .expectedStringEnd || e = .eof) then fail e
    else setCursor backup

/-- src/parse.rs:642-679: look for a second element; returns `more_than_one`. -/
def braceLoop : Nat → Nat → P Bool
  | _, 0 => pure false
  | 0, _ + 1 => fail .fuel
  | f + 1, braces + 1 => do
    skipWs
    tryToken false charLit
    tryToken true string
    tryToken true byteStringNoBase64
    let c ← nextChar
    if c == '(' || c == '[' || c == '{' then braceLoop f (braces + 2)
    else if c == ')' || c == ']' || c == '}' then braceLoop f braces
    else if c == ',' && braces == 0 then
      skipWs
      let more ← checkChar ')'
      pure (!more)
    else braceLoop f (braces + 1)

/-- src/parse.rs:604-685: `check_struct_type_inner` after the identifier check. -/
def structTypeScan (tm : TupleMode) : P StructType := do
  if tm = .imprecise then pure .anyTuple
  else
    let s ← getSt
    let more ← braceLoop (s.rest.length + 1) 1
    pure (if more then .nonNewtypeTuple else .newtypeTuple)

/-- src/parse.rs:596-686 `check_struct_type_inner`. -/
def checkStructTypeInner (nm : NewtypeMode) (tm : TupleMode) : P StructType := do
  let opened ← (if nm = .noParensMeanUnit then consumeChar '(' else pure true : P Bool)
  if !opened then pure .unit
  else
    skipWs
    let closes ← checkChar ')'
    if nm = .noParensMeanUnit && closes then pure .emptyTuple
    else
      match ← skipIdentifier with
      | none => structTypeScan tm
      | some _ =>
        skipWs
        match ← peekChar with
        | some ':' => pure .named
        | some ',' =>
          skipNextChar
          skipWs
          if ← checkChar ')' then pure .newtypeTuple else pure .nonNewtypeTuple
        | some ')' => pure .newtypeTuple
        | _ => structTypeScan tm

/-- src/parse.rs:591-699 `check_struct_type`: the cursor is restored on success. -/
def checkStructType (nm : NewtypeMode) (tm : TupleMode) : P StructType := do
  let backup ← cursor
  let r ← checkStructTypeInner nm tm
  setCursor backup
  pure r

/-! ### Document attributes -/

/-- src/parse.rs:791-817 `extension_list`. -/
def extensionList : Nat → Exts → P Exts
  | 0, _ => fail .fuel
  | f + 1, acc => do
    let id ← identifier
    match Exts.fromIdent id with
    | none => fail (.noSuchExtension id)
    | some e =>
      let acc := acc.union e
      let c ← comma
      let s ← getSt
      if !c && headXid s.rest then fail .expectedComma
      else if !c || !headXid s.rest then pure acc
      else extensionList f acc

/-- src/parse.rs:77-81 `ParsedAttribute`. -/
inductive ParsedAttribute
  | none
  | extensions (e : Exts)
  | ignored

/-- src/parse.rs:745-788 `attribute`. -/
def docAttribute : P ParsedAttribute := do
  if !(← checkChar '#') then pure .none
  else if !(← consumeAll [c!"#", c!"!", c!"["] true) then fail .expectedAttribute
  else
    skipWs
    if ← consumeIdent c!"enable" then
      skipWs
      if !(← consumeStr c!"(") then fail .expectedAttribute
      else
        skipWs
        let s ← getSt
        let e ← extensionList (s.rest.length + 1) Exts.empty
        skipWs
        if ← consumeAll [c!")", c!"]"] true then pure (.extensions e)
        else fail .expectedAttributeEnd
    else
      let isType ← consumeIdent c!"type"
      let isSchema ← (if isType then pure true else consumeIdent c!"schema" : P Bool)
      if isSchema then
        skipWs
        if !(← consumeStr c!"=") then fail .expectedAttribute
        else
          skipWs
          let _ ← string
          skipWs
          if ← consumeStr c!"]" then pure .ignored
          else fail .expectedAttributeEnd
      else fail .expectedAttribute

/-- src/parse.rs:117-128: the attribute loop of `Parser::new`. -/
def attributes : Nat → P Unit
  | 0 => fail .fuel
  | f + 1 => do
    match ← docAttribute with
    | .none => pure ()
    | .extensions e =>
      modSt fun s => { s with exts := s.exts.union e }
      skipWs
      attributes f
    | .ignored =>
      skipWs
      attributes f

/-- The initial state (src/parse.rs:99-112). -/
def St.init (src : Text) : St :=
  { src, rest := src, preWs := src, lastWs := some 0, prev := src, exts := .empty, nv := false,
    lastIdent := none, limit := none }

/-- src/parse.rs:99-131 `Parser::new` from the initial state. -/
def parserNew : P Unit := do
  skipWs
  let s ← getSt
  attributes (s.rest.length + 1)

/-! ### Positions -/

/-- src/error.rs:295-299 `Position`. -/
structure Position where
  line : Nat
  col : Nat
deriving DecidableEq, Repr

/-- src/error.rs:302-307 `Position::from_src_end`. -/
def Position.fromSrcEnd (t : Text) : Position :=
  { line := 1 + (t.filter (· == '\n')).length, col := 1 + (t.reverse.takeWhile (· != '\n')).length }

/-- src/error.rs:316-323 `Span`. -/
structure Span where
  start : Position
  stop : Position
deriving DecidableEq, Repr

/-- `&self.src[..cursor]` for a cursor given as suffix. -/
def St.before (s : St) (cur : Text) : Text := s.src.take (s.src.length - cur.length)

/-- src/parse.rs:137-145 `span_error` (the span part). -/
def St.span (s : St) : Span :=
  { start := Position.fromSrcEnd (s.before s.prev), stop := Position.fromSrcEnd (s.before s.rest) }

end Ron
