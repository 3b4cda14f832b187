import Verif.Model.Parser
import Verif.Model.Ser
/-!
# Opening a document: src/de/mod.rs:45-167 and src/options.rs:100-209

A `DeserializeSeed` is an arbitrary program `f : P α` over the deserializer state: what it may do to the
deserializer is bounded by its API, which the parser primitives and Model/De describe.
-/

namespace Ron

variable [Env]

/-- src/de/mod.rs:55-67 `Deserializer::from_str_with_options`. -/
def deNew (o : Options) : P Unit := do
  modSt fun s => { s with limit := o.recursionLimit }
  parserNew
  modSt fun s => { s with exts := s.exts.union o.defaultExtensions }

/-- src/de/mod.rs:159-167 `Deserializer::end`. -/
def deEnd : P Unit := do
  skipWs
  let s ← getSt
  if s.rest.isEmpty then pure () else fail .trailingCharacters

/-- src/options.rs:169-183 `from_str_seed` as a parser program. -/
def readDoc {α : Type} (o : Options) (f : P α) : P α := do
  deNew o
  let a ← f
  deEnd
  pure a

/-- `SpannedResult<T>`, src/error.rs. -/
abbrev Spanned (α : Type) := Except (Err × Span) α

/-- src/parse.rs:137-145 `span_error`: attach the position to an error. -/
def spanned {α : Type} : Res α → Spanned α
  | .ok a _ => .ok a
  | .err e s => .error (e, s.span)

/-- src/options.rs:169-183 `from_str_seed`; every error of the three stages is positioned by `span_error`. -/
def fromStr {α : Type} (o : Options) (f : P α) (t : Text) : Spanned α := spanned (readDoc o f (St.init t))

/-- The span of src/de/mod.rs:84-87 and src/options.rs:157-160: from the start to the end of the text. -/
def spanTo (t : Text) : Span := { start := ⟨1, 1⟩, stop := Position.fromSrcEnd t }

/-- src/options.rs:188-201 `from_bytes_seed` with src/de/mod.rs:71-89 `from_bytes_with_options`. -/
def fromBytes {α : Type} (o : Options) (f : P α) (bs : List UInt8) : Spanned α :=
  match utf8Dec bs with
  | some t => fromStr o f t
  | none => .error (.utf8Error, spanTo (utf8ValidPrefix bs))

/-- A reader: the bytes it delivers and, if it fails, the message of its error (`Read::read_to_end`). -/
structure Reader where
  bytes : List UInt8
  error : Option Text := none

/-- src/options.rs:136-165 `from_reader_seed`. -/
def fromReader {α : Type} (o : Options) (f : P α) (r : Reader) : Spanned α :=
  match r.error with
  | none => fromBytes o f r.bytes
  | some m => .error (.io m, spanTo (utf8ValidPrefix r.bytes))

end Ron
