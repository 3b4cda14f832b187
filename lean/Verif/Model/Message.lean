import Verif.Model.Parser
import Verif.Model.Ser
/-!
# Model of the texts of errors

`Display` of `Error`, `Position`, `Span` and `SpannedError` in src/error.rs.
-/

namespace Ron

section
variable [Env]

/-- A character inside `{:?}` of std, between quotes `q` (external): as `char::escape_debug`, but of the two quotes only `q` is escaped. -/
def debugEsc (q c : Char) : Text :=
  if (c = '\'' || c = '"') && c != q then [c] else escapeDebug c

/-- `{:?}` of a `char` (std). -/
def debugChar (c : Char) : Text := '\'' :: (debugEsc '\'' c ++ ['\''])

/-- `{:?}` of a `str` (std). -/
def debugStr (t : Text) : Text := '"' :: (t.flatMap (debugEsc '"') ++ ['"'])

/-- src/error.rs:491-505 `Display for Identifier`. -/
def showIdent (n : Text) : Text :=
  if n.isEmpty || !n.all isIdentRaw then debugStr n ++ c!"_[invalid identifier]"
  else
    match n with
    | [] => []
    | c :: cs => if !isIdentFirst c || !cs.all Env.xidCont then c!"`r#" ++ n ++ c!"`" else c!"`" ++ n ++ c!"`"

/-- src/error.rs:479-483: the alternatives between the first and the last. -/
def showMore : List Text → Text
  | [] => []
  | [an] => c!", or " ++ showIdent an ++ c!" instead"
  | a :: alts => c!", " ++ showIdent a ++ showMore alts

/-- src/error.rs:465-487 `Display for OneOf`. -/
def showOneOf (noun : Text) : List Text → Text
  | [] => c!"there are no " ++ noun
  | [a1] => c!"expected " ++ showIdent a1 ++ c!" instead"
  | [a1, a2] => c!"expected either " ++ showIdent a1 ++ c!" or " ++ showIdent a2 ++ c!" instead"
  | a1 :: alts => c!"expected one of " ++ showIdent a1 ++ showMore alts

/-- src/error.rs:225-227, 244-246, 260-263, 268-271: ` in ..`. -/
def showIn (what : Text) : Option Text → Text
  | none => []
  | some o => what ++ showIdent o

/-- src/error.rs:204-208: a number of elements. -/
def showCount : Nat → Text
  | 0 => c!"zero elements"
  | 1 => c!"one element"
  | n => natText n ++ c!" elements"

/-- src/error.rs:124-293 `Display for Error`.  `u` is the text of std's `Utf8Error`.  The two codes of the model that are not errors of the
crate have no text. -/
def Err.show (u : Text) : Err → Text
  | .fuel => []
  | .panic => []
  | .fmt => c!"Formatting RON failed"
  | .io s => s
  | .message s => s
  | .eof => c!"Unexpected end of RON"
  | .expectedArray => c!"Expected opening `[`"
  | .expectedArrayEnd => c!"Expected closing `]`"
  | .expectedAttribute => c!"Expected an `#![enable(...)]` attribute"
  | .expectedAttributeEnd => c!"Expected closing `)]` after the enable attribute"
  | .expectedBoolean => c!"Expected boolean"
  | .expectedComma => c!"Expected comma"
  | .expectedChar => c!"Expected char"
  | .expectedByteLiteral => c!"Expected byte literal"
  | .expectedFloat => c!"Expected float"
  | .floatUnderscore => c!"Unexpected underscore in float"
  | .expectedInteger => c!"Expected integer"
  | .expectedOption => c!"Expected option"
  | .expectedOptionEnd => c!"Expected closing `)`"
  | .expectedStructLikeEnd => c!"Expected closing `)`"
  | .expectedMap => c!"Expected opening `{`"
  | .expectedMapColon => c!"Expected colon"
  | .expectedMapEnd => c!"Expected closing `}`"
  | .expectedDifferentStructName e f => c!"Expected struct " ++ (showIdent e ++ (c!" but found " ++ showIdent f))
  | .expectedStructLike => c!"Expected opening `(`"
  | .expectedNamedStructLike n =>
    if n.isEmpty then c!"Expected only opening `(`, no name, for un-nameable struct" else c!"Expected opening `(` for struct " ++ showIdent n
  | .expectedUnit => c!"Expected unit"
  | .expectedString => c!"Expected string"
  | .expectedByteString => c!"Expected byte string"
  | .expectedStringEnd => c!"Expected end of string"
  | .expectedIdentifier => c!"Expected identifier"
  | .invalidEscape s => s
  | .integerOutOfBounds => c!"Integer is out of bounds"
  | .invalidIntegerDigit d b => c!"Invalid digit " ++ (debugChar d ++ (c!" for base " ++ (natText b ++ c!" integers")))
  | .noSuchExtension n => c!"No RON extension named " ++ showIdent n
  | .utf8Error => u
  | .unclosedBlockComment => c!"Unclosed block comment"
  | .unclosedLineComment =>
    c!"`ron::value::RawValue` cannot end in unclosed line comment, try using a block comment or adding a newline"
  | .underscoreAtBeginning => c!"Unexpected leading underscore in a number"
  | .unexpectedChar c => c!"Unexpected char " ++ debugChar c
  | .trailingCharacters => c!"Non-whitespace trailing characters"
  | .invalidValueForType e f => c!"Expected " ++ (e ++ (c!" but found " ++ (f ++ c!" instead")))
  | .expectedDifferentLength e n => c!"Expected " ++ (e ++ (c!" but found " ++ (showCount n ++ c!" instead")))
  | .noSuchEnumVariant e f o =>
    c!"Unexpected " ++ ((if o.isNone then c!"enum " else []) ++
      (c!"variant named " ++ (showIdent f ++ (showIn c!" in enum " o ++ (c!", " ++ showOneOf c!"variants" e)))))
  | .noSuchStructField e f o =>
    c!"Unexpected field named " ++ (showIdent f ++ (showIn c!" in " o ++ (c!", " ++ showOneOf c!"fields" e)))
  | .missingStructField n o => c!"Unexpected missing field named " ++ (showIdent n ++ showIn c!" in " o)
  | .duplicateStructField n o => c!"Unexpected duplicate field named " ++ (showIdent n ++ showIn c!" in " o)
  | .invalidIdentifier n => c!"Invalid identifier " ++ debugStr n
  | .suggestRawIdentifier n =>
    c!"Found invalid std identifier " ++ (debugStr n ++ (c!", try the raw identifier `r#" ++ (n ++ c!"` instead")))
  | .expectedRawValue => c!"Expected a `ron::value::RawValue`"
  | .exceededRecursionLimit =>
    c!"Exceeded recursion limit, try increasing `ron::Options::recursion_limit` and using `serde_stacker` to protect against a stack overflow"
  | .expectedStructName n => c!"Expected the explicit struct name " ++ (showIdent n ++ c!", but none was found")
  | .expectedRangeSyntax => c!"Expected `..` or `..=` for range syntax"

/-- src/error.rs:310-314 `Display for Position`. -/
def Position.show (p : Position) : Text := natText p.line ++ (':' :: natText p.col)

/-- src/error.rs:325-333 `Display for Span`. -/
def Span.show (s : Span) : Text := if s.start = s.stop then s.start.show else s.start.show ++ ('-' :: s.stop.show)

/-- src/error.rs:118-122 `Display for SpannedError`. -/
def showSpanned (u : Text) (e : Err) (s : Span) : Text := s.show ++ (c!": " ++ e.show u)

end

end Ron
