import Verif.Model.Message
import Verif.Lemmas.Witness
/-!
# The model against the crate's own tests: texts of errors

The assertions of `error_messages` in src/error.rs:516-700, transcribed.  These are tests of the model, not properties of the code.
-/

namespace Ron.Checks

local instance envM : Env := asciiEnv true true

/-- The text of an error. -/
def says (e : Err) (t : String) : Bool := e.show [] == t.toList

example : says .fmt "Formatting RON failed" := by decide +kernel
example : says (.io c!"my-error") "my-error" := by decide +kernel
example : says (.message c!"my-ser-error") "my-ser-error" := by decide +kernel
example : says .eof "Unexpected end of RON" := by decide +kernel
example : says .expectedArray "Expected opening `[`" := by decide +kernel
example : says .expectedArrayEnd "Expected closing `]`" := by decide +kernel
example : says .expectedAttribute "Expected an `#![enable(...)]` attribute" := by decide +kernel
example : says .expectedAttributeEnd "Expected closing `)]` after the enable attribute" := by decide +kernel
example : says .expectedBoolean "Expected boolean" := by decide +kernel
example : says .expectedComma "Expected comma" := by decide +kernel
example : says .expectedChar "Expected char" := by decide +kernel
example : says .expectedByteLiteral "Expected byte literal" := by decide +kernel
example : says .expectedFloat "Expected float" := by decide +kernel
example : says .floatUnderscore "Unexpected underscore in float" := by decide +kernel
example : says .expectedInteger "Expected integer" := by decide +kernel
example : says .expectedOption "Expected option" := by decide +kernel
example : says .expectedOptionEnd "Expected closing `)`" := by decide +kernel
example : says .expectedStructLikeEnd "Expected closing `)`" := by decide +kernel
example : says .expectedMap "Expected opening `{`" := by decide +kernel
example : says .expectedMapColon "Expected colon" := by decide +kernel
example : says .expectedMapEnd "Expected closing `}`" := by decide +kernel
example : says (.expectedDifferentStructName c!"raw+identifier" c!"identifier") "Expected struct `r#raw+identifier` but found `identifier`" := by
  decide +kernel
example : says .expectedStructLike "Expected opening `(`" := by decide +kernel
example : says (.expectedNamedStructLike []) "Expected only opening `(`, no name, for un-nameable struct" := by decide +kernel
example : says (.expectedNamedStructLike c!"_ident") "Expected opening `(` for struct `_ident`" := by decide +kernel
example : says .expectedUnit "Expected unit" := by decide +kernel
example : says .expectedString "Expected string" := by decide +kernel
example : says .expectedByteString "Expected byte string" := by decide +kernel
example : says .expectedStringEnd "Expected end of string" := by decide +kernel
example : says .expectedIdentifier "Expected identifier" := by decide +kernel
example : says (.invalidEscape c!"Invalid escape") "Invalid escape" := by decide +kernel
example : says .integerOutOfBounds "Integer is out of bounds" := by decide +kernel
example : says (.invalidIntegerDigit 'q' 16) "Invalid digit 'q' for base 16 integers" := by decide +kernel
example : says (.noSuchExtension c!"unknown") "No RON extension named `unknown`" := by decide +kernel
example : says .unclosedBlockComment "Unclosed block comment" := by decide +kernel
example : says .unclosedLineComment
    "`ron::value::RawValue` cannot end in unclosed line comment, try using a block comment or adding a newline" := by decide +kernel
example : says .underscoreAtBeginning "Unexpected leading underscore in a number" := by decide +kernel
example : says (.unexpectedChar '🦀') "Unexpected char '🦀'" := by decide +kernel
example : says .trailingCharacters "Non-whitespace trailing characters" := by decide +kernel
example : says (.invalidValueForType c!"struct `Hi`" c!"an enum") "Expected struct `Hi` but found an enum instead" := by decide +kernel
example : says (.expectedDifferentLength c!"two bees" 0) "Expected two bees but found zero elements instead" := by decide +kernel
example : says (.expectedDifferentLength c!"two bees" 1) "Expected two bees but found one element instead" := by decide +kernel
example : says (.expectedDifferentLength c!"two bees" 3) "Expected two bees but found 3 elements instead" := by decide +kernel
example : says (.noSuchEnumVariant [] c!"unknown" none) "Unexpected enum variant named `unknown`, there are no variants" := by decide +kernel
example : says (.noSuchEnumVariant [c!"A", c!"B+C"] c!"D" (some c!"E"))
    "Unexpected variant named `D` in enum `E`, expected either `A` or `r#B+C` instead" := by decide +kernel
example : says (.noSuchStructField [] c!"unknown" none) "Unexpected field named `unknown`, there are no fields" := by decide +kernel
example : says (.noSuchStructField [c!"a"] c!"b" (some c!"S")) "Unexpected field named `b` in `S`, expected `a` instead" := by decide +kernel
example : says (.noSuchStructField [c!"a", c!"b+c", c!"d"] c!"e" (some c!"S"))
    "Unexpected field named `e` in `S`, expected one of `a`, `r#b+c`, or `d` instead" := by decide +kernel
example : says (.missingStructField c!"a" none) "Unexpected missing field named `a`" := by decide +kernel
example : says (.missingStructField [] (some c!"S+T")) "Unexpected missing field named \"\"_[invalid identifier] in `r#S+T`" := by decide +kernel
example : says (.duplicateStructField c!"a" none) "Unexpected duplicate field named `a`" := by decide +kernel
example : says (.duplicateStructField c!"b+c" (some c!"S+T")) "Unexpected duplicate field named `r#b+c` in `r#S+T`" := by decide +kernel
example : says (.invalidIdentifier c!"why+🦀+not") "Invalid identifier \"why+🦀+not\"" := by decide +kernel
example : says (.suggestRawIdentifier c!"raw+ident")
    "Found invalid std identifier \"raw+ident\", try the raw identifier `r#raw+ident` instead" := by decide +kernel
example : says .expectedRawValue "Expected a `ron::value::RawValue`" := by decide +kernel
example : says .exceededRecursionLimit
    "Exceeded recursion limit, try increasing `ron::Options::recursion_limit` and using `serde_stacker` to protect against a stack overflow" := by
  decide +kernel
example : says (.expectedStructName c!"Struct") "Expected the explicit struct name `Struct`, but none was found" := by decide +kernel

end Ron.Checks
