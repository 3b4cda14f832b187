# Formal model of ron 0.12.2 - design

The model lives in `lean/Verif`. It is written in Lean 4 from reading `/repo` as text.
Nothing in `/repo` is executed or translated automatically.

## Layout of the development

| directory | content |
|---|---|
| `Verif/Model/*` | the code: one Lean definition per Rust function, each citing file and lines |
| `Verif/Spec/*`  | small independent specifications: layout, literal values, grammar of documents, base64, finite maps, typed data |
| `Verif/Lemmas/*`| helper lemmas, not part of any claim |
| `Verif/Props/*` | the claims, one file per property `Cnn`, with non-vacuity examples beside each theorem |
| `Verif/Checks/*`| evaluations of the model on documents of the crate's own test-suite (sanity checks of the model, not claims) |

`MANIFEST.json` maps properties to theorems, `AXIOMS.md` lists the axioms of each theorem, `seeded/LOG.jsonl` the wrong
programs the theorems were tested against.

## How code becomes Lean

* A text is a `List Char` (Lean's `Char` is a Unicode scalar value, as Rust's `char`). Byte strings are `List UInt8`.
* A parser cursor (a byte offset in Rust) is represented by the suffix of the source that starts there. Cursor
  comparisons become comparisons of suffix lengths. Offsets count characters and not bytes; both orders agree
  because every Rust cursor is on a character boundary (in the model that is true by construction).
  Moving the cursor beyond the end (a panic in Rust, slice index out of range) is the explicit error `.panic`; C37 shows that
  it never happens.
* The parser and deserializer share one state record `St` (source, suffix, previous cursor, whitespace bookkeeping,
  extensions, `newtype_variant`, `last_identifier`, recursion budget). A parser function is `St -> Res a` with `Res` =
  `ok value state` or `err code state`; the state at the error is kept, because error spans and the integer/float fall-back
  read it.
* Loops and recursion are structural recursion, on fuel where the Rust loop is on the input. Fuel is computed from the
  input; running out of fuel is a separate error code and the termination property (C37) shows it never occurs. Types are
  read by recursion on the depth of the type, given as a bound `f` (`deTy D f T`), with recursive types as references `D i`.
* The serializer is a state transformer over (writer, pretty state, flags, recursion budget). The writer is an arbitrary
  function that decides after every write whether and how it fails (`Writer.fault`).
* Machine integers are `Int` with explicit range checks that model `checked_mul/add/sub` and `TryFrom`.
* Feature flags (`integer128`, `indexmap`) are parameters.
* Drop glue with an effect is modelled (`Compound::drop` gives a level of recursion back, src/ser/mod.rs:1175-1185).

| model file | Rust code |
|---|---|
| `Base`, `Utf8` | `Number`, extensions, character classes, `str::from_utf8` |
| `Parser` | `src/parse.rs` |
| `De` | `src/de/mod.rs`, `src/de/value.rs`, `src/options.rs` (reading); visitors of derived types as a universe `Ty` |
| `Ser` | `src/ser/mod.rs`, `src/ser/value.rs`, `src/ser/path_meta.rs`, `src/options.rs` (writing) |
| `Open` | parts of std and of external crates that are computed and not assumed |
| `Value` | `src/value/*`: order, hash, `Map` |
| `ValueDe` | `src/value/mod.rs`: `Value` as a deserializer, `into_rust`; `src/de/value.rs`: `ValueVisitor` |
| `From` | `src/value/mod.rs`: `From` and `FromIterator` into `Value`; `src/value/number.rs`: `Number::new`, `into_f64` |
| `Span` | `src/util/span_substring.rs`: positions and substrings of spans |
| `Content` | `src/de/mod.rs`: `is_serde_content`, `SerdeEnumContent`, `handle_any_struct` for serde's buffer |
| `ContentDe` | external: serde's `ContentRefDeserializer` and the untagged enums of serde_derive |
| `Tagged` | `src/de/tag.rs`, `is_serde_tag_or_content`; external: serde's `TaggedContentVisitor`, `TaggedSerializer` |
| `Flatten` | `src/de/mod.rs`: `deserialize_map` for derived structs (`MapAsStruct`); external: serde's `FlatMapSerializer`, `FlatMapDeserializer` |
| `Adjacent` | `src/de/mod.rs`: `deserialize_struct`, `deserialize_enum`, `deserialize_any` as adjacently tagged enums use them; external: serde's `TagContentOtherFieldVisitor`, `AdjacentlyTaggedEnumVariantSeed` |
| `FieldAttrs` | `src/de/mod.rs`: `deserialize_struct` with the visitor of a struct whose fields have the attributes `default`, `alias`, `rename`, `skip*`; external: serde_derive's `__FieldVisitor` and `visit_map` |
| `Message` | `src/error.rs`: `Display` of `Error`, `Identifier`, `OneOf`, `Position`, `Span`, `SpannedError`; external: `{:?}` of std for `char` and `str`, the text of `Utf8Error` |
| `Raw` | `src/value/raw.rs` (reading a raw value inside a document is in `De`, writing one in `Ser`) |

## Parameters (external code) and what is assumed about them

One class `Env` collects them; every theorem is for every `Env`. `Lemmas/Witness.lean` constructs an instance (`asciiEnv`), so
the laws are satisfiable.

* `unicode-ident` (`is_xid_start`, `is_xid_continue`): on ASCII they are letters / letters, digits and `_`; start implies
  continue; RON whitespace is not an identifier character.
* `char::escape_debug`: which characters are escaped as `\u{..}` is an arbitrary predicate; nothing assumed.
* Float formatting and parsing: a finite number is printed as `-?digits(.digits)?`, `NaN`, `inf`, `-inf` as such; parsing the
  printed number (with `.0` appended to integers) gives the number back; every plain decimal number parses.
  `as f32`/`f64::from` and integer to float conversions are arbitrary functions.
* serde and serde_derive: visitors of derived types are modelled by what they do with the deserializer (universe `Ty`:
  booleans, integers, floats, chars, strings, bytes, options, units, newtypes, sequences, tuples, maps, structs with or without
  `deny_unknown_fields`, enums with all kinds of variants, references to recursive types). Values given to the serializer
  are a universe `SVal` with one case per method of `serde::Serializer`.

## Layers of lemmas

* `Layout`, `Integer`, `Number`, `Float`, `Strings`, `Ident`, `Base64`, `Attr`: each token is read exactly to its end (both
  directions: what is accepted is in the grammar, what is in the grammar is accepted).
* `Spec/Ron` is a grammar `Den` of self-describing documents, `Spec/Rend` a grammar `Rend` of renderings of serialized data
  with arbitrary layout between tokens; `SerMain` shows the serializer's output is in `Rend`, `RendDen` that `Rend` refines `Den`,
  `DeAny` and `TyMain` that the readers accept them and give the data back.
* `Safe*`: results of every reader are inside the source, never out of fuel, never `.panic`. `Eat`: every successful read
  consumes. `Frame*`: reading does not depend on the consumed prefix. `Seps`, `Shut`: what separators the reader accepts.
* `DeWalk`: the deserializer as an inductive invariant over its primitive actions; instances: `FrameDe`, `Lim` (the recursion limit
  only decides between the outcome without limit and `ExceededRecursionLimit`), `Gives`/`Typed` (what is read belongs to the type, is
  nested no deeper than the limit and leaves the budget as it was), `ExtSim` (two settings of the extensions have the same outcome, or the
  stricter one fails for want of the extension; `Kinds` says which data depends on which extension).
* `Walk`: the serializer as an inductive invariant over its primitive actions; instances: `Feed` (writes do not depend on the
  writer), `Docs` (simulation with and without metadata), `Named` (success implies all names were checked).
* `Spec/Lang` is the full language `LangX` of values that `from_str::<Value>` accepts (`Lang` without `implicit_some`); `Lang`, `LangX`
  show that all of it is read and `LangSound` that nothing else is. Its numbers and ranges are
  those of `Spec/AnyNumber` (`NumText`).
* `Spec/TyLang` is the language of a type: which texts `from_str::<T>` accepts and what they denote. `TyLangSound`, `TyLangDoc` show that
  nothing else is read, `KeyRead`, `TyLangReads` that all of it is. Ignored fields and values of type `Value` are texts of `LangX`.
* `Spec/Closed` are the types the texts of which show where they end; `Lemmas/Closed` shows that none of their texts begins with another
  (C64, documents that were cut off). `Spec/BadTy` says which defects a text has, at any depth; `BadParts`, `BadFields`, `BadMain` show
  that reading it as the type gives the error of the defect and stops there (C65). `NameEnds` reads names and what is none; `Spec/BadRange`,
  `Lemmas/BadRange` the same for the notation of ranges. `Spec/Covered`
  names types; `Lemmas/Covered` shows that for them every text is a text of the type, or has such a defect, or an incomplete comment, or a
  field that is ignored and is no value (C66). `Spec/Broken`, `Lemmas/Broken`: broken comments between the parts of a value, and that they
  are refused with the error of the comment; for types without named fields and unwrapped newtypes this makes C66 complete (`C66_total`), but
  for documents that end inside a line comment.
  `RangeAt`: the range notation for structs.

* `WsTrack`, `DocTrack`: the record of where the last layout began, which raw values read (`pre_ws_cursor`, `last_ws_len`). `Raw`,
  `RawSeq`: what a raw value takes from a document.

* `Scan`: the look-ahead of `check_struct_type` over arbitrary values. `Spec/Content`, `ContentText`, `ContentRead`: which texts are buffered
  as which `Content`. `Spec/Buffer`, `Buffer`: data written compactly are buffered as their content and read from there.
* `Fold`: the loop over the entries of a map with any visitor, and how it fails. `Spec/Tagged`, `Tagged`, `TaggedSer`: reading and writing of
  internally tagged enums. `Spec/Flatten`, `Flatten`, `FlattenSer`, `FlattenErr`: structs with flattened fields. `Spec/Adjacent`,
  `Adjacent`, `AdjacentErr`: adjacently tagged enums. `Spec/FieldAttrs`, `FieldAttrs`: structs whose fields have
  attributes. `Spec/BadStrings`, `BadStrings`: malformed string, byte string, character and byte literals.
  `Spec/BadNumbers`, `BadNumbers`, `BadFloats`: every text a number may be read from, good or bad. `Spec/AnyNumber`, `AnyNumber`,
  `NumText`: the same for numbers whose type is not given, and for ranges as values. `ValueHash`: what values feed to a hasher. `Message`, `MessageHead`: texts of errors. `Repeated`: buffered data that
  name a field twice.
* `Spec/Compact`, `Compact`: the one text that `to_string` writes for given data.

## Findings about the code

Claims that are false of the code are proved to be false by a concrete witness, next to the part that is true.

* C16: the reader spends two levels of recursion per nested sequence and the writer one, so a value may be written that is
  refused with the same limit (`C16_limit_needed`).
* C18: an empty tuple struct is a unit or a sequence for `Value`, depending on `struct_names` (`C18_untyped_fails`).
* C19: with `implicit_some` and `unwrap_variant_newtypes`, `A(Some((None, 1)))` is written as `A(None,1)`, which does not read
  back (`C19_fails`).
* C23: ranges in compact syntax (`1..5`) are read without spending recursion budget, so data may be nested one level deeper than the
  limit (example in Props/C23).
* C24: `Compound::drop` gives levels back that were never taken, see Props/C24.
* C26: the start of an error span can be after its end (`C26_order_fails`).
* C61: `Value::from` of a byte array is a byte string, which does not convert back to the array (`C61_byte_array`).
* C30: a raw value that begins with an attribute such as `#![type = "x"]` is accepted but is no value inside a document
  (`C30_attribute_fails`); one that uses up the recursion limit cannot be embedded (`C30_depth_fails`); `RawValue::from_rust` may give
  a raw value on which `trim` panics (`C30_from_rust_fails`).
* C65: an item of a tuple struct that lacks its parentheses is reported as if the tuple struct itself were missing, because
  `deserialize_tuple_struct` renames every `ExpectedStructLike` from inside it (`C65_name_fails`).
* C27: `Map` does not hash its length, so distinct maps of maps feed the same data to every hasher (`C27_maps_collide`).
* C31: with `compact_ranges` a range with bounds that are not numbers is written as a struct without its name and always with
  parentheses, so it is refused with `explicit_struct_names` and inside newtype variants with `unwrap_variant_newtypes`
  (`C31_explicit_fails`, `C31_unwrap_fails`). A range with two bounds that starts with `inf` or `NaN` is refused (`C31_word_fails`),
  and one that ends with them is refused by `Value` (`C31_value_fails`). An `f32` bound without suffix is read as `f64` and
  rounded again (`Number.Keeps`). `SVal.Clean` excludes these cases in the round-trip theorems.
* C38: a doubled trailing comma is accepted inside an unwrapped newtype variant (`C38_double_comma_fails`).
* C39: a comment directly after a string in a struct-like document changes its classification (`C39_comment_counts`).
* C47: read as a `Value` and converted with `into_rust`, an empty struct, a newtype written with `unwrap_newtypes` and an option written
  with `implicit_some` are errors although the text reads directly (`C47_empty_fails`, `C47_newtype_fails`, `C47_some_fails`); enums
  are documented as unsupported (`C47_enum_fails`).

* C50: with grapheme clusters of several characters, spans whose start is after their end, and positions behind the last line, the
  substring of a span is missing or not the text between the two positions (`C50_grapheme_fails`, `C50_order_fails`, `C50_end_fails`).
* C51: an untagged enum buffers newtype variants without spending recursion budget, so the recursion limit does not bound the nesting
  (`C51_limit_fails`, for every depth); a document with unbalanced parentheses is accepted (`C51_unbalanced_fails`); a trailing comma, or a
  comment after a string, inside a newtype variant is refused (`C51_comma_fails`); tuple variants with one field, empty tuples and
  structs, newtype structs, named structs, 128-bit integers and `Some(())` with `implicit_some` do not survive the buffer
  (`C51_one_field_fails`, `C51_newtype_fails`, `C51_empty_fails`, `C51_implicit_fails`).
* C53: a newtype variant of an internally tagged enum whose data have a field called like the tag is written and not read back
  (`C53_field_fails`); the tag of a struct has to be a string and that of a sequence an identifier (`C53_identifier_fails`); the limits of
  the buffer apply to everything beside the tag (`C53_implicit_fails`).
* C54: a flattened map before a flattened struct also gets the fields of that struct (`C54_map_first_fails`); keys of a flattened map that
  are names of other fields, or no strings, are written and not read back (`C54_collision_fails`, `C54_key_fails`); field names without
  quotes and the syntax of structs are refused (`C54_identifier_fails`, `C54_struct_syntax`); the limits of the buffer apply to flattened
  fields (`C54_implicit_fails`).
* C55: a struct variant without fields is written as `(t:E,c:())` and not read back (`C55_empty_fails`); neither is one called like a range
  with compact ranges (`C55_range_fails`); content before the tag is subject to the limits of the buffer (`C55_content_first_fails`); the
  tag must be an identifier, where that of an internally tagged enum must be a string (`C55_string_fails`); with `explicit_struct_names`
  the name of a struct that is the content is not checked (`C55_name_unchecked`).
* C56: a missing `)` after an option and one after a struct have the same text (`C56_closing_same`); a custom message can have the text of
  an error of the crate (`C56_custom_same`), and what a visitor expected is shown unquoted (`C56_expected_same`).
* C57: a field that is skipped although its value is not its default silently comes back as the default; without a default it is missing
  (`C57_skipped_fails`).
* C58: reading a `Value` depends on `implicit_some` and `unwrap_variant_newtypes` (`Some 1` and `Some(a: 1)`; cases in `Props/C58`), hence so
  does what is accepted in unknown fields.

## Not modelled

* Flattening of options, enums and structs that have flattened fields themselves.
* Texts that visitors, writers and std put into errors (`Message`, `Io`, `InvalidValueForType`, `Utf8Error`): arbitrary texts in the model.
* Allocation, borrowing versus owning (`ParsedStr::Slice/Allocated` are one case), performance, stack usage.
* `internal-span-substring-test`, once_cell and typeid plumbing.
* Field attributes (`default`, `alias`, `rename`, `skip*`) inside other types: `Ty` has only plain derived types; they are modelled for a struct
  at the top (`FieldAttrs`).

## Trusted base

Lean 4.33.0's kernel; the axioms `propext`, `Classical.choice`, `Quot.sound` (no others, see AXIOMS.md; no axiom is added, no
`sorry`, no `native_decide`); the faithfulness of the definitions in `Verif/Model` to the cited Rust lines (by reading);
the laws listed above for external code.
