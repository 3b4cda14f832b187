{"id": "C01", "title": "Layout between tokens is skipped completely and exactly", "statement": "Wherever RON allows layout, any mix of the eleven RON whitespace characters, complete line comments and complete (nested) block comments is skipped entirely, nothing after the layout is consumed, and skipping again does nothing.", "quantifier": "every layout text and every following text that does not itself start with layout", "why_tests_cant": "the set of layouts is infinite and includes arbitrary nesting and arbitrary Unicode comment bodies", "anchors": ["src/parse.rs: Parser::skip_ws, Parser::skip_comment, is_whitespace_char"]}
{"id": "C02", "title": "Block comments nest and are closed by the matching delimiter", "statement": "A block comment ends exactly at the `*/` that balances its opening `/*`; a text in which the opening is never balanced is rejected with UnclosedBlockComment and never silently accepted.", "quantifier": "every comment body, every nesting depth", "why_tests_cant": "nesting depth and body are unbounded", "anchors": ["src/parse.rs: Parser::skip_comment"]}
{"id": "C03", "title": "Integer literals denote their mathematical value or are rejected", "statement": "Deserializing an integer literal (any sign, base 2/8/10/16, underscores, optional type suffix) into an integer type returns exactly the mathematical value of the literal when it fits the type and an error otherwise; it never wraps, truncates or drops digits.", "quantifier": "every integer type i8..i128/u8..u128, every digit string of any length, base and sign", "why_tests_cant": "digit strings are unbounded and the boundaries differ per type, base and sign", "anchors": ["src/parse.rs: Parser::integer, Parser::parse_integer, Parser::parse_integer_digits, Num"]}
{"id": "C04", "title": "Integers survive serialization and deserialization", "statement": "For every integer value of every type the text produced by serialization, with or without number suffixes, deserializes to the same integer at the same type.", "quantifier": "all values of all ten integer types, both suffix settings, every following delimiter", "why_tests_cant": "2^128 values", "anchors": ["src/ser/mod.rs: serialize_sint, serialize_uint", "src/parse.rs: Parser::integer"]}
{"id": "C05", "title": "A type suffix on an integer is binding", "statement": "An integer literal carrying suffix S deserializes into type T only if S names T, and a self-describing read yields exactly type S; any other target type is an error.", "quantifier": "every literal, suffix and target type", "why_tests_cant": "every pair of types times unbounded literals", "anchors": ["src/parse.rs: Parser::integer, impl_integer!, ParsedInteger"]}
{"id": "C06", "title": "Unsuffixed integers read into Value get the smallest fitting type", "statement": "Reading an unsuffixed integer literal into a Value gives the smallest unsigned type holding it (no minus sign) or the smallest signed type holding it (minus sign), with the exact value.", "quantifier": "every integer literal in range of the widest type", "why_tests_cant": "unbounded literals, all type boundaries at once", "anchors": ["src/parse.rs: impl Integer for ParsedInteger", "src/parse.rs: Parser::any_number"]}
{"id": "C07", "title": "Escaped strings round-trip", "statement": "Serializing any string with escaping enabled and deserializing the text yields the same string and consumes exactly the literal.", "quantifier": "every Unicode string, every following text, whatever set of characters the standard library regards as non-printable", "why_tests_cant": "all strings over 1.1M scalars; interactions of quotes, backslashes and \\u escapes", "anchors": ["src/ser/mod.rs: serialize_escaped_str", "src/parse.rs: Parser::string, escaped_byte_buf, parse_escape"]}
{"id": "C08", "title": "Unescaped and raw strings round-trip", "statement": "Serializing any string with escape_strings(false) - including strings that contain quotes, backslashes and any number of hashes - and deserializing yields the same string and consumes exactly the literal.", "quantifier": "every Unicode string and every following text", "why_tests_cant": "the number of consecutive hashes is unbounded; the closing delimiter must not occur early for any content", "anchors": ["src/ser/mod.rs: serialize_unescaped_or_raw_str", "src/parse.rs: raw_byte_buf"]}
{"id": "C09", "title": "Byte strings round-trip", "statement": "Serializing any byte sequence, escaped or (if valid UTF-8) unescaped/raw, and deserializing the byte string yields the same bytes.", "quantifier": "every byte sequence, both escape settings, every following text", "why_tests_cant": "all byte sequences; UTF-8 validity decides the branch", "anchors": ["src/ser/mod.rs: serialize_bytes, serialize_escaped_byte_str, serialize_unescaped_or_raw_byte_str", "src/parse.rs: byte_string_no_base64"]}
{"id": "C10", "title": "Characters round-trip", "statement": "Serializing any char and deserializing the literal yields the same char, including quote, backslash, newline and control characters.", "quantifier": "every Unicode scalar value and every following text", "why_tests_cant": "1.1M scalars times any following text", "anchors": ["src/ser/mod.rs: serialize_char", "src/parse.rs: Parser::char"]}
{"id": "C11", "title": "Identifiers are written so that they read back, or refused", "statement": "For every name, serialization either writes an identifier that reads back as precisely that name in every position followed by a delimiter, or fails with InvalidIdentifier; no name can inject other RON syntax, and a written name is never mistaken for true, false, Some, None, inf or NaN.", "quantifier": "every string used as a struct, variant or field name", "why_tests_cant": "names are arbitrary strings (serde rename)", "anchors": ["src/ser/mod.rs: write_identifier, validate_identifier", "src/parse.rs: identifier, skip_identifier, check_ident"]}
{"id": "C12", "title": "Base64-looking strings are recognised exactly", "statement": "When a byte string is expected and a string is found, the error suggests the byte string b\"...\" exactly when the text is standard padded base64 (the spare bits of the last group are ignored), and the suggested literal reads as exactly the bytes the text encodes; every canonical encoding of every byte sequence is recognised.", "quantifier": "every string and every byte sequence", "why_tests_cant": "unbounded lengths, all padding combinations", "anchors": ["src/parse.rs: ParsedByteStr::try_from_base64, Parser::byte_string"]}
{"id": "C13", "title": "Extension headers written by the serializer enable exactly those extensions", "statement": "A document serialized with a set of extensions starts with attributes that, when parsed with the same Options, enable exactly the configured extensions together with the default ones.", "quantifier": "all extension sets, all default extension sets, every whitespace-only new_line string, every document body", "why_tests_cant": "body and new_line are arbitrary", "anchors": ["src/ser/mod.rs: Serializer::with_options", "src/parse.rs: Parser::new, attribute, extension_list", "src/extensions.rs"]}
{"id": "C14", "title": "Document attributes only ever add known extensions", "statement": "Parsing a document's attributes never disables a default extension, enables an extension only if its name occurs in an enable list, and rejects unknown names; type/schema attributes enable nothing.", "quantifier": "every document prefix", "why_tests_cant": "attribute lists are unbounded", "anchors": ["src/parse.rs: Parser::new, attribute, extension_list", "src/de/mod.rs: from_str_with_options"]}
{"id": "C15", "title": "No trailing input is ignored", "statement": "A successful from_str means that everything after the value is layout only; any other trailing text makes it fail.", "quantifier": "every input text", "why_tests_cant": "all inputs", "anchors": ["src/de/mod.rs: Deserializer::end", "src/options.rs: from_str_seed"]}
{"id": "C16", "title": "Every Value round-trips exactly with number suffixes", "statement": "For every well-formed Value (numbers in range, canonical NaN) and every valid PrettyConfig with number_suffixes enabled, with neither implicit_some nor unwrap_variant_newtypes in force, serialization succeeds and parsing the text gives an equal Value, provided the nesting is within the reader's recursion limit.", "quantifier": "all Values of any size and nesting, all pretty configurations, with and without pretty printing", "why_tests_cant": "Values and configurations are unbounded", "anchors": ["src/ser/mod.rs", "src/ser/value.rs", "src/de/mod.rs: deserialize_any", "src/de/value.rs"]}
{"id": "C17", "title": "Without suffixes a Value round-trips up to number type", "statement": "Without number suffixes, parsing the serialized text of a Value gives the same Value with each number replaced by the number its literal denotes in untyped position; everything other than number types is preserved, except that map keys that differ only in their number type become one entry (the later value wins).", "quantifier": "all Values, all valid pretty configurations without suffixes", "why_tests_cant": "unbounded", "anchors": ["src/ser/mod.rs", "src/parse.rs: any_number", "src/de/mod.rs: deserialize_any"]}
{"id": "C18", "title": "Pretty-printing options do not change the data", "statement": "Any two valid PrettyConfigs (and compact output) that agree on extensions and number suffixes produce texts that parse to the same data.", "quantifier": "all data, all pairs of configurations", "why_tests_cant": "configuration space times data", "anchors": ["src/ser/mod.rs: PrettyConfig, start_indent, end_indent, Compound"]}
{"id": "C19", "title": "Typed data round-trips under every combination of extensions", "statement": "For every type built from the serde data model (scalars, options, tuples, sequences, maps, unit/newtype/tuple/named structs, externally tagged enums) and every value of it, deserializing the serialized text with the same extensions gives back the value.", "quantifier": "all types, values, pretty configurations and extension sets", "why_tests_cant": "types and values are unbounded, 16 extension sets interact with nesting", "anchors": ["src/ser/mod.rs", "src/de/mod.rs"]}
{"id": "C20", "title": "Nested options round-trip with implicit_some", "statement": "With implicit_some enabled (and any other extensions), every value of every nested Option type (Some(Some(None)), Some(None), ...) around a payload that itself round-trips (C19) survives a round-trip, and distinct values have distinct texts.", "quantifier": "all nesting depths and payloads", "why_tests_cant": "nesting is unbounded", "anchors": ["src/ser/mod.rs: serialize_some, serialize_none, implicit_some_depth", "src/de/mod.rs: deserialize_option"]}
{"id": "C21", "title": "Struct names are optional but never wrong", "statement": "A named struct is accepted with its own name or (unless explicit_struct_names is enabled) without a name; a different name is always rejected, and with explicit_struct_names a missing name is always rejected.", "quantifier": "every struct name and every input text", "why_tests_cant": "all inputs", "anchors": ["src/parse.rs: consume_struct_name", "src/de/mod.rs: deserialize_struct, deserialize_newtype_struct, deserialize_tuple_struct, deserialize_unit_struct"]}
{"id": "C22", "title": "Struct fields are order-independent, complete and unique", "statement": "Reading a named struct gives the same result for every order of the fields; a duplicated field or a missing non-optional field is an error.", "quantifier": "all field lists, all permutations, all contents", "why_tests_cant": "permutations are unbounded", "anchors": ["src/de/mod.rs: handle_struct_after_name, CommaSeparated", "src/de/id.rs"]}
{"id": "C23", "title": "Deserialization enforces the recursion limit exactly", "statement": "With recursion limit n the deserializer never recurses deeper than n levels, reports ExceededRecursionLimit rather than recursing further, accepts every document within the limit, and siblings do not use up each other's budget.", "quantifier": "every input and every limit", "why_tests_cant": "depth and width are unbounded", "anchors": ["src/de/mod.rs: guard_recursion!"]}
{"id": "C24", "title": "Serialization enforces the recursion limit", "statement": "With recursion limit n, serializing data nested more than n levels fails with ExceededRecursionLimit, whatever was serialized before it.", "quantifier": "all data and limits", "why_tests_cant": "the limit counter depends on the whole history of the serializer", "anchors": ["src/ser/mod.rs: guard_recursion!, Drop for Compound"]}
{"id": "C25", "title": "Error positions count lines and columns of the source", "statement": "The line of a reported position is one plus the number of newlines before it, the column is one plus the number of characters since the last newline, so the position identifies the place in the source uniquely.", "quantifier": "every source text and every cursor", "why_tests_cant": "all texts", "anchors": ["src/error.rs: Position::from_src_end", "src/parse.rs: span_error"]}
{"id": "C26", "title": "Error spans lie inside the source with start before end", "statement": "Both ends of a reported span are positions of the source text and the start is not after the end.", "quantifier": "every input that produces an error", "why_tests_cant": "all failing inputs, including errors after look-ahead was rolled back", "anchors": ["src/parse.rs: span_error, advance_bytes, set_cursor, check_struct_type"]}
{"id": "C27", "title": "Numbers and Values are totally ordered and Eq/Ord/Hash agree", "statement": "Number and Value comparison is a total order (reflexive, antisymmetric, transitive, total) that includes NaN and signed zeros; == holds exactly when cmp is Equal; equal values hash equally. Different numbers, and different values without nested maps, feed different data to the hasher; for maps inside maps they may feed the same data (their length is not hashed), which is shown by an example.", "quantifier": "all pairs and triples of Numbers, Values, Maps", "why_tests_cant": "pairs/triples over unbounded trees", "anchors": ["src/value/number.rs: impl_number!/F32/F64", "src/value/mod.rs: Value", "src/value/map.rs"]}
{"id": "C28", "title": "Map is a finite map", "statement": "After any sequence of insert, remove, retain and index operations Map::get returns the last inserted live value for each key, len is the number of distinct live keys, insert/remove return the previous value, and iteration yields each key once in key order (default) or insertion order (indexmap).", "quantifier": "all operation sequences", "why_tests_cant": "histories are unbounded", "anchors": ["src/value/map.rs"]}
{"id": "C29", "title": "Converting a Value reads every element exactly once", "statement": "Using a Value as a deserializer gives the same data as the Value holds: reading it as a Value is the identity, and a sequence or map with more elements than the target consumes is an error, never silently truncated.", "quantifier": "all Values and all consumers that read any number of elements", "why_tests_cant": "unbounded values and consumer behaviours", "anchors": ["src/value/mod.rs: impl Deserializer for Value, SeqAccessor, MapAccessor"]}
{"id": "C30", "title": "RawValue keeps the text and stays embeddable", "statement": "RawValue::from_ron accepts a text only if it is one valid RON value; the stored text is unchanged; trimming removes only surrounding layout, is idempotent and keeps the meaning; and a RawValue can be embedded wherever a value is allowed.", "quantifier": "every text", "why_tests_cant": "all texts", "anchors": ["src/value/raw.rs", "src/de/mod.rs: deserialize_newtype_struct (RAW_VALUE_TOKEN)", "src/ser/raw.rs"]}
{"id": "C31", "title": "Compact ranges round-trip", "statement": "With compact_ranges every Range, RangeInclusive, RangeFrom, RangeTo, RangeToInclusive and RangeFull serializes to a text that deserializes to the same range.", "quantifier": "all bounds, numeric or not, every extension set", "why_tests_cant": "bounds include infinities and NaN, non-numeric bounds, nesting in newtype variants", "anchors": ["src/ser/mod.rs: RangeCompound, serialize_struct", "src/de/mod.rs: deserialize_struct, RangeMapAccess"]}
{"id": "C32", "title": "Writer failures always surface and output is a prefix", "statement": "If the underlying writer fails at any write, serialization returns an error (the I/O error for io writers) and what was written is a prefix of the complete output; if it never fails the output is the same as to_string.", "quantifier": "every writer failure point, every value and configuration", "why_tests_cant": "all failure points", "anchors": ["src/ser/mod.rs", "src/options.rs: to_io_writer, Adapter"]}
{"id": "C33", "title": "Documentation metadata adds comments only and is preserved", "statement": "PrettyConfig path_meta changes the output by comments only (the data reads back identically) and the metadata is the same after serialization as before.", "quantifier": "every metadata tree, every doc text, every value", "why_tests_cant": "doc texts and trees are unbounded", "anchors": ["src/ser/mod.rs: SerializeStruct::serialize_field", "src/ser/path_meta.rs"]}
{"id": "C34", "title": "Reading bytes agrees with reading text", "statement": "from_bytes on UTF-8 input behaves exactly like from_str on the decoded text; on anything else it fails with a Utf8Error positioned at the end of the longest valid prefix, and never panics.", "quantifier": "every byte sequence", "why_tests_cant": "all byte sequences", "anchors": ["src/de/mod.rs: from_bytes_with_options", "src/options.rs: from_bytes_seed, from_reader_seed"]}
{"id": "C35", "title": "Options builders are independent switches", "statement": "Adding/removing default extensions and setting/clearing the recursion limit act as set union/difference and assignment, in any order, and default options have limit 128 and no extensions.", "quantifier": "all builder call sequences", "why_tests_cant": "sequences are unbounded", "anchors": ["src/options.rs: Options", "src/extensions.rs"]}
{"id": "C36", "title": "Pretty configuration cannot inject syntax", "statement": "A PrettyConfig whose new_line, indentor or separator contains a non-whitespace character is refused before anything is written; any other configuration is accepted.", "quantifier": "all configuration strings", "why_tests_cant": "all strings", "anchors": ["src/ser/mod.rs: Serializer::with_options"]}
{"id": "C37", "title": "Parsing terminates and always makes progress", "statement": "Every parsing entry point terminates on every input; a successful element read consumes at least one character and the cursor never leaves the source or splits a character.", "quantifier": "every input", "why_tests_cant": "all inputs", "anchors": ["src/parse.rs", "src/de/mod.rs"]}
{"id": "C38", "title": "Trailing commas are optional", "statement": "In sequences, tuples, maps, structs, options and newtypes a single trailing comma before the closing delimiter changes nothing; two commas, or a missing comma between elements, are errors.", "quantifier": "all element lists", "why_tests_cant": "unbounded lists", "anchors": ["src/de/mod.rs: CommaSeparated::has_element", "src/parse.rs: comma"]}
{"id": "C39", "title": "Struct-kind look-ahead is side-effect free and layout-insensitive", "statement": "Deciding whether parentheses hold a unit, newtype, tuple or named struct never changes the reading position on success and does not depend on comments or whitespace.", "quantifier": "every input at a struct position", "why_tests_cant": "all inputs, all comments", "anchors": ["src/parse.rs: check_struct_type"]}
{"id": "C40", "title": "Float literals are passed to the standard parser without underscores", "statement": "A float literal with underscores in allowed places denotes the same number as without them, leading/misplaced underscores are rejected, and an f32/f64 suffix is binding.", "quantifier": "every float literal", "why_tests_cant": "unbounded literals", "anchors": ["src/parse.rs: Parser::float, next_bytes_is_float"]}
{"id": "C41", "title": "String literals accepted are exactly the documented grammar", "statement": "A string (byte string) is read successfully exactly when the input starts with a literal of the grammar (escaped with simple, \\x and \\u{} escapes, or raw with any number of hashes), the value is the one the grammar assigns, exactly the literal is consumed, and no text has two readings.", "quantifier": "every input text and reader state", "why_tests_cant": "unbounded literals; acceptance is an equivalence over all texts", "anchors": ["src/parse.rs: string, byte_string, escaped_byte_buf, raw_byte_buf, parse_escape"]}
{"id": "C42", "title": "Floats survive serialization and deserialization", "statement": "For every f32 and f64 the text produced by serialization, with or without number suffixes, deserializes at the same type to the same bits (zeros of both signs, subnormals and infinities included); a NaN comes back as a NaN of the same sign; with suffixes an untyped read keeps the type.", "quantifier": "all 2^32 / 2^64 bit patterns, every serializer configuration, every following text that does not continue the number", "why_tests_cant": "2^64 bit patterns times suffix settings times following contexts (range operators, signs, identifiers); interaction of the inf/NaN literals with suffixes and with the integer reader", "anchors": ["src/ser/mod.rs:790-830", "src/parse.rs:467-519", "src/parse.rs:815-930"]}
{"id": "C43", "title": "Serialized data is self-describing", "statement": "Whatever type was serialized (structs, enums, options, tuples, maps of any nesting), the text parses as a ron::Value that holds the same data: structs become maps keyed by their field names, tuples, tuple variants and newtypes become sequences, names of types and variants are lost, nothing else is.", "quantifier": "all serializable data, all valid pretty configurations, all extension sets without unwrap_variant_newtypes", "why_tests_cant": "data, nesting and configurations are unbounded", "anchors": ["src/ser/mod.rs", "src/de/mod.rs: deserialize_any", "src/de/value.rs"]}
{"id": "C44", "title": "Layout before a document never matters", "statement": "For every text, valid or not, white space and comments in front of the document change neither the data that from_str returns nor the kind of error it reports.", "quantifier": "every text, every layout, all options, all types without raw values", "why_tests_cant": "all inputs, including malformed ones", "anchors": ["src/parse.rs: Parser::new, skip_ws", "src/options.rs: from_str_seed"]}
{"id": "C45", "title": "Without implicit_some options are explicit", "statement": "Without implicit_some, reading an Option succeeds only on `None` (giving None) or on `Some(...)` around a payload that itself reads (giving Some of it); any other value is refused, never taken as None or Some. Writing marks every present option with Some(...).", "quantifier": "every payload type, every text, every parser state without implicit_some, every value", "why_tests_cant": "payload types, texts and values are unbounded", "anchors": ["src/de/mod.rs: deserialize_option", "src/ser/mod.rs: serialize_some"]}
{"id": "C46", "title": "What is read belongs to the type, and can be written and read again", "statement": "If reading a text as a type succeeds, the result is data of that type: integers in range, tuples of exactly the declared length, structs with exactly the declared fields (a missing field only for options, as None), variants declared in the enum with their declared data, Values with numbers in range and well-formed maps. Such data can be written again, and what is written reads back as the same data, even if the first text was not written by this crate.", "quantifier": "every text, every type of the serde data model, all options", "why_tests_cant": "texts, types and nesting are unbounded", "anchors": ["src/de/mod.rs", "src/ser/mod.rs", "src/value/mod.rs"]}
{"id": "C47", "title": "The way through an untyped Value gives the same data", "statement": "Reading a text as Value and converting the Value with into_rust::<T>() gives the same data as reading the text as T directly.", "quantifier": "all data of all types, all serializer configurations", "why_tests_cant": "unbounded data and types; numbers change their width, maps their order, structs become maps", "anchors": ["src/value/mod.rs: Value::into_rust, impl Deserializer for Value", "src/de/value.rs", "src/de/mod.rs: deserialize_any"]}
{"id": "C48", "title": "Value accepts exactly the RON grammar", "statement": "from_str::<Value> accepts a document exactly if it is layout, attributes, one value of the RON grammar and layout, and gives the value that the grammar assigns to the text: booleans, units, options, numbers, characters, strings, byte strings, names, sequences, maps, tuples and structs, nested within the recursion limit, with free layout and optional trailing commas. With implicit_some the parentheses after Some may be left out where the name does not run on into the value. No text has two meanings.", "quantifier": "every text, every nesting depth, all options without unwrap_variant_newtypes", "why_tests_cant": "texts and nesting are unbounded; that nothing outside of the grammar is accepted cannot be sampled", "anchors": ["src/de/mod.rs: deserialize_any, handle_any_struct, Deserializer::from_str_with_options, end", "src/parse.rs", "docs/grammar.md"]}
{"id": "C49", "title": "Unknown struct fields are ignored unless denied", "statement": "A struct without deny_unknown_fields reads, from text and from the map of a Value, as if its unknown fields were absent, whatever values they hold; with deny_unknown_fields it is refused. From a Value no two entries may stand for the same field, however they name it, and every key must be usable as a field name.", "quantifier": "all structs, all field orders, all values of unknown fields, all maps", "why_tests_cant": "unknown fields hold arbitrary nested values in arbitrary notation", "anchors": ["src/de/mod.rs: deserialize_ignored_any, CommaSeparated as MapAccess", "src/value/mod.rs: MapAccessor, deserialize_any"]}
{"id": "C50", "title": "The substring of an error span", "statement": "Span::substring_exclusive of the span of a deserialization error, applied to the document, is the text between the two ends; Position::grapheme_index finds a position exactly if it is one of the text, no two places of a text share a position; substring_inclusive has one grapheme more. None is given exactly if an end is no position of the text.", "quantifier": "all texts, all positions and spans, all documents and target types", "why_tests_cant": "texts, line structure and error places are unbounded", "anchors": ["src/util/span_substring.rs: Position::grapheme_index, Span::substring_exclusive, Span::substring_inclusive", "src/error.rs: Position::from_src_end", "src/parse.rs: span_error"]}
{"id": "C51", "title": "Untagged enums read back what was written", "statement": "An untagged enum (#[serde(untagged)]) that was serialized with to_string is deserialized as the same variant with the same data, unless an earlier variant accepts the same content; nested enums keep their variants; the variant given is always the first that accepts. The recursion limit bounds what is buffered.", "quantifier": "all untagged enums, all data nested to any depth, all layouts around the document, all documents", "why_tests_cant": "the data are unbounded and the reader has to guess by look-ahead over arbitrarily long text whether parentheses hold a newtype, a tuple or a struct", "anchors": ["src/de/mod.rs: is_serde_content, SerdeEnumContent, handle_any_struct, deserialize_any", "src/parse.rs: check_struct_type, skip over nested values"]}
{"id": "C52", "title": "to_string writes exactly the compact form", "statement": "Options::to_string gives one text for the data, its compact form: no white space, commas between items and none after the last, struct names only with explicit_struct_names, r# only before names that need it, Some(..) only where needed under implicit_some, parentheses dropped inside variants exactly under unwrap_variant_newtypes. Without a recursion limit it succeeds exactly if all names are identifiers; with one, whenever the data is nested within it.", "quantifier": "all data of serde's model, all nesting, all extensions and recursion limits", "why_tests_cant": "data and nesting are unbounded and the separator, name and option state of the serializer is carried through arbitrary nestings", "anchors": ["src/options.rs: to_string", "src/ser/mod.rs: Serializer, Compound"]}
{"id": "C53", "title": "Internally tagged enums", "statement": "An internally tagged enum (#[serde(tag = \"..\")]) that was serialized with to_string is deserialized as the same variant with the same data. The tag may stand anywhere among the fields of the struct or the entries of the map, with or without a struct name; a missing, repeated or unknown tag is an error that names it.", "quantifier": "all internally tagged enums, all data nested to any depth, all positions of the tag, all layouts around and between the items", "why_tests_cant": "the data, the number of fields before the tag and the layout are unbounded; everything before and after the tag goes through serde's buffer, where the reader has to guess the kind of nested values", "anchors": ["src/de/tag.rs: TagDeserializer", "src/de/mod.rs: is_serde_tag_or_content, handle_any_struct, next_value_seed"]}
{"id": "C54", "title": "Structs with flattened fields", "statement": "A struct with #[serde(flatten)] fields (derived structs or maps) is written by to_string as one map with strings as keys and read back as the same data. The entries of such a document may stand in any order, and entries that belong to no field are ignored unless there is a flattened map. A plain field that is missing or occurs twice is an error that names it; a field of a flattened struct that is not optional stands there exactly once if reading succeeds.", "quantifier": "all structs with any number of plain fields, flattened structs and a flattened map, all data nested to any depth, all orders of the entries, all layouts", "why_tests_cant": "the data, the number of entries and their orders are unbounded; keys are read under a special mode of the map reader and the values of flattened fields go through serde's buffer", "anchors": ["src/de/mod.rs: deserialize_map, Terminator::MapAsStruct, next_key_seed", "src/de/id.rs: IdDeserializer::deserialize_identifier", "src/ser/mod.rs: serialize_map"]}
{"id": "C55", "title": "Adjacently tagged enums", "statement": "A value of a #[serde(tag, content)] enum is written as a struct with the variant's name as an identifier in one field and its content in the other, under any options and pretty configuration, and is read back. The fields may stand in either order, with fields of other names anywhere among them. A tag or a content that is missing, repeated, or a tag that names no variant, is an error that names the field or the variants, whatever follows in the document; a newtype variant of an option needs no content and is then None. The content of a struct variant after its tag may also be a map whose keys are the names of the fields as strings, in any order and without optional fields; a key that is repeated, missing, or unknown if that is denied, is an error.", "quantifier": "all enums with unit, newtype, tuple and struct variants, all values nested to any depth, all options and pretty configurations, all layouts, all positions of other fields", "why_tests_cant": "values, layouts, configurations and the other fields are unbounded; content after the tag is read as its type, content before it goes through serde's buffer", "anchors": ["src/de/mod.rs: deserialize_struct, deserialize_enum, deserialize_any, handle_any_struct, CommaSeparated", "src/de/id.rs: IdDeserializer", "src/ser/mod.rs: serialize_struct, serialize_unit_variant"]}
{"id": "C56", "title": "Error messages say where and what, unambiguously", "statement": "The displayed text of a failed reading begins with its line and column span, and from the text the span and the message can be recovered. The message determines the kind of the error and every name, list of alternatives, character and number in it, except that a missing ')' after an option reads like one after a struct and that messages of visitors, writers and std are free text. A name in a message is written as RON needs it (with r# where necessary), so that it can be pasted into the document, and a name RON cannot write is marked as invalid.", "quantifier": "all errors, all names (valid or not, with any characters), all lists of alternatives, all positions", "why_tests_cant": "names and lists are unbounded and may contain quotes, backslashes, commas and the words of the message itself; tests only compare a few texts", "anchors": ["src/error.rs: Display for SpannedError, Error, Identifier, OneOf, Position, Span"]}
{"id": "C57", "title": "Default values, aliases, renamed and skipped fields", "statement": "A struct whose fields have the serde attributes default, alias, rename, skip_serializing, skip_serializing_if, skip_deserializing is read from entries in any order, each under any name of its field, with unknown entries passed over unless they are denied; a field without an entry takes its default, or None if it is optional. A field that is missing without a default, an entry for a field that already had one (even under another alias), and a denied unknown name (also that of a field with skip_deserializing) are errors that give the name of the field and of the struct, the latter two whatever follows in the document. What was written is read back with the skipped fields at their defaults, under any options and pretty configuration, hence unchanged if each skipped field has its default value.", "quantifier": "all structs of this kind with any field types, names, aliases, defaults and predicates, all values nested to any depth, all orders, all options and pretty configurations, all layouts", "why_tests_cant": "combinations of attributes, orders, names and absent fields are unbounded; a round trip loses data silently when a skipped value is not the default", "anchors": ["src/de/mod.rs: deserialize_struct, struct_after_name, CommaSeparated", "src/de/id.rs: IdDeserializer", "src/ser/mod.rs: serialize_struct, Compound"]}
{"id": "C58", "title": "An extension changes only what it is about", "statement": "Turning implicit_some on, or explicit_struct_names off, changes the outcome of reading any text as any type (result, error and position) only if the reading failed before with ExpectedOption, or ExpectedStructName respectively: a document that reads keeps its meaning. explicit_struct_names makes no difference for types without structs and for Value; unwrap_newtypes makes none for types without newtype structs and for Value; unwrap_variant_newtypes makes none for types without newtype variants, options and self-describing data.", "quantifier": "all texts including malformed ones, all types including recursive ones, all other options and headers, all recursion limits", "why_tests_cant": "it compares two readings of every text as every type; an extension flag consulted at one place too many, or left set after a nested value, only shows for particular combinations of types and texts", "anchors": ["src/de/mod.rs: deserialize_option, deserialize_newtype_struct, newtype_variant_seed, deserialize_any", "src/parse.rs: consume_struct_name, extensions", "src/options.rs: default_extensions"]}
{"id": "C59", "title": "Malformed literals: the error and the place", "statement": "Reading a string, byte string or character fails exactly when the text is malformed in one of the ways of a small grammar of defects (no literal at all, no closing quote, unknown escape, non-hexadecimal digit, missing brace, no digits, not a character, end of input, a string where bytes were expected), with exactly the error of that defect and having read exactly up to the defect; the error of a document ends at the line and column of that place. Every text either starts with a literal or is malformed in exactly one way. A text that starts like a byte literal is one or is malformed in one of the ways listed for it, with that error.", "quantifier": "all texts, all options, all layout and attributes before the literal", "why_tests_cant": "the defects are combinations of escapes, quotes and lengths at any distance from the start; that nothing else is rejected, and nothing is rejected with another error or at another place, is a statement about every text", "anchors": ["src/parse.rs: string, escaped_byte_buf, raw_byte_buf, parse_escape, decode_ascii_escape, byte_string, char, integer", "src/error.rs: SpannedError"]}
{"id": "C60", "title": "Malformed numbers: the error and the place", "statement": "For every text: reading an integer at a type gives the number and what is left, or an error and what is left, exactly as a small specification says (sign, base prefix, longest run of digits and underscores, suffix as a whole word). No digits is ExpectedInteger, an underscore first is UnderscoreAtBeginning, a digit outside the base is InvalidIntegerDigit at that digit unless the number has become too large before it, a number outside the type is IntegerOutOfBounds after the digits (after the suffix if there is one), the suffix of another type is InvalidValueForType with the literal and the wanted type. The same for floats: inf and NaN words, runs that stop before a range operator, the first misplaced underscore, what the standard library does not parse, the suffix of the other type. Every text is good or bad in exactly one way. Booleans are two whole words. The error of a document ends at the line and column of that place.", "quantifier": "all texts, integer and float types, options, layout and attributes before the literal", "why_tests_cant": "which of several defects is reported, and where, depends on digits at any distance and on bounds of every type; that nothing else is rejected or accepted is a statement about every text", "anchors": ["src/parse.rs: integer, parse_integer, parse_integer_digits, float, bool", "src/error.rs: SpannedError"]}
{"id": "C61", "title": "Data converted with Value::from", "statement": "For data of the std types that convert into a Value (booleans, characters, numbers, options, strings, sequences, the unit, Maps, iterators over pairs): Value::from(x) is written as the very text (or fails with the very error) that x itself gives, with every options and configuration; Value::from(x).into_rust::<T>() is x for every type T of x, and every Value converts to the data it is written as; the text of x read as a Value is Value::from(x) if numbers are written with suffixes, and Value::from(x) with every number as its digits denote it otherwise. Collecting pairs maps every key to the value of its last pair, and has no other keys. A byte array becomes a byte string, which does not convert back to a sequence or tuple. Number::into_f64 is what into_rust::<f64> gives, which refuses exactly 128-bit integers.", "quantifier": "all data of convertible types (any nesting), all options and configurations, all types", "why_tests_cant": "the claim ties three independent paths (conversion, serialization, reading) for data of arbitrary nesting and for every configuration", "anchors": ["src/value/mod.rs: From and FromIterator impls, into_rust", "src/value/number.rs: Number::new, into_f64, From impls", "src/value/map.rs: FromIterator", "src/ser/value.rs"]}
{"id": "C62", "title": "A type accepts exactly its grammar", "statement": "from_str::<T> accepts a document exactly if it is layout, attributes, one text of the grammar of T and layout, and gives the data that the grammar assigns to the text. The grammar of a type: literals of its number types (within range, any base, its own suffix, byte literals for u8), quoted characters and strings, byte strings or sequences of u8 for bytes, None and Some(..) (with implicit_some also the value alone unless it begins with the word None or Some, or Some and the value), sequences and maps with optional trailing commas, tuples of exactly the length of the type, structs with or without their name (with it if explicit_struct_names is enabled) whose fields come in any order, none of them twice, none missing unless it is optional, others only if the type ignores them and then any value of the RON grammar, the ranges of the standard library also in range notation, newtype structs with parentheses (without them exactly if unwrap_newtypes is enabled), enums by the name of a variant and its data, names also in raw form, nested within the recursion limit. No text has two meanings for a type.", "quantifier": "every text, every type (recursive ones included; for the converse: without raw values), every nesting depth, all options without unwrap_variant_newtypes", "why_tests_cant": "types, texts and nesting are unbounded; that nothing outside of the grammar of a type is accepted cannot be sampled", "anchors": ["src/de/mod.rs: the deserialize_* methods, CommaSeparated, Enum, IdDeserializer", "src/parse.rs: integer, float, char, string, byte_string, comma, consume_struct_name, identifier", "docs/grammar.md", "docs/extensions.md"]}
{"id": "C63", "title": "Numbers whose type is not given", "statement": "Where nothing says of which type a number is (a Value, or what a type skips): a text begins with a number, and which one, exactly as a small specification says. A suffix names the type; without one, an integer has the smallest type that has it, unsigned unless there is a minus sign; what is too large for every integer type is a float; a float without suffix is an f32 exactly if it is the same number as its f64; byte literals are u8. Any other text fails with the error and at the place that the specification says (for floats, which are texts with more characters of floats than hexadecimal digits, that of the float; otherwise that of the integer). Every text is one or the other, in one way only. A Value is read as a range (a map with start, end) exactly for the notations a.., a..b, a..=b, ..b, ..=b, and .. alone is the unit. The error of a document ends at the line and column of that place.", "quantifier": "all texts, options, layout and attributes before the number", "why_tests_cant": "the type and the choice between integer and float depend on all of the digits, of any length; that no other text is read as a number is a statement about every text", "anchors": ["src/parse.rs: any_number, next_bytes_is_float, integer, float, AnyNum", "src/de/mod.rs: deserialize_any, handle_float_range_or_value", "src/value/number.rs"]}
{"id": "C64", "title": "A document that was cut off is refused, or still says the same", "statement": "If a document of a type whose texts show where they end (strings, characters, byte strings, sequences, tuples, maps, structs, enums all variants of which have data, booleans, units, options and newtypes) is cut off anywhere, from_str::<T> either refuses it or gives the same data as for the whole, and then only layout was cut off. What to_string wrote and then lost its end is never read as other data. For other types this is false: 12 cut off is 1, 1..23 is 1..2, the variant AB is the variant A, and with implicit_some an option of a number is a number.", "quantifier": "every text, every place at which it is cut off, every type of that kind (recursive ones included, with fields of any type), all options without unwrap_variant_newtypes", "why_tests_cant": "every prefix of every document would have to be tried, for every type; a reader that accepts the end of the input for one closing bracket reads all complete documents correctly", "anchors": ["src/de/mod.rs: from_str_seed, end, CommaSeparated::has_element", "src/options.rs: from_str_seed", "src/parse.rs: consume_char, string, comma"]}
{"id": "C65", "title": "A defect inside a document is reported as what it is, where it is", "statement": "If a document has one of these defects anywhere inside it, however deeply nested and whatever well-formed data stands before it, from_str::<T> fails with exactly that error, and the span of the error ends exactly there: a list, map, tuple, struct, option or newtype that is not opened; a comma, colon or closing bracket that is missing; a tuple with too few or too many items; a field that is unknown (under deny_unknown_fields), given twice, or missing, with the name of the struct or variant it belongs to; an unknown variant, with the name of the enum; a variant without its data; another name than that of the struct, or none where explicit_struct_names asks for one; something that is no name where a field or variant is named, with the suggestion of a raw identifier; a malformed number, string, byte string, character, boolean, unit or unit struct; a range with a malformed bound, without its operator, with that of another range, or with a bound that the type does not take; and anything after the value (TrailingCharacters). A text has at most one such defect and then no text of the type ends there. False: that ExpectedNamedStructLike(name) means that the struct `name` is missing; an item of a tuple struct that lacks its parentheses gives it too.", "quantifier": "every document, every type (recursive ones included) and every depth at which the defect occurs, all options without unwrap_variant_newtypes whose recursion limit allows the nesting", "why_tests_cant": "defects combine with any nesting and any data before them; errors pass through several layers that rename them and positions depend on all that was read", "anchors": ["src/de/mod.rs: CommaSeparated, deserialize_tuple, deserialize_option, deserialize_newtype_struct, handle_struct_after_name, struct_error_name, deserialize_enum, Enum::newtype_variant_seed", "src/error.rs: SpannedError", "src/parse.rs: span_error, comma"]}
{"id": "C66", "title": "Every document is read, or refused for a defect it has", "statement": "For types built from booleans, numbers, characters, strings, byte strings, units, options, sequences, tuples, maps, structs of all kinds (those of the ranges of std in their own notation too) and enums: from_str::<T> reads every text of the type as the data it denotes; every other document is refused, with the error of a defect that the text has (those of C65), and the span of the error ends at that defect; or with TrailingCharacters where it goes on after a whole text of the type. So no error is ever given for a reason the text does not show, and no document is refused that has no defect. A slash that begins no comment and a block comment that is not closed, between the parts of a sequence, tuple, map, option, struct or enum at any depth or after the value, are refused with the error of that comment; a line comment after the value need not be closed. Left out of the classification are documents with a comment that is not complete, in a place between the parts of the value (a document without a slash has none), and documents where a field that the type ignores holds something that is no value (not possible with deny_unknown_fields). For types without named fields (of structs or variants), and without newtypes where unwrap_newtypes is enabled, nothing is left out but documents that end inside a line comment: each is read, or has a defect, or goes on, or has a broken comment.", "quantifier": "every document, every such type (recursive ones down to the depth the fuel allows), all options without unwrap_variant_newtypes whose recursion limit is at least three times that depth", "why_tests_cant": "that a classification is exhaustive speaks about all texts, also those nobody thought of; a test names the texts", "anchors": ["src/de/mod.rs: CommaSeparated, Enum, deserialize_bool, deserialize_option, deserialize_seq, deserialize_tuple, deserialize_map, deserialize_struct, deserialize_newtype_struct, deserialize_tuple_struct, deserialize_unit_struct, deserialize_enum, end", "src/parse.rs: bool, integer, float, char, string, identifier, consume_struct_name, comma, skip_ws, span_error", "src/options.rs: Options::from_str"]}
