{
 "claims": [
  {
   "property": "C01",
   "status": "proved",
   "theorems": [
    "Ron.C01_layout_is_skipped",
    "Ron.C01_open_line_comment_is_skipped",
    "Ron.C01_only_layout_is_skipped",
    "Ron.C01_idempotent",
    "Ron.C01_failure",
    "Ron.C01_typed_document",
    "Ron.C01_value_document"
   ],
   "note": "layout between tokens is skipped completely and exactly `Parser::skip_ws` is called wherever RON allows layout. Specification: `Verif/Spec/Layout.lean`."
  },
  {
   "property": "C02",
   "status": "proved",
   "theorems": [
    "Ron.C02_balanced_comment",
    "Ron.C02_accepted_is_balanced",
    "Ron.C02_unbalanced_rejected",
    "Ron.C02_end_unique"
   ],
   "note": "block comments nest and are closed by the matching delimiter"
  },
  {
   "property": "C03",
   "status": "proved",
   "theorems": [
    "Ron.C03_exact_or_rejected",
    "Ron.C03_accepted_is_exact"
   ],
   "note": "integer literals denote their mathematical value or are rejected `integer (.one T)` is the reader used for the integer type `T`. Literals and their value are those of `Verif.Spec.IntLit`."
  },
  {
   "property": "C04",
   "status": "proved",
   "theorems": [
    "Ron.C04_roundtrip",
    "Ron.C04_injective"
   ],
   "note": "integers survive serialization and deserialization"
  },
  {
   "property": "C05",
   "status": "proved",
   "theorems": [
    "Ron.C05_other_type_rejected",
    "Ron.C05_self_describing",
    "Ron.C05_accepted_suffix"
   ],
   "note": "a type suffix on an integer is binding"
  },
  {
   "property": "C06",
   "status": "proved",
   "theorems": [
    "Ron.C06_smallest_type",
    "Ron.C06_unique"
   ],
   "note": "unsuffixed integers read into a `Value` get the smallest fitting type"
  },
  {
   "property": "C07",
   "status": "proved",
   "theorems": [
    "Ron.C07_roundtrip",
    "Ron.C07_reads_literal",
    "Ron.C07_injective"
   ],
   "note": "escaped strings round-trip"
  },
  {
   "property": "C08",
   "status": "proved",
   "theorems": [
    "Ron.C08_roundtrip",
    "Ron.C08_reads_raw"
   ],
   "note": "unescaped and raw strings round-trip"
  },
  {
   "property": "C09",
   "status": "proved",
   "theorems": [
    "Ron.C09_roundtrip",
    "Ron.C09_reads_literal",
    "Ron.C09_list"
   ],
   "note": "byte strings round-trip"
  },
  {
   "property": "C10",
   "status": "proved",
   "theorems": [
    "Ron.C10_roundtrip",
    "Ron.C10_injective"
   ],
   "note": "characters round-trip"
  },
  {
   "property": "C11",
   "status": "proved",
   "theorems": [
    "Ron.C11_written_or_refused",
    "Ron.C11_refused_iff",
    "Ron.C11_no_injection",
    "Ron.C11_not_keyword",
    "Ron.C11_maximal",
    "Ron.C11_document"
   ],
   "note": "identifiers are written so that they read back, or refused"
  },
  {
   "property": "C12",
   "status": "proved",
   "theorems": [
    "Ron.C12_suggested",
    "Ron.C12_not_suggested",
    "Ron.C12_suggestion_reads",
    "Ron.C12_unique",
    "Ron.C12_encoding_recognised"
   ],
   "note": "base64-looking strings are recognised exactly"
  },
  {
   "property": "C13",
   "status": "proved",
   "theorems": [
    "Ron.C13"
   ],
   "note": "extension headers written by the serializer enable exactly those extensions"
  },
  {
   "property": "C14",
   "status": "proved",
   "theorems": [
    "Ron.C14_sound",
    "Ron.C14_default_kept",
    "Ron.C14_named",
    "Ron.C14_complete",
    "Ron.C14_unknown"
   ],
   "note": "document attributes only ever add known extensions"
  },
  {
   "property": "C15",
   "status": "proved",
   "theorems": [
    "Ron.C15_end",
    "Ron.C15",
    "Ron.C15_trailing",
    "Ron.C15_split"
   ],
   "note": "no trailing input is ignored"
  },
  {
   "property": "C16",
   "status": "proved",
   "theorems": [
    "Ron.C16",
    "Ron.C16_written",
    "Ron.C16_limit_needed"
   ],
   "note": "every `Value` round-trips exactly with number suffixes"
  },
  {
   "property": "C17",
   "status": "proved",
   "theorems": [
    "Ron.C17",
    "Ron.C17_exact",
    "Ron.C17_shape",
    "Ron.C17_keys_collide"
   ],
   "note": "without suffixes a `Value` round-trips up to number types"
  },
  {
   "property": "C18",
   "status": "partial",
   "theorems": [
    "Ron.C18_partial",
    "Ron.C18_value_partial",
    "Ron.C18_untyped_fails"
   ],
   "note": "pretty-printing options do not change the data Missing from the full claim, hence `_partial`: the exclusions of `SVal.Clean` (see C19); and read as an untyped `Value` the texts of an empty struct or tuple struct can differ (`C18_untyped_fails`)."
  },
  {
   "property": "C19",
   "status": "partial",
   "theorems": [
    "Ron.C19_partial",
    "Ron.C19_roundtrip_partial",
    "Ron.C19_injective_partial",
    "Ron.C19_fails"
   ],
   "note": "typed data round-trips under every combination of extensions `HasTy` (Spec/HasTy.lean) says which data belongs to a type. Missing from the full claim, hence `_partial`: under `compact_ranges`, ranges with bounds that do not fit the compact notation (see C31) and, under both `implicit_some` and `unwrap_variant_newtypes`, options of tuples of options inside newtype variants (`SVal.Clean`, Spec/Clean.lean; `C19_fails` shows that the claim is false there), fields of type `Value` and `RawValue`."
  },
  {
   "property": "C20",
   "status": "proved",
   "theorems": [
    "Ron.C20",
    "Ron.C20_distinct"
   ],
   "note": "nested options round-trip with `implicit_some` The payload is any data that C19 covers; the options around it are arbitrarily many."
  },
  {
   "property": "C21",
   "status": "proved",
   "theorems": [
    "Ron.C21_struct",
    "Ron.C21_only_struct",
    "Ron.C21_only_newtype",
    "Ron.C21_only_tuple",
    "Ron.C21_only_unit",
    "Ron.C21_wrong_name",
    "Ron.C21_missing_name",
    "Ron.C21_wrong_document"
   ],
   "note": "struct names are optional but never wrong The theorems speak of reading at an arbitrary place of an arbitrary text (a parser state whose remaining text is `s.rest`), so they hold for whole documents and for every struct inside of them. `s.nv` is set only inside a newtype variant under `unwrap_variant_newtypes`, where a struct is written without name and parentheses."
  },
  {
   "property": "C22",
   "status": "proved",
   "theorems": [
    "Ron.C22_fields",
    "Ron.C22_order",
    "Ron.C22_duplicate",
    "Ron.C22_unknown",
    "Ron.C22_missing"
   ],
   "note": "struct fields are order-independent, complete and unique `gs` lists the fields as they stand in the text, in their order there; `fs` are the fields of the value, in the order of the type."
  },
  {
   "property": "C23",
   "status": "proved",
   "theorems": [
    "Ron.C23_threshold",
    "Ron.C23_threshold_value",
    "Ron.C23_threshold_ignored",
    "Ron.C23_depth",
    "Ron.C23_depth_value",
    "Ron.C23_siblings",
    "Ron.C23_accepts",
    "Ron.C23_width",
    "Ron.C23_guard"
   ],
   "note": "deserialization enforces the recursion limit exactly."
  },
  {
   "property": "C24",
   "status": "partial",
   "theorems": [
    "Ron.C24_exact",
    "Ron.C24_partial",
    "Ron.C24_within",
    "Ron.C24_errors",
    "Ron.C24_fails"
   ],
   "note": "Exact statement: C24_exact, with the levels `need` that the serializer really counts. The full claim is false: every compound that has been finished raises the limit again, so with limit 1 data of any nesting can be serialized (C24_fails). C24_partial covers data nested too deeply before any compound in it is finished; C24_within: data within the limit is never refused."
  },
  {
   "property": "C25",
   "status": "proved",
   "theorems": [
    "Ron.C25_counts",
    "Ron.C25_line_column",
    "Ron.C25_increasing",
    "Ron.C25_unique"
   ],
   "note": "error positions count lines and columns of the source"
  },
  {
   "property": "C26",
   "status": "partial",
   "theorems": [
    "Ron.C26_partial",
    "Ron.C26_bytes_partial",
    "Ron.C26_order_fails",
    "Ron.C26_order_fails_int"
   ],
   "note": "error spans lie inside the source The second half of the property (the start is not after the end) is false of the code: `C26_order_fails`."
  },
  {
   "property": "C27",
   "status": "proved",
   "theorems": [
    "Ron.C27_number_order",
    "Ron.C27_value_order",
    "Ron.C27_map_order",
    "Ron.C27_hash",
    "Ron.C27_hash_distinct",
    "Ron.C27_maps_collide",
    "Ron.C27_f32_total_order",
    "Ron.C27_f64_total_order",
    "Ron.C27_structure"
   ],
   "note": "Numbers and Values are totally ordered and Eq/Ord/Hash agree"
  },
  {
   "property": "C28",
   "status": "proved",
   "theorems": [
    "Ron.C28_get",
    "Ron.C28_returns",
    "Ron.C28_iter",
    "Ron.C28_key_order",
    "Ron.C28_insertion_order",
    "Ron.C28_retain_visits",
    "Ron.C28_collect"
   ],
   "note": "Map is a finite map Operation sequences are lists with the last operation first."
  },
  {
   "property": "C29",
   "status": "proved",
   "theorems": [
    "Ron.C29_seq",
    "Ron.C29_seq_unique",
    "Ron.C29_seq_ok",
    "Ron.C29_map",
    "Ron.C29_map_unique",
    "Ron.C29_map_ok",
    "Ron.C29_no_panic",
    "Ron.C29_identity"
   ],
   "note": "converting a `Value` reads every element exactly once"
  },
  {
   "property": "C30",
   "status": "partial",
   "theorems": [
    "Ron.C30_accepts",
    "Ron.C30_trim",
    "Ron.C30_trim_again",
    "Ron.C30_plain",
    "Ron.C30_embeds_partial",
    "Ron.C30_sequence",
    "Ron.C30_read",
    "Ron.C30_attribute_fails",
    "Ron.C30_depth_fails",
    "Ron.C30_from_rust_fails"
   ],
   "note": "a raw value is one valid RON value, keeps its text, and can be trimmed and embedded `rawFromRon` is `RawValue::from_ron`, `rawTrim` is `trim`, `rawTrimBoxed` is `trim_boxed`; a raw value is its text. The claim about embedding is false for raw values that begin with an attribute (`C30_attribute_fails`) and for raw values that use up the recursion limit (`C30_depth_fails`); `C30_embeds_partial` excludes both. `RawValue::from_rust` does not check what it wrote: `C30_from_rust_fails`."
  },
  {
   "property": "C31",
   "status": "partial",
   "theorems": [
    "Ron.C31_document_partial",
    "Ron.C31_full",
    "Ron.C31_nested_partial",
    "Ron.C31_fallback_partial",
    "Ron.C31_value_partial",
    "Ron.C31_explicit_fails",
    "Ron.C31_unwrap_fails",
    "Ron.C31_word_fails",
    "Ron.C31_value_fails"
   ],
   "note": "compact ranges round-trip The claim for all bounds is false (`C31_explicit_fails`, `C31_unwrap_fails`, `C31_word_fails`), hence `_partial`: a range the bounds of which are not numbers is written as a struct without its name and always within parentheses, which does not fit `explicit_struct_names` and `unwrap_variant_newtypes`; a range with two bounds the first of which is `inf` or `NaN` is not recognized. The bounds are numbers that are not changed by being read without a type first (`Number.Keeps`; this is no restriction on integers, on `f64` and on `f32` written with suffix)."
  },
  {
   "property": "C32",
   "status": "proved",
   "theorems": [
    "Ron.C32_writes",
    "Ron.C32_success_is_complete",
    "Ron.C32_prefix",
    "Ron.C32_no_failure",
    "Ron.C32_full_disk"
   ],
   "note": "writer failures always surface and the output is a prefix"
  },
  {
   "property": "C33",
   "status": "proved",
   "theorems": [
    "Ron.C33_comments_only",
    "Ron.C33_data",
    "Ron.C33_preserved"
   ],
   "note": "documentation metadata adds comments only and is preserved."
  },
  {
   "property": "C34",
   "status": "proved",
   "theorems": [
    "Ron.C34_valid",
    "Ron.C34_invalid",
    "Ron.C34_reader",
    "Ron.C34_reader_error"
   ],
   "note": "reading bytes agrees with reading text Specification: UTF-8 is Lean's own encoder `String.utf8EncodeChar`, one character after the other."
  },
  {
   "property": "C35",
   "status": "proved",
   "theorems": [
    "Ron.C35_extensions",
    "Ron.C35_limit",
    "Ron.C35_default"
   ],
   "note": "the option builders are independent switches"
  },
  {
   "property": "C36",
   "status": "proved",
   "theorems": [
    "Ron.C36_refused",
    "Ron.C36_accepted"
   ],
   "note": "the pretty configuration cannot inject syntax"
  },
  {
   "property": "C37",
   "status": "proved",
   "theorems": [
    "Ron.C37_value",
    "Ron.C37_typed",
    "Ron.C37_no_panic",
    "Ron.C37_forward",
    "Ron.C37_progress",
    "Ron.C37_element"
   ],
   "note": "parsing terminates and always makes progress Every loop and every recursion of the model takes fuel computed from the remaining input; running out is the error `.fuel`, which the code does not have. That it does not occur means that the code's loops and recursions end."
  },
  {
   "property": "C38",
   "status": "partial",
   "theorems": [
    "Ron.C38_seq",
    "Ron.C38_tuple",
    "Ron.C38_map",
    "Ron.C38_struct",
    "Ron.C38_option",
    "Ron.C38_newtype",
    "Ron.C38_seq_only",
    "Ron.C38_map_only",
    "Ron.C38_tuple_only_partial",
    "Ron.C38_struct_only",
    "Ron.C38_double_comma",
    "Ron.C38_double_comma_fails"
   ],
   "note": "Trailing commas optional, no other comma, for sequences, tuples, maps, structs, newtypes, options. Missing, because false: a tuple inside a newtype variant under unwrap_variant_newtypes accepts two trailing commas (C38_double_comma_fails); C38_tuple_only_partial excludes that position."
  },
  {
   "property": "C39",
   "status": "partial",
   "theorems": [
    "Ron.C39_partial",
    "Ron.C39_local_partial",
    "Ron.C39_open_partial",
    "Ron.C39_name_partial",
    "Ron.C39_comment_counts"
   ],
   "note": "The look-ahead leaves the state unchanged and depends only on the text in front (proved). Independence from comments is false in the mode that counts elements, which is used inside unwrapped newtype variants: C39_comment_counts."
  },
  {
   "property": "C40",
   "status": "proved",
   "theorems": [
    "Ron.C40_value",
    "Ron.C40_underscores_ignored",
    "Ron.C40_misplaced_underscore",
    "Ron.C40_suffix_value",
    "Ron.C40_suffix_binding"
   ],
   "note": "float literals are passed to the standard parser without underscores `float .f32`, `float .f64` and `float .any` are the readers of `f32`, `f64` and of a float in untyped position. `FloatRun t r` says that `t` is the literal at the front of `t ++ r`."
  },
  {
   "property": "C41",
   "status": "proved",
   "theorems": [
    "Ron.C41_string",
    "Ron.C41_byte_string",
    "Ron.C41_unique"
   ],
   "note": "the accepted string and byte string literals are exactly the grammar"
  },
  {
   "property": "C42",
   "status": "proved",
   "theorems": [
    "Ron.C42_f32",
    "Ron.C42_f32_nan",
    "Ron.C42_f64",
    "Ron.C42_f64_nan",
    "Ron.C42_untyped_suffix"
   ],
   "note": "floats survive serialization and deserialization"
  },
  {
   "property": "C43",
   "status": "proved",
   "theorems": [
    "Ron.C43",
    "Ron.C43_written"
   ],
   "note": "serialized data is self-describing"
  },
  {
   "property": "C44",
   "status": "proved",
   "theorems": [
    "Ron.C44"
   ],
   "note": "layout before a document never matters"
  },
  {
   "property": "C45",
   "status": "proved",
   "theorems": [
    "Ron.C45_read",
    "Ron.C45_write"
   ],
   "note": "without implicit_some options are explicit"
  },
  {
   "property": "C46",
   "status": "proved",
   "theorems": [
    "Ron.C46_typed",
    "Ron.C46_value",
    "Ron.C46_value_again",
    "Ron.C46_again"
   ],
   "note": "what is read is data of the type it is read as, and can be written and read again."
  },
  {
   "property": "C47",
   "status": "partial",
   "theorems": [
    "Ron.C47_partial",
    "Ron.C47_value_partial",
    "Ron.C47_enum_fails",
    "Ron.C47_empty_fails",
    "Ron.C47_newtype_fails",
    "Ron.C47_some_fails"
   ],
   "note": "the way through an untyped `Value` gives the same data Missing from the full claim, hence `_partial`: the exclusions of `SVal.Through`. For enums, empty structs, unwrapped newtypes and implicit options the claim is false (`C47_enum_fails`, `C47_empty_fails`, `C47_newtype_fails`, `C47_some_fails`)."
  },
  {
   "property": "C48",
   "status": "proved",
   "theorems": [
    "Ron.C48_reads",
    "Ron.C48_only",
    "Ron.C48",
    "Ron.C48_plain",
    "Ron.C48_one"
   ],
   "note": "a document reads as a `Value` exactly if it is a text of the language, and to what it denotes there The language is `LangX` of `Spec/Lang.lean`: with `implicit_some` the parentheses after `Some` may be left out, without it the language is `Lang`. Not claimed: documents in which `unwrap_variant_newtypes` is enabled, and that a line comment which the end of the document ends is skipped (the first direction)."
  },
  {
   "property": "C49",
   "status": "proved",
   "theorems": [
    "Ron.C49_ignored",
    "Ron.C49_value",
    "Ron.C49_value_ignored"
   ],
   "note": "unknown fields are ignored unless they are denied Directly from text, whatever value of the language stands in the unknown field, and from a map of a `Value`."
  },
  {
   "property": "C50",
   "status": "partial",
   "theorems": [
    "Ron.C50_index",
    "Ron.C50_unique",
    "Ron.C50_exclusive",
    "Ron.C50_inclusive",
    "Ron.C50_error_partial",
    "Ron.C50_grapheme_fails",
    "Ron.C50_order_fails",
    "Ron.C50_end_fails"
   ],
   "note": "the substring that a span selects `gs` are the graphemes of the text (external code). A span of an error selects the text between its ends if the ends are in order and the graphemes before them are single characters or `\\r\\n`. Otherwise the claim is false, hence `_partial`: positions of errors count characters, but positions are looked up counting graphemes (`C50_grapheme_fails`), and ends out of order (C26) are a panic (`C50_order_fails`), as is the inclusive substring of an error at the end of the text (`C50_end_fails`)."
  },
  {
   "property": "C51",
   "status": "partial",
   "theorems": [
    "Ron.C51_buffered",
    "Ron.C51_roundtrip_partial",
    "Ron.C51_untagged_partial",
    "Ron.C51_first",
    "Ron.C51_repeated",
    "Ron.C51_limit_fails",
    "Ron.C51_one_field_fails",
    "Ron.C51_newtype_fails",
    "Ron.C51_empty_fails",
    "Ron.C51_comma_fails",
    "Ron.C51_unbalanced_fails",
    "Ron.C51_implicit_fails"
   ],
   "note": "untagged enums, and everything else that serde buffers as `Content`. Data written by `to_string` is buffered as the content it stands for, is read from there as it was, and an untagged enum gives the first variant that takes the content. Partial: the extension `unwrap_variant_newtypes` is excluded, and so are the data that the negations below show to be lost (newtype structs without `unwrap_newtypes`, structs with `explicit_struct_names`, units in options with `implicit_some`, tuple variants with one field, empty tuples and structs, 128-bit integers)."
  },
  {
   "property": "C52",
   "status": "proved",
   "theorems": [
    "Ron.C52_text",
    "Ron.C52_written",
    "Ron.C52_exactly",
    "Ron.C52_same"
   ],
   "note": "`to_string` writes exactly the compact form of the data."
  },
  {
   "property": "C53",
   "status": "partial",
   "theorems": [
    "Ron.C53_anywhere",
    "Ron.C53_struct",
    "Ron.C53_roundtrip_partial",
    "Ron.C53_written",
    "Ron.C53_missing",
    "Ron.C53_twice",
    "Ron.C53_unknown",
    "Ron.C53_field_fails",
    "Ron.C53_identifier_fails",
    "Ron.C53_implicit_fails"
   ],
   "note": "internally tagged enums. The tag may stand anywhere in the struct or map, with or without a name in front; a missing, repeated or unknown tag is an error that says so; what `to_string` wrote is read back. Partial: the extension `unwrap_variant_newtypes` is excluded, and so are data that do not survive serde's buffer (see C51) and data that have a field of their own called like the tag."
  },
  {
   "property": "C54",
   "status": "partial",
   "theorems": [
    "Ron.C54_any_order",
    "Ron.C54_roundtrip_partial",
    "Ron.C54_written",
    "Ron.C54_missing",
    "Ron.C54_twice",
    "Ron.C54_inner_once",
    "Ron.C54_struct_syntax",
    "Ron.C54_map_first_fails",
    "Ron.C54_collision_fails",
    "Ron.C54_key_fails",
    "Ron.C54_identifier_fails",
    "Ron.C54_implicit_fails"
   ],
   "note": "structs with flattened fields. Such a struct is a map with strings as keys; its entries may stand in any order, and what `to_string` wrote is read back. A plain field or a field of a flattened struct that is missing or repeated is an error. Partial: for the round trip the extension `unwrap_variant_newtypes` is excluded; so are data in flattened fields that do not survive serde's buffer (see C51), data that use a key twice, and flattened fields after a flattened map."
  },
  {
   "property": "C55",
   "status": "partial",
   "theorems": [
    "Ron.C55_tag_first",
    "Ron.C55_content_first",
    "Ron.C55_partial",
    "Ron.C55_roundtrip_partial",
    "Ron.C55_swapped",
    "Ron.C55_missing_tag",
    "Ron.C55_missing_content",
    "Ron.C55_absent_option",
    "Ron.C55_tag_twice",
    "Ron.C55_content_twice",
    "Ron.C55_unknown",
    "Ron.C55_fields_as_map",
    "Ron.C55_map_missing",
    "Ron.C55_map_key",
    "Ron.C55_empty_fails",
    "Ron.C55_range_fails",
    "Ron.C55_content_first_fails",
    "Ron.C55_string_fails",
    "Ron.C55_name_unchecked"
   ],
   "note": "adjacently tagged enums. Such an enum is a struct with a field for the name of the variant and one for its content, in this order or the other, with unknown fields between them; what was written with any options and any pretty configuration is read back. A field that is missing or repeated or that names no variant is an error that says so. The content of a struct variant may be a map whose keys are strings, with the same errors. Partial: struct variants without fields are not read back; struct variants called like a range of std are excluded; if the content comes first, so are data that do not survive serde's buffer (see C51)."
  },
  {
   "property": "C56",
   "status": "proved",
   "theorems": [
    "Ron.C56_place",
    "Ron.C56_message",
    "Ron.C56_whole",
    "Ron.C56_found",
    "Ron.C56_name",
    "Ron.C56_names",
    "Ron.C56_closing_same",
    "Ron.C56_custom_same",
    "Ron.C56_expected_same"
   ],
   "note": "the text of an error says where and what, and can be read only one way."
  },
  {
   "property": "C57",
   "status": "proved",
   "theorems": [
    "Ron.C57_read",
    "Ron.C57_missing",
    "Ron.C57_twice",
    "Ron.C57_unknown",
    "Ron.C57_written",
    "Ron.C57_roundtrip",
    "Ron.C57_roundtrip_plain",
    "Ron.C57_skipped_fails"
   ],
   "note": "defaults, aliases, renamed and skipped fields Structs whose fields have the serde attributes `default`, `alias`, `rename`, `skip_serializing_if`, `skip_serializing`, `skip_deserializing`."
  },
  {
   "property": "C58",
   "status": "proved",
   "theorems": [
    "Ron.C58_implicit_some",
    "Ron.C58_explicit_struct_names",
    "Ron.C58_no_structs",
    "Ron.C58_unwrap_newtypes",
    "Ron.C58_unwrap_variant_newtypes"
   ],
   "note": "an extension changes only what it is about `implicit_some` and the absence of `explicit_struct_names` let more documents in and change nothing else; `unwrap_newtypes` and `unwrap_variant_newtypes` change nothing for types without what they are about. All of this for every text, also malformed ones, with the same errors at the same places."
  },
  {
   "property": "C59",
   "status": "proved",
   "theorems": [
    "Ron.C59_string",
    "Ron.C59_byte_string",
    "Ron.C59_char",
    "Ron.C59_byte",
    "Ron.C59_unique",
    "Ron.C59_doc_string",
    "Ron.C59_doc_char",
    "Ron.C59_doc_bytes"
   ],
   "note": "malformed literals are exactly these errors, at exactly these places Strings, byte strings, characters and byte literals. Reading either gives the value of the literal the input starts with, or the input is malformed and reading gives the error of the defect, having read exactly up to the defect."
  },
  {
   "property": "C60",
   "status": "proved",
   "theorems": [
    "Ron.C60_reads",
    "Ron.C60_fails",
    "Ron.C60_unique",
    "Ron.C60_doc",
    "Ron.C60_float_reads",
    "Ron.C60_float_fails",
    "Ron.C60_doc_float",
    "Ron.C60_bool"
   ],
   "note": "every text a number may be read from: the number, or the error and its place `GoodInt` and `BadInt` of `Verif.Spec.BadNumbers` divide all texts (byte literals `b'..'` are those of C59): which number is read and what is left, or which error and what is left. `GoodFloat` and `BadFloat` do so for floats."
  },
  {
   "property": "C61",
   "status": "proved",
   "theorems": [
    "Ron.C61_text",
    "Ron.C61_into",
    "Ron.C61_value_into",
    "Ron.C61_reread",
    "Ron.C61_reread_untyped",
    "Ron.C61_last_wins",
    "Ron.C61_byte_array",
    "Ron.C61_into_f64",
    "Ron.C61_unsorted_fails",
    "Ron.C61_byte_array_fails"
   ],
   "note": "data converted with `Value::from`"
  },
  {
   "property": "C62",
   "status": "proved",
   "theorems": [
    "Ron.C62_reads",
    "Ron.C62_only",
    "Ron.C62",
    "Ron.C62_one"
   ],
   "note": "a document reads as data of a type exactly if it is a text of the type, and to the data that it denotes The texts of a type are `TyLang` of `Spec/TyLang.lean`; those of the ranges of the standard library include the range notation. Not claimed: documents in which `unwrap_variant_newtypes` is enabled, raw values, and that a line comment which the end of the document ends is skipped."
  },
  {
   "property": "C63",
   "status": "proved",
   "theorems": [
    "Ron.C63_reads",
    "Ron.C63_fails",
    "Ron.C63_unique",
    "Ron.C63_values",
    "Ron.C63_one_value",
    "Ron.C63_doc"
   ],
   "note": "numbers whose type is not given `NumberAt` and `BadNumberAt` of `Verif.Spec.AnyNumber` divide all texts (byte literals `b'..'` that are malformed are those of C59): which number a text begins with when nothing says of which type it is, as in a `Value`, and what is left; or which error, and what is left. `NumText` says which texts are values that are numbers or ranges."
  },
  {
   "property": "C64",
   "status": "proved",
   "theorems": [
    "Ron.C64_text",
    "Ron.C64_same",
    "Ron.C64",
    "Ron.C64_cut",
    "Ron.C64_written",
    "Ron.C64_number_fails",
    "Ron.C64_range_fails",
    "Ron.C64_variant_fails",
    "Ron.C64_implicit_fails"
   ],
   "note": "a document that was cut off is refused, or it still says the same `Closed` (`Spec/Closed.lean`) are the types the texts of which show where they end. For others the claim is false: `C64_number_fails`, `C64_range_fails`, `C64_variant_fails`, `C64_implicit_fails`. Not claimed: documents in which `unwrap_variant_newtypes` is enabled, and raw values."
  },
  {
   "property": "C65",
   "status": "proved",
   "theorems": [
    "Ron.C65",
    "Ron.C65_unwrap_variant_newtypes",
    "Ron.C65_trailing",
    "Ron.C65_unique",
    "Ron.C65_no_text",
    "Ron.C65_name_fails"
   ],
   "note": "a defect inside a document is reported as what it is, where it is `BadTy` (`Spec/BadTy.lean`) says which defect a text has, at any depth inside lists, tuples, maps, structs, enums, options and newtypes; which error that is, and what is left of the text at its place. Not in `BadTy`: values of no given type (C63), raw values, and what `unwrap_variant_newtypes` changes."
  },
  {
   "property": "C66",
   "status": "proved",
   "theorems": [
    "Ron.C66_sorted",
    "Ron.C66",
    "Ron.C66_refused",
    "Ron.C66_no_slash",
    "Ron.C66_reads",
    "Ron.C66_torn",
    "Ron.C66_after",
    "Ron.C66_broken",
    "Ron.C66_odd",
    "Ron.C66_total",
    "Ron.C66_total_reads",
    "Ron.C66_unwrap_variant_newtypes"
   ],
   "note": "every document is read, or refused for a defect it has C62 says which documents are read, C65 how documents with certain defects are refused. For the types of `Spec/Covered.lean`, among them structs and enums, there is nothing else: every text is a text of the type, or has one of the defects of `BadTy`, or goes on after the value, or is one of `OddTy`: a comment in a place between its parts is not complete, or a field that is ignored holds something that is no value. Comments that are not complete are refused with their own error (`C66_broken`), except a line comment after the value (`C66_after`)."
  }
 ]
}