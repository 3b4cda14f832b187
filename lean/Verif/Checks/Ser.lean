import Verif.Lemmas.Deq
import Verif.Checks.De
/-!
# The model against the crate's own tests: writing

Assertions of src/ser/tests.rs and of the files in tests/, transcribed (floats replaced by integers).
-/

namespace Ron.Checks

local instance : Env := asciiEnv true true

/-- `to_string` (no configuration) or `to_string_pretty`. -/
def wr' (c : Option PrettyConfig) (v : SVal) (o : Options := {}) : Except Err String := (toText o c v).map String.ofList

/-- `check_to_string_writer` of src/ser/tests.rs. -/
def check (v : SVal) (plain pretty : String) : Bool :=
  decide (wr' none v = .ok plain) && decide (wr' (some { structNames := true, compactStructs := true }) v = .ok pretty)

/-! src/ser/tests.rs -/

example : check (.unitStruct (s "EmptyStruct1")) "()" "EmptyStruct1" := by decide +kernel
example : check (.struct (s "EmptyStruct2") []) "()" "EmptyStruct2()" := by decide +kernel
example : check (.struct (s "MyStruct") [(s "x", int 4), (s "y", int 7)]) "(x:4,y:7)" "MyStruct(x: 4, y: 7)" := by decide +kernel
example : check (.newtypeStruct (s "NewType") (int 42)) "(42)" "NewType(42)" := by decide +kernel
example : check (.tupleStruct (s "TupleStruct") [int 2, int 5]) "(2,5)" "TupleStruct(2, 5)" := by decide +kernel
example : check (.some (uint 1)) "Some(1)" "Some(1)" := by decide +kernel
example : check .none "None" "None" := by decide +kernel
example : check (.unitVariant (s "MyEnum") (s "A")) "A" "A" := by decide +kernel
example : check (.newtypeVariant (s "MyEnum") (s "B") (.bool true)) "B(true)" "B(true)" := by decide +kernel
example : check (.tupleVariant (s "MyEnum") (s "C") [.bool true, int 3]) "C(true,3)" "C(true, 3)" := by decide +kernel
example : check (.structVariant (s "MyEnum") (s "D") [(s "a", int 2), (s "b", int 3)]) "D(a:2,b:3)" "D(a: 2, b: 3)" := by
  decide +kernel
example : check (.tuple []) "()" "()" := by decide +kernel
example : check (.seq (some 0) []) "[]" "[]" := by decide +kernel
example : check (.tuple [int 2, int 3, int 4]) "(2,3,4)" "(2, 3, 4)" := by decide +kernel
example : check (.seq (some 3) [int 2, int 3, int 4]) "[2,3,4]" "[\n    2,\n    3,\n    4,\n]" := by decide +kernel
example : check (.map (some 2) [(.tuple [.bool false, .bool false], int 123), (.tuple [.bool true, .bool false], int 4)])
    "{(false,false):123,(true,false):4}" "{\n    (false, false): 123,\n    (true, false): 4,\n}" := by decide +kernel
example : check (.str (s "Some string")) "\"Some string\"" "\"Some string\"" := by decide +kernel
example : check (.char 'c') "'c'" "'c'" := by decide +kernel
example : check (.str (s "\"Quoted\"")) "\"\\\"Quoted\\\"\"" "\"\\\"Quoted\\\"\"" := by decide +kernel
example : check (.bytes [1, 2, 3, 4]) "b\"\\x01\\x02\\x03\\x04\"" "b\"\\x01\\x02\\x03\\x04\"" := by decide +kernel
example : check (.bytes [255, 255]) "b\"\\xff\\xff\"" "b\"\\xff\\xff\"" := by decide +kernel
example : check (.unitVariant (s "Foo") (s "2d")) "r#2d" "r#2d" := by decide +kernel
example : check (.unitVariant (s "Foo") (s "triangle-list")) "r#triangle-list" "r#triangle-list" := by decide +kernel
example : check (.num (.f32 F32.nan)) "NaN" "NaN" := by decide +kernel
example : check (.num (.f32 F32.negNan)) "-NaN" "-NaN" := by decide +kernel
example : check (.num (.f32 F32.inf)) "inf" "inf" := by decide +kernel
example : check (.num (.f32 F32.negInf)) "-inf" "-inf" := by decide +kernel

example : wr' none (.tuple [int 42]) { recursionLimit := some 0 } = .error .exceededRecursionLimit := by decide +kernel
example : wr' none (.tuple [int 42]) { recursionLimit := some 1 } = .ok "(42)" := by decide +kernel
example : wr' none (.tuple [int 42]) { recursionLimit := none } = .ok "(42)" := by decide +kernel
example : wr' none (.tuple [.tuple [int 42]]) { recursionLimit := some 1 } = .error .exceededRecursionLimit := by decide +kernel
example : wr' none (.tuple [.tuple [int 42]]) { recursionLimit := some 2 } = .ok "((42))" := by decide +kernel

/-! tests/to_string_pretty.rs, 240_array_pretty.rs, 447_compact_maps_structs.rs -/

example : wr' (some { structNames := true }) (.struct (s "Point") [(s "x", int 1), (s "y", int 2)]) =
    .ok "Point(\n    x: 1,\n    y: 2,\n)" := by decide +kernel
abbrev arr : SVal := .seq (some 3) [.unit, .unit, .unit]
example : wr' (some {}) arr = .ok "[\n    (),\n    (),\n    (),\n]" := by decide +kernel
example : wr' (some { compactArrays := true }) arr = .ok "[(), (), ()]" := by decide +kernel
example : wr' (some { compactArrays := true, separator := [] }) arr = .ok "[(),(),()]" := by decide +kernel
example : wr' (some { compactArrays := true, separateTupleMembers := true })
    (.seq (some 2) [.tuple [int 1, int 2], .tuple [int 3, int 4]]) =
    .ok "[(\n    1,\n    2,\n), (\n    3,\n    4,\n)]" := by decide +kernel
abbrev ab : SVal := .struct (s "Struct") [(s "a", uint 4), (s "b", uint 2)]
example : wr' (some {}) ab = .ok "(\n    a: 4,\n    b: 2,\n)" := by decide +kernel
example : wr' (some { compactStructs := true }) ab = .ok "(a: 4, b: 2)" := by decide +kernel
abbrev abm : SVal := .map (some 2) [(.str (s "a"), uint 4), (.str (s "b"), uint 2)]
example : wr' none abm = .ok "{\"a\":4,\"b\":2}" := by decide +kernel
example : wr' (some {}) abm = .ok "{\n    \"a\": 4,\n    \"b\": 2,\n}" := by decide +kernel
example : wr' (some { compactMaps := true }) abm = .ok "{\"a\": 4, \"b\": 2}" := by decide +kernel

/-! tests/depth_limit.rs -/

example : wr' (some { depthLimit := 1, separateTupleMembers := true, enumerateArrays := true })
    (.struct (s "Config") [(s "float", .tuple [int 2, int (-1)]), (s "tuple", .tupleStruct (s "TupleStruct") [.unit, .bool false]),
      (s "map", .map (some 1) [(uint 8, .char '1')]), (s "nested", .struct (s "Nested") [(s "a", .str (s "a")), (s "b", .char 'b')]),
      (s "var", .tupleVariant (s "Variant") (s "A") [uint 255, .str []]), (s "array", arr)]) =
    .ok "(\n    float: (2, -1),\n    tuple: ((), false),\n    map: {8: '1'},\n    nested: (a: \"a\", b: 'b'),\n    var: A(255, \"\"),\n    array: [(), (), ()],\n)" := by
  decide +kernel

/-! tests/289_enumerate_arrays.rs -/

abbrev en : SVal := .seq (some 5) [.none, .some (.seq (some 0) []), .some (.seq (some 1) [uint 42]),
  .some (.seq (some 2) [uint 4, uint 2]), .none]
example : wr' (some { enumerateArrays := true }) en =
    .ok "[\n    /*[0]*/ None,\n    /*[1]*/ Some([]),\n    /*[2]*/ Some([\n        /*[0]*/ 42,\n    ]),\n    /*[3]*/ Some([\n        /*[0]*/ 4,\n        /*[1]*/ 2,\n    ]),\n    /*[4]*/ None,\n]" := by
  decide +kernel
example : wr' (some { enumerateArrays := true, compactArrays := true }) en =
    .ok "[/*[0]*/ None, /*[1]*/ Some([]), /*[2]*/ Some([/*[0]*/ 42]), /*[3]*/ Some([/*[0]*/ 4, /*[1]*/ 2]), /*[4]*/ None]" := by
  decide +kernel

/-! tests/367_implicit_some.rs, 522_explicit_struct_names.rs, 401_raw_identifier.rs -/

example : wr' (some { structNames := true, extensions := { implicitSome := true } }) (.some (.struct (s "Some_") [])) =
    .ok "#![enable(implicit_some)]\nSome_()" := by decide +kernel
example : wr' (some { structNames := true, extensions := { implicitSome := true } }) (.some (.struct (s "None_") [])) =
    .ok "#![enable(implicit_some)]\nNone_()" := by decide +kernel
example : wr' (some { extensions := { explicitStructNames := true, unwrapVariantNewtypes := true } })
    (.struct (s "Foo") [(s "id", .newtypeStruct (s "Id") (uint 3)), (s "position", .tupleStruct (s "Position") [uint 0, uint 8]),
      (s "query", .newtypeVariant (s "Query") (s "Creature") (.newtypeStruct (s "Id") (uint 4)))]) =
    .ok "#![enable(unwrap_variant_newtypes)]\n#![enable(explicit_struct_names)]\nFoo(\n    id: Id(3),\n    position: Position(0, 8),\n    query: Creature(4),\n)" := by
  decide +kernel
example : wr' (some { structNames := true }) (.unitStruct (s "Hello World")) = .error (.invalidIdentifier (s "Hello World")) := by
  decide +kernel
example : wr' (some { structNames := true }) (.unitStruct []) = .error (.invalidIdentifier []) := by decide +kernel

/-! tests/407_raw_value.rs -/

example : wr' none (.struct (s "WithRawValue") [(s "a", .bool false), (s "b", .raw (s " [1, /* lol */ 2, 3]"))]) =
    .ok "(a:false,b: [1, /* lol */ 2, 3])" := by decide +kernel
example : wr' none (.some (.some (.raw (s "None")))) = .ok "Some(Some(None))" := by decide +kernel
example : wr' none (.some (.some (.raw (s "None")))) { defaultExtensions := { implicitSome := true } } =
    .ok "Some(Some(None))" := by decide +kernel
example : run (.option (.option .raw)) "Some(Some(None))" = .ok (.some (.some (.raw (s "None")))) := by decide +kernel
example : run .raw "42 //" = err .unclosedLineComment 1 6 1 6 := by decide +kernel
example : run .raw "a//" = err .unclosedLineComment 1 4 1 4 := by decide +kernel
example : run .raw "42 //\n" = .ok (.raw (s "42 //\n")) := by decide +kernel
example : run .raw "a/**/" = .ok (.raw (s "a/**/")) := by decide +kernel

/-! tests/425_escape_strings.rs, 438_rusty_byte_strings.rs -/

example : ∀ x ∈ [("a\nb", "\"a\\nb\"", "\"a\nb\""), ("", "\"\"", "\"\""), ("\"", "\"\\\"\"", "r#\"\"\"#"), ("#", "\"#\"", "\"#\""),
      ("\"#", "\"\\\"#\"", "r##\"\"#\"##"), ("#\"#", "\"#\\\"#\"", "r##\"#\"#\"##"), ("#\"##", "\"#\\\"##\"", "r###\"#\"##\"###")],
    wr' none (.str (s x.1)) = .ok x.2.1 ∧ wr' (some {}) (.str (s x.1)) = .ok x.2.1 ∧
    wr' (some { escapeStrings := false }) (.str (s x.1)) = .ok x.2.2 ∧
    run .str x.2.1 = .ok (.str (s x.1)) ∧ run .str x.2.2 = .ok (.str (s x.1)) := by decide +kernel
example : ∀ x ∈ [("hello", "b\"hello\"", "b\"hello\""), ("\"", "b\"\\\"\"", "br#\"\"\"#"), ("\"#", "b\"\\\"#\"", "br##\"\"#\"##"),
      ("\n", "b\"\\n\"", "b\"\n\"")],
    let b : List UInt8 := (s x.1).map (fun c => UInt8.ofNat c.toNat)
    wr' none (.bytes b) = .ok x.2.1 ∧ wr' (some { escapeStrings := false }) (.bytes b) = .ok x.2.2 ∧
    run .bytes x.2.1 = .ok (.bytes b) ∧ run .bytes x.2.2 = .ok (.bytes b) := by decide +kernel
example : run .bytes "b\"\\xf\"" = err (.invalidEscape c!"Non-hex digit found") 1 3 1 7 := by decide +kernel
example : run .bytes "b\"\\xf🦀\"" = err (.invalidEscape c!"Non-hex digit found") 1 3 1 7 := by decide +kernel
example : run .bytes "br#q\"" = err .expectedByteString 1 3 1 4 := by decide +kernel
example : run .bytes "br#\"q" = err .expectedStringEnd 1 4 1 5 := by decide +kernel
example : run .str "r#q\"" = err .expectedString 1 2 1 3 := by decide +kernel
example : run .str "r#\"q" = err .expectedStringEnd 1 3 1 4 := by decide +kernel

/-! tests/599_integer_suffix.rs -/

example : run i32 "-0b101010i32" = .ok (int (-42)) ∧ run u32 "0b101_010_u32" = .ok (uint 42) ∧
    run i32 "-0b101010i31" = err .trailingCharacters 1 10 1 10 := by decide +kernel
example : run i32 "-0o52_i32" = .ok (int (-42)) ∧ run i32 "0o_52_i32" = err .underscoreAtBeginning 1 7 1 3 := by decide +kernel
example : run i32 "-42_i32" = .ok (int (-42)) ∧ run i32 "00i32" = .ok (int 0) := by decide +kernel
example : run i32 "-0x2_Ai32" = .ok (int (-42)) ∧ run i32 "0x2Aj32" = err .trailingCharacters 1 5 1 5 := by decide +kernel

/-! tests/601_support_for_number_ranges.rs -/

abbrev rg (n : String) (fs : List (String × Int)) : SVal := .struct (s n) (fs.map fun e => (s e.1, int e.2))
abbrev cr : Option PrettyConfig := some { compactRanges := true, newLine := [], indentor := [], separator := [], compactStructs := true }
example : wr' none (rg "Range" [("start", 0), ("end", 5)]) = .ok "(start:0,end:5)" := by decide +kernel
example : wr' cr (rg "Range" [("start", 0), ("end", 5)]) = .ok "0..5" := by decide +kernel
example : wr' cr (rg "RangeInclusive" [("start", 1), ("end", 3)]) = .ok "1..=3" := by decide +kernel
example : wr' cr (.struct (s "T") [(s "a", rg "RangeFrom" [("start", 2)]), (s "b", rg "RangeTo" [("end", 3)]),
    (s "c", rg "RangeToInclusive" [("end", 3)]), (s "g", .unitStruct (s "RangeFull"))]) =
    .ok "(a:2..,b:..3,c:..=3,g:..)" := by decide +kernel
example : wr' cr (.struct (s "Range") [(s "start", .str (s "a")), (s "end", .str (s "z"))]) =
    .ok "(start:\"a\",end:\"z\")" := by decide +kernel

/-! tests/544_path_meta.rs -/

/-- The fields of the test. -/
def meta544 : MetaField :=
  let pet : MetaField := .mk [] (some fun k =>
    if k = s "age" then some (.mk (s "1@age (pet)\nmust be valid range 0..256") none)
    else if k = s "kind" then some (.mk (s "1@kind (pet)\nmust be `Isopod`") none)
    else none)
  .mk [] (some fun k =>
    if k = s "age" then some (.mk (s "0@age (person)\nmust be within range 0..256") none)
    else if k = s "knows" then some (.mk (s "0@knows (person)\nmust be list of valid person indices") none)
    else if k = s "pet" then some pet
    else if k = s "0" then some (.mk (s "unreachable") none)
    else none)

/-- A person of the test. -/
def person (name : String) (age : Int) (knows : List Int) (pet : SVal) : SVal :=
  .struct (s "Person") [(s "name", .str (s name)), (s "age", uint age), (s "knows", .seq (some knows.length) (knows.map uint)), (s "pet", pet)]

example : wr' (some { pathMeta := some meta544 }) (.tuple [person "Walter" 43 [0, 1] .none,
    .seq (some 2) [person "Alice" 29 [1] (.some (.struct (s "Pet")
        [(s "name", .str (s "Herbert")), (s "age", uint 7), (s "kind", .unitVariant (s "PetKind") (s "Isopod"))])),
      person "Bob" 29 [0] .none]]) = .ok "((
    name: \"Walter\",
    /// 0@age (person)
    /// must be within range 0..256
    age: 43,
    /// 0@knows (person)
    /// must be list of valid person indices
    knows: [
        0,
        1,
    ],
    pet: None,
), [
    (
        name: \"Alice\",
        /// 0@age (person)
        /// must be within range 0..256
        age: 29,
        /// 0@knows (person)
        /// must be list of valid person indices
        knows: [
            1,
        ],
        pet: Some((
            name: \"Herbert\",
            /// 1@age (pet)
            /// must be valid range 0..256
            age: 7,
            /// 1@kind (pet)
            /// must be `Isopod`
            kind: Isopod,
        )),
    ),
    (
        name: \"Bob\",
        /// 0@age (person)
        /// must be within range 0..256
        age: 29,
        /// 0@knows (person)
        /// must be list of valid person indices
        knows: [
            0,
        ],
        pet: None,
    ),
])" := by decide +kernel

end Ron.Checks
