import Verif.Lemmas.Deq
/-!
# The model against the crate's own tests: reading

Assertions of src/de/tests.rs and of the files in tests/, transcribed.  These are tests of the model, not properties of
the code: they compare what the model computes with what the crate's tests expect, including the position of errors.
Tests that depend on float values are left out (the decimal conversion is a parameter of the model).
-/

namespace Ron.Checks

local instance : Env := asciiEnv true true

/-- Reading with the default options; only the type definition `D 0` is used for recursion. -/
def run (T : Ty) (src : String) (o : Options := {}) : Spanned SVal :=
  fromStr o (deTy (fun _ => .unit) 20 T) src.toList

/-- Reading as `Value`. -/
def runV (src : String) : Spanned Value := fromStr {} deValue src.toList

/-- The expected error with its span. -/
def err {α : Type} (e : Err) (l c l' c' : Nat) : Spanned α := .error (e, ⟨⟨l, c⟩, ⟨l', c'⟩⟩)

/-- Only the error code. -/
def code {α : Type} : Spanned α → Option Err
  | .ok _ => none
  | .error (e, _) => some e

abbrev i32 : Ty := .int .i32
abbrev u8 : Ty := .int .u8
abbrev u32 : Ty := .int .u32
abbrev int (v : Int) : SVal := .num (.int .i32 v)
abbrev uint (v : Int) : SVal := .num (.int .u32 v)
abbrev s (x : String) : Text := x.toList

/-! src/de/tests.rs -/

abbrev newType : Ty := .newtype (s "NewType") i32
abbrev tupleStruct : Ty := .tupleStruct (s "TupleStruct") [.f32, .f32]
abbrev myStruct : Ty := .struct (s "MyStruct") false [(s "x", .f32), (s "y", .f32)]
abbrev myEnum : Ty := .enum (s "MyEnum")
  [(s "A", .unit), (s "B", .newtype .bool), (s "C", .tuple [.bool, .f32]), (s "D", .struct false [(s "a", i32), (s "b", i32)])]
abbrev emptyStruct1 : Ty := .unitStruct (s "EmptyStruct1")
abbrev emptyStruct2 : Ty := .struct (s "EmptyStruct2") false []

example : run emptyStruct1 "EmptyStruct1" = .ok (.unitStruct (s "EmptyStruct1")) := by decide +kernel
example : run emptyStruct2 "EmptyStruct2()" = .ok (.struct (s "EmptyStruct2") []) := by decide +kernel
example : run newType "NewType(42)" = .ok (.newtypeStruct (s "NewType") (int 42)) := by decide +kernel
example : run newType "(33)" = .ok (.newtypeStruct (s "NewType") (int 33)) := by decide +kernel
example : run newType "NewType" = err (.expectedNamedStructLike (s "NewType")) 1 1 1 8 := by decide +kernel
example : run tupleStruct "TupleStruct" = err (.expectedNamedStructLike (s "TupleStruct")) 1 1 1 12 := by decide +kernel
example : run tupleStruct "" = err (.expectedNamedStructLike (s "TupleStruct")) 1 1 1 1 := by decide +kernel
example : run (.option u8) "Some(1)" = .ok (.some (.num (.int .u8 1))) := by decide +kernel
example : run (.option u8) "None" = .ok .none := by decide +kernel
example : run myEnum "A" = .ok (.unitVariant (s "MyEnum") (s "A")) := by decide +kernel
example : run myEnum "B(true,)" = .ok (.newtypeVariant (s "MyEnum") (s "B") (.bool true)) := by decide +kernel
example : run myEnum "D(a: 2, b: 3,)" = .ok (.structVariant (s "MyEnum") (s "D") [(s "a", int 2), (s "b", int 3)]) := by
  decide +kernel
example : run myEnum "B" = err .expectedStructLike 1 1 1 2 := by decide +kernel
example : run (.tuple [i32, i32, i32]) "(2, 3, 4,)" = .ok (.tuple [int 2, int 3, int 4]) := by decide +kernel
example : run (.seq i32) "[2, 3, 4,]" = .ok (.seq (some 3) [int 2, int 3, int 4]) := by decide +kernel
example : run .str "\"String\"" = .ok (.str (s "String")) := by decide +kernel
example : run .str "\"\"" = .ok (.str []) := by decide +kernel
example : run .str "r\"String\"" = .ok (.str (s "String")) := by decide +kernel
example : run .str "r##\"String with \"#\"##" = .ok (.str (s "String with \"#")) := by decide +kernel
example : run .char "'c'" = .ok (.char 'c') := by decide +kernel
example : run .str "\"\\'Quoted\\'\"" = .ok (.str (s "'Quoted'")) := by decide +kernel
example : run .f32 "'c'" = err .expectedFloat 1 1 1 1 := by decide +kernel
example : run .str "'c'" = err .expectedString 1 1 1 1 := by decide +kernel
example : run (.map .str .bool) "\"oof\"" = err .expectedMap 1 1 1 1 := by decide +kernel
example : run (.seq i32) "\"oof\"" = err .expectedArray 1 1 1 1 := by decide +kernel
example : run (.tuple [i32, i32, i32]) "\"oof\"" = err .expectedStructLike 1 1 1 1 := by decide +kernel
example : run .bool "notabool" = err .expectedBoolean 1 1 1 1 := by decide +kernel
example : run myStruct "MyStruct(\n    x: true)" = err .expectedFloat 2 7 2 8 := by decide +kernel
example : run myStruct "MyStruct(\n    x: 3.5, \n    y:)" = err .expectedFloat 3 7 3 7 := by decide +kernel
example : run myStruct "NotMyStruct(x: 4, y: 2)" =
    err (.expectedDifferentStructName (s "MyStruct") (s "NotMyStruct")) 1 1 1 12 := by decide +kernel
example : run (.tuple [u8, .str]) "(4, \"Hello)" = err .expectedStringEnd 1 5 1 6 := by decide +kernel
example : run .str "#\"Hello\"" = err .expectedAttribute 1 2 1 2 := by decide +kernel
example : run .str "#![enable(unwrap_newtypes) \"Hello\"" = err .expectedAttributeEnd 1 27 1 28 := by decide +kernel
example : run .str "#![enable(invalid)] \"Hello\"" = err (.noSuchExtension (s "invalid")) 1 11 1 18 := by decide +kernel

/-! tests/203_error_positions.rs, tests/393_serde_errors.rs (`NonZeroU32` replaced by `u32`) -/

abbrev test203 : Ty := .enum (s "Test")
  [(s "TupleVariant", .tuple [i32, .str]), (s "StructVariant", .struct true [(s "a", .bool), (s "b", u32), (s "c", i32)])]

example : run test203 "StructVariant(a: true, b: 1, c: -42)" =
    .ok (.structVariant (s "Test") (s "StructVariant") [(s "a", .bool true), (s "b", uint 1), (s "c", int (-42))]) := by
  decide +kernel
example : run test203 "TupleVariant(42)" = err (.expectedDifferentLength (s "tuple variant") 1) 1 16 1 16 := by
  decide +kernel
example : run test203 "NotAVariant" =
    err (.noSuchEnumVariant [s "TupleVariant", s "StructVariant"] (s "NotAVariant") (some (s "Test"))) 1 1 1 12 := by
  decide +kernel
example : run test203 "StructVariant(a: true, b: 1, c: -42, d: \"gotcha\")" =
    err (.noSuchStructField [s "a", s "b", s "c"] (s "d") (some (s "StructVariant"))) 1 38 1 39 := by decide +kernel
example : run test203 "StructVariant(a: true, c: -42)" =
    err (.missingStructField (s "b") (some (s "StructVariant"))) 1 30 1 30 := by decide +kernel
example : run test203 "StructVariant(a: true, b: 1, a: false, c: -42)" =
    err (.duplicateStructField (s "a") (some (s "StructVariant"))) 1 30 1 31 := by decide +kernel

abbrev testStruct : Ty := .struct (s "TestStruct") true [(s "a", .bool), (s "b", .char), (s "c", i32)]
abbrev testEnum : Ty := .enum (s "TestEnum")
  [(s "StructVariant", .struct true [(s "a", .bool), (s "b", .char), (s "c", i32)]), (s "NewtypeVariant", .newtype testStruct)]

example : run testEnum "#![enable(unwrap_variant_newtypes)] NewtypeVariant(a: true, b: 'b', c: -42, d: \"gotcha\")" =
    err (.noSuchStructField [s "a", s "b", s "c"] (s "d") (some (s "NewtypeVariant"))) 1 77 1 78 := by decide +kernel
example : run testEnum "#![enable(unwrap_variant_newtypes)] NewtypeVariant(a: true, c: -42)" =
    err (.missingStructField (s "b") (some (s "NewtypeVariant"))) 1 67 1 67 := by decide +kernel
example : run testEnum "#![enable(unwrap_variant_newtypes)] NewtypeVariant(a: true, b: 'b', a: false, c: -42)" =
    err (.duplicateStructField (s "a") (some (s "NewtypeVariant"))) 1 69 1 70 := by decide +kernel
example : run testStruct "TestStruct(a: true, b: 'b', c: -42, d: \"gotcha\")" =
    err (.noSuchStructField [s "a", s "b", s "c"] (s "d") (some (s "TestStruct"))) 1 37 1 38 := by decide +kernel
example : run testStruct "TestStruct(a: true, c: -42)" =
    err (.missingStructField (s "b") (some (s "TestStruct"))) 1 27 1 27 := by decide +kernel
example : run testStruct "TestStruct(a: true, b: 'b', a: false, c: -42)" =
    err (.duplicateStructField (s "a") (some (s "TestStruct"))) 1 29 1 30 := by decide +kernel

/-! tests/250_variant_newtypes.rs -/

abbrev unitT : Ty := .unitStruct (s "Unit")
abbrev newtypeT : Ty := .newtype (s "Newtype") i32
abbrev tupleStructT : Ty := .tupleStruct (s "TupleStruct") [u32, .bool]
abbrev structT : Ty := .struct (s "Struct") false [(s "a", u32), (s "b", .bool)]
abbrev enumT : Ty := .enum (s "Enum")
  [(s "A", .unit), (s "B", .newtype structT), (s "C", .tuple [u32, .bool]), (s "D", .struct false [(s "a", u32), (s "b", .bool)])]
abbrev test250 : Ty := .enum (s "TestEnum")
  [(s "Unit", .unit), (s "PrimitiveNewtype", .newtype .str), (s "Tuple", .tuple [u32, .bool]),
   (s "Struct", .struct false [(s "a", u32), (s "b", .bool)]), (s "TupleNewtypeUnit", .newtype unitT),
   (s "TupleNewtypeNewtype", .newtype newtypeT), (s "TupleNewtypeTuple", .newtype (.tuple [u32, .bool])),
   (s "TupleNewtypeTupleStruct", .newtype tupleStructT), (s "TupleNewtypeStruct", .newtype structT),
   (s "TupleNewtypeEnum", .newtype enumT), (s "TupleNewtypeOption", .newtype (.option structT)),
   (s "TupleNewtypeSeq", .newtype (.seq structT)), (s "TupleNewtypeMap", .newtype (.map u32 structT))]

/-- Reading with `unwrap_variant_newtypes` in front. -/
def runU (src : String) : Spanned SVal := run test250 ("#![enable(unwrap_variant_newtypes)] " ++ src)

abbrev fld : List (Text × SVal) := [(s "a", uint 4), (s "b", .bool false)]
abbrev str4 : SVal := .struct (s "Struct") fld
abbrev nv (x : String) (v : SVal) : Spanned SVal := .ok (.newtypeVariant (s "TestEnum") (s x) v)

example : runU "Unit" = .ok (.unitVariant (s "TestEnum") (s "Unit")) := by decide +kernel
example : runU "PrimitiveNewtype(\"hi\")" = nv "PrimitiveNewtype" (.str (s "hi")) := by decide +kernel
example : runU "Tuple(4, false)" = .ok (.tupleVariant (s "TestEnum") (s "Tuple") [uint 4, .bool false]) := by decide +kernel
example : runU "Struct(a: 4, b: false)" = .ok (.structVariant (s "TestEnum") (s "Struct") fld) := by decide +kernel
example : code (runU "TupleNewtypeUnit(Unit)") = some .expectedStructLikeEnd := by decide +kernel
example : code (runU "TupleNewtypeUnit(())") = some .expectedStructLikeEnd := by decide +kernel
example : runU "TupleNewtypeUnit()" = nv "TupleNewtypeUnit" (.unitStruct (s "Unit")) := by decide +kernel
example : code (runU "TupleNewtypeNewtype(Newtype(4))") = some .expectedInteger := by decide +kernel
example : code (runU "TupleNewtypeNewtype((4))") = some .expectedInteger := by decide +kernel
example : runU "TupleNewtypeNewtype(4)" = nv "TupleNewtypeNewtype" (.newtypeStruct (s "Newtype") (int 4)) := by decide +kernel
example : run test250 "#![enable(unwrap_newtypes)] TupleNewtypeNewtype(4)" =
    nv "TupleNewtypeNewtype" (.newtypeStruct (s "Newtype") (int 4)) := by decide +kernel
example : run test250 "#![enable(unwrap_newtypes)] #![enable(unwrap_variant_newtypes)] TupleNewtypeNewtype(4)" =
    nv "TupleNewtypeNewtype" (.newtypeStruct (s "Newtype") (int 4)) := by decide +kernel
example : code (runU "TupleNewtypeTuple((4, false))") = some .expectedInteger := by decide +kernel
example : runU "TupleNewtypeTuple(4, false)" = nv "TupleNewtypeTuple" (.tuple [uint 4, .bool false]) := by decide +kernel
example : code (runU "TupleNewtypeTupleStruct(TupleStruct(4, false))") = some .expectedInteger := by decide +kernel
example : code (runU "TupleNewtypeTupleStruct((4, false))") = some .expectedInteger := by decide +kernel
example : runU "TupleNewtypeTupleStruct(4, false)" =
    nv "TupleNewtypeTupleStruct" (.tupleStruct (s "TupleStruct") [uint 4, .bool false]) := by decide +kernel
example : code (runU "TupleNewtypeStruct(Struct(a: 4, b: false))") = some .expectedMapColon := by decide +kernel
example : code (runU "TupleNewtypeStruct((a: 4, b: false))") = some .expectedIdentifier := by decide +kernel
example : runU "TupleNewtypeStruct(a: 4, b: false)" = nv "TupleNewtypeStruct" str4 := by decide +kernel
example : runU "TupleNewtypeEnum(A)" = nv "TupleNewtypeEnum" (.unitVariant (s "Enum") (s "A")) := by decide +kernel
example : runU "TupleNewtypeEnum(B(a: 4, b: false))" =
    nv "TupleNewtypeEnum" (.newtypeVariant (s "Enum") (s "B") str4) := by decide +kernel
example : code (runU "TupleNewtypeEnum(C 4, false)") = some .expectedStructLike := by decide +kernel
example : runU "TupleNewtypeEnum(C(4, false))" =
    nv "TupleNewtypeEnum" (.tupleVariant (s "Enum") (s "C") [uint 4, .bool false]) := by decide +kernel
example : code (runU "TupleNewtypeEnum(D a: 4, b: false)") = some .expectedStructLike := by decide +kernel
example : runU "TupleNewtypeEnum(D(a: 4, b: false))" =
    nv "TupleNewtypeEnum" (.structVariant (s "Enum") (s "D") fld) := by decide +kernel
example : runU "TupleNewtypeOption(None)" = nv "TupleNewtypeOption" .none := by decide +kernel
example : runU "TupleNewtypeOption(Some(a: 4, b: false))" = nv "TupleNewtypeOption" (.some str4) := by decide +kernel
example : code (runU "TupleNewtypeOption(a: 4, b: false)") = some .expectedOption := by decide +kernel
example : run test250 "#![enable(unwrap_variant_newtypes, implicit_some)] TupleNewtypeOption(a: 4, b: false)" =
    nv "TupleNewtypeOption" (.some str4) := by decide +kernel
example : runU "TupleNewtypeSeq([])" = nv "TupleNewtypeSeq" (.seq (some 0) []) := by decide +kernel
example : runU "TupleNewtypeSeq([(a: 4, b: false)])" = nv "TupleNewtypeSeq" (.seq (some 1) [str4]) := by decide +kernel
example : runU "TupleNewtypeSeq([Struct(a: 4, b: false)])" = nv "TupleNewtypeSeq" (.seq (some 1) [str4]) := by decide +kernel
example : runU "TupleNewtypeMap({})" = nv "TupleNewtypeMap" (.map (some 0) []) := by decide +kernel
example : runU "TupleNewtypeMap({2: (a: 4, b: false)})" = nv "TupleNewtypeMap" (.map (some 1) [(uint 2, str4)]) := by
  decide +kernel
example : runU "TupleNewtypeMap({8: Struct(a: 4, b: false)})" = nv "TupleNewtypeMap" (.map (some 1) [(uint 8, str4)]) := by
  decide +kernel
example : run (.option structT) "Some((a: 4, b: false))" = .ok (.some str4) := by decide +kernel
example : code (run (.option structT) "Some(a: 4, b: false)") =
    some (.expectedDifferentStructName (s "Struct") (s "a")) := by decide +kernel
example : run (.option structT) "#![enable(unwrap_variant_newtypes)] Some(a: 4, b: false)" = .ok (.some str4) := by
  decide +kernel

/-! tests/301_struct_name_mismatch.rs -/

abbrev myUnit : Ty := .unitStruct (s "MyUnitStruct")
abbrev myTuple : Ty := .tupleStruct (s "MyTupleStruct") [.bool, i32]
abbrev myNewtype : Ty := .newtype (s "MyNewtypeStruct") myTuple
abbrev myStr : Ty := .struct (s "MyStruct") false [(s "a", .bool), (s "b", i32)]

example : run myUnit "()" = .ok (.unitStruct (s "MyUnitStruct")) := by decide +kernel
example : run myUnit "MyUnitStruct" = .ok (.unitStruct (s "MyUnitStruct")) := by decide +kernel
example : run myUnit "MyUnit Struct" =
    err (.expectedDifferentStructName (s "MyUnitStruct") (s "MyUnit")) 1 1 1 7 := by decide +kernel
example : run myUnit "42" = err (.expectedNamedStructLike (s "MyUnitStruct")) 1 1 1 1 := by decide +kernel
example : run myTuple "(true, 42)" = .ok (.tupleStruct (s "MyTupleStruct") [.bool true, int 42]) := by decide +kernel
example : run myTuple "MyTypleStruct(true, 42)" =
    err (.expectedDifferentStructName (s "MyTupleStruct") (s "MyTypleStruct")) 1 1 1 14 := by decide +kernel
example : run myTuple "42" = err (.expectedNamedStructLike (s "MyTupleStruct")) 1 1 1 1 := by decide +kernel
example : run myNewtype "MyNewtypeStruct((true, 42))" =
    .ok (.newtypeStruct (s "MyNewtypeStruct") (.tupleStruct (s "MyTupleStruct") [.bool true, int 42])) := by decide +kernel
example : run myNewtype "MyNewtypeStrucl((true, 42))" =
    err (.expectedDifferentStructName (s "MyNewtypeStruct") (s "MyNewtypeStrucl")) 1 1 1 16 := by decide +kernel
example : run myNewtype "42" = err (.expectedNamedStructLike (s "MyNewtypeStruct")) 1 1 1 1 := by decide +kernel
example : run myStr "MuStryct(a: true, b: 42)" =
    err (.expectedDifferentStructName (s "MyStruct") (s "MuStryct")) 1 1 1 9 := by decide +kernel
example : run myStr "42" = err (.expectedNamedStructLike (s "MyStruct")) 1 1 1 1 := by decide +kernel

/-! tests/367_implicit_some.rs -/

abbrev maybe : Ty := .struct (s "MaybeFields") false [(s "f1", i32), (s "f2", .option i32), (s "f3", .option (.option i32))]
abbrev mf (a b c : SVal) : Spanned SVal := .ok (.struct (s "MaybeFields") [(s "f1", a), (s "f2", b), (s "f3", c)])
example : run maybe "#![enable(implicit_some)]\n(f1: 1)" = mf (int 1) .none .none := by decide +kernel
example : run maybe "#![enable(implicit_some)]\n(f1: 1, f2: None, f3: None)" = mf (int 1) .none .none := by decide +kernel
example : run maybe "#![enable(implicit_some)]\n(f1: 1, f2: 2, f3: 3)" = mf (int 1) (.some (int 2)) (.some (.some (int 3))) := by
  decide +kernel
example : run maybe "#![enable(implicit_some)]\n(f1: 1, f2: 2, f3: Some(3))" =
    mf (int 1) (.some (int 2)) (.some (.some (int 3))) := by decide +kernel
example : run maybe "#![enable(implicit_some)]\n(f1: 1, f2: 2, f3: Some(Some(3)))" =
    mf (int 1) (.some (int 2)) (.some (.some (int 3))) := by decide +kernel
example : run maybe "#![enable(implicit_some)]\n(f1: 1, f2: 2, f3: Some(None))" =
    mf (int 1) (.some (int 2)) (.some .none) := by decide +kernel
example : run (.option (.struct (s "None_") false [])) "#![enable(implicit_some)]\nNone_()" =
    .ok (.some (.struct (s "None_") [])) := by decide +kernel

/-! tests/410_trailing_comma.rs -/

abbrev enum410 : Ty := .enum (s "Enum")
  [(s "Newtype", .newtype i32), (s "Tuple", .tuple [i32, i32]), (s "Struct", .struct false [(s "a", i32), (s "b", i32)])]
abbrev st410 : Ty := .struct (s "Struct") false [(s "a", i32), (s "b", i32)]
example : ∀ x ∈ ([(.option i32, "Some(1"), (.tuple [i32, i32], "(1,2"), (newtypeT, "(1"),
      (.tupleStruct (s "Tuple") [i32, i32], "(1,2"), (st410, "(a:1,b:2"), (enum410, "Newtype(1"), (enum410, "Tuple(1,2"),
      (enum410, "Struct(a:1,b:2")] : List (Ty × String)),
    code (run x.1 (x.2 ++ ")")) = none ∧ code (run x.1 (x.2 ++ ",)")) = none ∧ code (run x.1 (x.2 ++ ",,)")) ≠ none := by
  decide +kernel
example : code (run (.seq i32) "[1,2,]") = none ∧ code (run (.seq i32) "[1,2,,]") ≠ none := by decide +kernel
example : code (run (.map i32 .bool) "{1:false,2:true,}") = none ∧ code (run (.map i32 .bool) "{1:false,2:true,,}") ≠ none := by
  decide +kernel

/-! tests/256_comma_error.rs -/

example : run (.tuple [i32, i32]) "(\n        1 // <-- forgotten comma here\n        2\n    )" = err .expectedComma 3 9 3 9 := by
  decide +kernel
example : run (.seq i32) "[\n        0,\n        1 // <-- forgotten comma here\n        2\n    ]" = err .expectedComma 4 9 4 9 := by
  decide +kernel
example : run (.struct (s "Test") false [(s "a", i32), (s "b", i32)])
    "Test(\n        a: 1 // <-- forgotten comma here\n        b: 2\n    )" = err .expectedComma 3 9 3 9 := by decide +kernel
example : run (.map .str i32) "{\n        \"a\": 1 // <-- forgotten comma here\n        \"b\": 2\n    }" =
    err .expectedComma 3 9 3 9 := by decide +kernel
example : run u8 "#![enable(\n        implicit_some // <-- forgotten comma here\n        unwrap_newtypes\n    ]) 42" =
    err .expectedComma 2 50 3 9 := by decide +kernel

/-! tests/481_number_underscores_suffixes.rs -/

example : run u8 "0b10_10___101_" = .ok (.num (.int .u8 0b1010101)) := by decide +kernel
example : run u8 "_0b1" = err .underscoreAtBeginning 1 1 1 1 := by decide +kernel
example : run u8 "_0b1_u8" = err .underscoreAtBeginning 1 6 1 1 := by decide +kernel
example : run u8 "0b2" = err (.invalidIntegerDigit '2' 2) 1 3 1 3 := by decide +kernel
example : run i32 "-0b2_i32" = err (.invalidIntegerDigit '2' 2) 1 4 1 4 := by decide +kernel
example : run i32 "0o71_32___145_" = .ok (int 0o7132145) := by decide +kernel
example : run u8 "0oA" = err (.invalidIntegerDigit 'A' 8) 1 3 1 3 := by decide +kernel
example : run i32 "0xa1_fe___372_" = .ok (int 0xa1fe372) := by decide +kernel
example : run u8 "0xZ" = err .expectedInteger 1 1 1 3 := by decide +kernel
example : run (.int .i64) "0_6_163_810___17" = .ok (.num (.int .i64 616381017)) := by decide +kernel
example : run u8 "12a" = err (.invalidIntegerDigit 'a' 10) 1 1 1 3 := by decide +kernel
example : run .f32 "_286" = err .underscoreAtBeginning 1 1 1 1 := by decide +kernel
example : run .f32 "2a86" = err .trailingCharacters 1 2 1 2 := by decide +kernel

/-! tests/comments.rs -/

example : run i32 "/*\n * We got a hexadecimal number here!\n *\n */0x507" = .ok (int 0x507) := by decide +kernel
example : run .str "/*\n /* quite * some * nesting * going * on * /* here /* (yeah, maybe a bit too much) */ */ */\n    */\n    // The actual value comes.. /*\n    // very soon, these are just checks that */\n    // multi-line comments don't trigger in line comments /*\n\"THE VALUE\" /* This is the value /* :) */ */\n    " =
    .ok (.str (s "THE VALUE")) := by decide +kernel
example : run .str "\"hi\" /*" = err .unclosedBlockComment 1 6 1 8 := by decide +kernel
example : run u8 "42 /q" = err (.unexpectedChar 'q') 1 4 1 6 := by decide +kernel

/-! tests/401_raw_identifier.rs -/

abbrev rawStruct : Ty := .struct (s "Hello+World") true [(s "ab.cd-ef", .bool), (s "really_not_raw", i32)]
abbrev rawEnum : Ty := .enum (s "RawEnum") [(s "Hello-World", .unit)]
example : run (.unitStruct (s "Hello World")) "Hello World" =
    err (.expectedDifferentStructName (s "Hello World") (s "Hello")) 1 1 1 6 := by decide +kernel
example : run (.unitStruct []) "" = err .expectedUnit 1 1 1 1 := by decide +kernel
example : run (.unitStruct []) "r#" = err (.expectedNamedStructLike []) 1 1 1 1 := by decide +kernel
example : run rawStruct "" = err (.expectedNamedStructLike (s "Hello+World")) 1 1 1 1 := by decide +kernel
example : run rawStruct "r#" = err (.expectedNamedStructLike (s "Hello+World")) 1 1 1 1 := by decide +kernel
example : run rawStruct "Hello+World" = err (.suggestRawIdentifier (s "Hello+World")) 1 1 1 1 := by decide +kernel
example : run rawStruct "r#Hello+World(\n        ab.cd-ef: true,\n    )" =
    err (.suggestRawIdentifier (s "ab.cd-ef")) 1 15 2 9 := by decide +kernel
example : run rawStruct "r#Hello+World(\n        rab.cd-ef: true,\n    )" =
    err (.suggestRawIdentifier (s "rab.cd-ef")) 1 15 2 9 := by decide +kernel
example : run rawStruct "r#Hello+World(\n        r#ab.cd+ef: true,\n    )" =
    err (.noSuchStructField [s "ab.cd-ef", s "really_not_raw"] (s "ab.cd+ef") (some (s "Hello+World"))) 2 11 2 19 := by
  decide +kernel

/-! tests/407_raw_value.rs -/

abbrev withRaw : Ty := .struct (s "WithRawValue") false [(s "a", .bool), (s "b", .raw)]
abbrev wr (b : Bool) (t : String) : Spanned SVal := .ok (.struct (s "WithRawValue") [(s "a", .bool b), (s "b", .raw (s t))])
example : run .raw "true" = .ok (.raw (s "true")) := by decide +kernel
example : run withRaw "(a: false, b: [1, /* lol */ 2, 3])" = wr false " [1, /* lol */ 2, 3]" := by decide +kernel
example : run withRaw "(a: false, b: /* yeah */ 4)" = wr false " /* yeah */ 4" := by decide +kernel
example : run withRaw "(a: false, b: 4 /* yes */)" = wr false " 4 /* yes */" := by decide +kernel
example : run withRaw "(a: false, b: (/* this */ 4 /* too */))" = wr false " (/* this */ 4 /* too */)" := by decide +kernel
example : run .raw "4.d" = err .trailingCharacters 1 3 1 3 := by decide +kernel
example : run .raw "\x00" = err (.unexpectedChar '\x00') 1 1 1 1 := by decide +kernel
example : run i32 "/* hi */ (a: false, b: None) /* bye */" = err .expectedInteger 1 9 1 10 := by decide +kernel

/-! tests/601_support_for_number_ranges.rs -/

abbrev u8v (v : Int) : SVal := .num (.int .u8 v)
abbrev range (t : Ty) : Ty := .struct (s "Range") true [(s "start", t), (s "end", t)]
abbrev rangeI (t : Ty) : Ty := .struct (s "RangeInclusive") true [(s "start", t), (s "end", t)]
abbrev rangeFrom (t : Ty) : Ty := .struct (s "RangeFrom") true [(s "start", t)]
abbrev rangeTo (t : Ty) : Ty := .struct (s "RangeTo") true [(s "end", t)]
abbrev rangeFull : Ty := .unitStruct (s "RangeFull")
example : run (range u8) "0b0000..0b0101" = .ok (.struct (s "Range") [(s "start", u8v 0), (s "end", u8v 5)]) := by decide +kernel
example : run (range u8) "0o0..0o5" = .ok (.struct (s "Range") [(s "start", u8v 0), (s "end", u8v 5)]) := by decide +kernel
example : run (range u8) "0x0..0x5" = .ok (.struct (s "Range") [(s "start", u8v 0), (s "end", u8v 5)]) := by decide +kernel
example : run (range u8) "b'\\x00'..b'\\x05'" = .ok (.struct (s "Range") [(s "start", u8v 0), (s "end", u8v 5)]) := by
  decide +kernel
example : run (rangeI u8) "b'A'..=b'Z'" = .ok (.struct (s "RangeInclusive") [(s "start", u8v 65), (s "end", u8v 90)]) := by
  decide +kernel
example : run (rangeTo u8) "..0b0101" = .ok (.struct (s "RangeTo") [(s "end", u8v 5)]) := by decide +kernel
example : run (rangeFrom u8) "0b0000.." = .ok (.struct (s "RangeFrom") [(s "start", u8v 0)]) := by decide +kernel
example : code (run (range .str) "\"x\"..\"h\"") ≠ none ∧ code (run (range i32) "\"x\"..\"h\"") ≠ none := by decide +kernel
example : run (rangeFrom .f32) "inff32.." = .ok (.struct (s "RangeFrom") [(s "start", .num (.f32 F32.inf))]) := by decide +kernel
example : run (rangeFrom .f64) "NaNf64.." = .ok (.struct (s "RangeFrom") [(s "start", .num (.f64 F64.nan))]) := by decide +kernel
example : run (range .f32) "(start:inf,end:NaN)" =
    .ok (.struct (s "Range") [(s "start", .num (.f32 F32.inf)), (s "end", .num (.f32 F32.nan))]) := by decide +kernel
example : runV ".." = .ok .unit := by decide +kernel
example : code (runV ".. 5") ≠ none := by decide +kernel
example : run rangeFull ".." = .ok (.unitStruct (s "RangeFull")) := by decide +kernel

/-! tests/522_explicit_struct_names.rs (floats replaced by integers) -/

abbrev id522 : Ty := .newtype (s "Id") u32
abbrev pos522 : Ty := .tupleStruct (s "Position") [u32, u32]
abbrev q522 : Ty := .enum (s "Query") [(s "None", .unit), (s "Creature", .newtype id522), (s "Location", .newtype pos522)]
abbrev foo522 : Ty := .struct (s "Foo") false [(s "id", id522), (s "position", pos522), (s "query", q522)]
abbrev opt522 : Options := { defaultExtensions := { explicitStructNames := true } }
example : code (run foo522 "(\n        id: Id(3),\n        position: Position(0, 8),\n        query: None,\n    )" opt522) =
    some (.expectedStructName (s "Foo")) := by decide +kernel
example : code (run foo522 "Foo(\n        id: (3),\n        position: Position(0, 8),\n        query: None,\n    )" opt522) =
    some (.expectedStructName (s "Id")) := by decide +kernel
example : code (run foo522 "Foo(\n        id: Id(3),\n        position: (0, 8),\n        query: None,\n    )" opt522) =
    some (.expectedStructName (s "Position")) := by decide +kernel
example : code (run foo522 "Foo(\n        id: Id(3),\n        position: (0, 8),\n        query: None,\n    )") = none := by
  decide +kernel

end Ron.Checks
