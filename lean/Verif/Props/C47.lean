import Verif.Lemmas.Through
import Verif.Lemmas.TyDoc
import Verif.Lemmas.Witness
import Verif.Lemmas.Deq
/-!
# C47: the way through an untyped `Value` gives the same data

Missing from the full claim, hence `_partial`: the exclusions of `SVal.Through`.  For enums, empty structs, unwrapped newtypes and implicit
options the claim is false (`C47_enum_fails`, `C47_empty_fails`, `C47_newtype_fails`, `C47_some_fails`).
-/

set_option linter.unusedSimpArgs false

namespace Ron

variable [Env]

/-- Data written in any configuration, read as an untyped `Value` and converted to its type with `into_rust`, is the data that is
written, just as if the text is read as the type directly. -/
theorem C47_partial (o : Options) (cfg : Option PrettyConfig) (D : Nat → Ty) (n f : Nat) (T : Ty) (v : SVal) (t : Text)
    (hT : HasTy D n T v) (hf : n ≤ f) (hi : (extsOf o cfg).implicitSome = false) (hu : (extsOf o cfg).unwrapNewtypes = false)
    (hw : (extsOf o cfg).unwrapVariantNewtypes = false) (hv : v.Through (extsOf o cfg) (sfxOf cfg)) (hc : v.Clean (rgOf o cfg) false)
    (hk : ∀ m, o.recursionLimit = some m → v.cost ≤ m ∧ v.levels (extsOf o cfg) ≤ m) (h : toText o cfg v = .ok t) :
    ∃ V, fromStr o deValue t = .ok V ∧ V.into D f T = .ok v ∧ fromStr o (deTy D f T) t = .ok v := by
  obtain ⟨V, h1, h2⟩ := serialized_reads hc hw (fun m hm => (hk m hm).2) h
  have h3 := typed_reads hT hf (v := v) (cfg := cfg) (by rw [show wxOf o cfg = false by simp [wxOf, hw]]; exact hc)
    (fun m hm => (hk m hm).1) h [] [] .nil .nil
  exact ⟨V, by simpa using h2 [] [] .nil .nil, through_value D hi hu n f T v V hf hT hv h1, by simpa using h3⟩

/-- The same for every `Value` that the data may be read as, whatever wrote the text. -/
theorem C47_value_partial (D : Nat → Ty) (n f : Nat) (T : Ty) (v : SVal) (V : Value) (x : Exts) (sfx : Bool) (hT : HasTy D n T v) (hf : n ≤ f)
    (hi : x.implicitSome = false) (hu : x.unwrapNewtypes = false) (hv : v.Through x sfx) (hV : SelfDesc x sfx v V) :
    V.into D f T = .ok v := through_value D hi hu n f T v V hf hT hv hV

omit [Env] in
/-- Non-vacuity: a struct with an option, a sequence of pairs, a map and a newtype. -/
example : ∃ (_ : Env) (t : Text) (V : Value),
    let T : Ty := .struct c!"S" true [(c!"b", .option (.int .u64)), (c!"a", .seq (.tuple [.str, .char])), (c!"m", .map (.int .u8) .bool),
      (c!"n", .newtype c!"N" (.int .i8))]
    let v : SVal := .struct c!"S" [(c!"b", .some (.num (.int .u64 7))), (c!"a", .seq (some 1) [.tuple [.str c!"x", .char 'y']]),
      (c!"m", .map (some 2) [(.num (.int .u8 1), .bool true), (.num (.int .u8 2), .bool false)]), (c!"n", .newtypeStruct c!"N" (.num (.int .i8 (-3))))]
    HasTy (fun _ => .unit) 9 T v ∧ v.Through {} false ∧ v.Clean .structs false ∧ toText {} none v = .ok t ∧
    fromStr {} deValue t = .ok V ∧ V.into (fun _ => .unit) 9 T = .ok v := by
  refine ⟨asciiEnv true false, ?_⟩
  let _ : Env := asciiEnv true false
  refine ⟨c!"(b:Some(7),a:[(\"x\",'y')],m:{1:true,2:false},n:(-3))",
    .map [(.str c!"a", .seq [.seq [.str c!"x", .char 'y']]), (.str c!"b", .some (.num (.int .u8 7))),
      (.str c!"m", .map [(.num (.int .u8 1), .bool true), (.num (.int .u8 2), .bool false)]), (.str c!"n", .seq [.num (.int .i8 (-3))])], ?_⟩
  refine ⟨?_, ?_, ?_, ?_, ?_, ?_⟩
  · refine ⟨_, rfl, by decide, ⟨rfl, .inr ⟨_, rfl, _, rfl, fun _ => rfl, by decide⟩⟩, ⟨rfl, [.tuple [.str c!"x", .char 'y']], rfl, ?_⟩,
      ⟨rfl, [(.num (.int .u8 1), .bool true), (.num (.int .u8 2), .bool false)], rfl, ?_⟩,
      ⟨rfl, _, rfl, _, rfl, fun _ => rfl, by decide⟩, trivial⟩
    · intro u hu
      simp only [List.mem_singleton] at hu
      subst hu
      exact ⟨_, rfl, ⟨_, rfl⟩, ⟨_, rfl⟩, trivial⟩
    · intro e he
      simp only [List.mem_cons, List.not_mem_nil, or_false] at he
      rcases he with rfl | rfl <;> exact ⟨⟨_, rfl, fun _ => rfl, by decide⟩, ⟨_, rfl⟩⟩
  · simp only [SVal.Through, ThroughFields, ThroughAll, ThroughEntries, Number.Keeps, and_true, true_and, ne_eq, reduceCtorEq, not_false_eq_true]
    intro es he
    match es, he with
    | [(K, V), (K', V')], he =>
      simp only [SelfDescEntries, SelfDesc, and_true] at he
      obtain ⟨⟨rfl, -⟩, rfl, -⟩ := he
      show List.Pairwise (fun a b : Value => a.cmp b = .lt) [.num (.int .u8 1), .num (.int .u8 2)]
      decide +kernel
  · simp [SVal.Clean, CleanAll, CleanFields, CleanEntries]
    exact ⟨⟨fun _ => rfl, by decide⟩, ⟨⟨fun _ => rfl, by decide⟩, fun _ => rfl, by decide⟩, fun _ => rfl, by decide⟩
  · decide +kernel
  · decide +kernel
  · decide +kernel

omit [Env] in
/-- Enums are not supported: a `Value` does not know variants. -/
theorem C47_enum_fails : ∃ (_ : Env) (D : Nat → Ty) (T : Ty) (v : SVal) (t : Text) (V : Value), HasTy D 2 T v ∧ toText {} none v = .ok t ∧
    fromStr {} (deTy D 2 T) t = .ok v ∧ fromStr {} deValue t = .ok V ∧ (V.into D 2 T).toOption = none := by
  let _ : Env := asciiEnv true true
  refine ⟨inferInstance, fun _ => .unit, .enum c!"E" [(c!"A", .unit)], .unitVariant c!"E" c!"A", c!"A", .unit, ?_⟩
  refine ⟨⟨c!"A", .unit, by simp, by simp, rfl⟩, ?_⟩
  decide +kernel

omit [Env] in
/-- A struct without fields is read as a unit, which does not convert to a struct. -/
theorem C47_empty_fails : ∃ (_ : Env) (D : Nat → Ty) (T : Ty) (v : SVal) (t : Text) (V : Value), HasTy D 2 T v ∧ toText {} none v = .ok t ∧
    fromStr {} (deTy D 2 T) t = .ok v ∧ fromStr {} deValue t = .ok V ∧ (V.into D 2 T).toOption = none := by
  let _ : Env := asciiEnv true true
  refine ⟨inferInstance, fun _ => .unit, .struct c!"E" false [], .struct c!"E" [], c!"()", .unit, ?_⟩
  refine ⟨⟨[], rfl, by simp, trivial⟩, ?_⟩
  decide +kernel

omit [Env] in
/-- With `unwrap_newtypes` a newtype is not converted back. -/
theorem C47_newtype_fails : ∃ (_ : Env) (o : Options) (D : Nat → Ty) (T : Ty) (v : SVal) (t : Text) (V : Value), HasTy D 2 T v ∧
    toText o none v = .ok t ∧ fromStr o (deTy D 2 T) t = .ok v ∧ fromStr o deValue t = .ok V ∧ (V.into D 2 T).toOption = none := by
  let _ : Env := asciiEnv true true
  refine ⟨inferInstance, { defaultExtensions := { unwrapNewtypes := true } }, fun _ => .unit, .newtype c!"N" .bool,
    .newtypeStruct c!"N" (.bool true), c!"true", .bool true, ?_⟩
  refine ⟨⟨_, rfl, _, rfl⟩, ?_⟩
  decide +kernel

omit [Env] in
/-- With `implicit_some` an option is not converted back. -/
theorem C47_some_fails : ∃ (_ : Env) (o : Options) (D : Nat → Ty) (T : Ty) (v : SVal) (t : Text) (V : Value), HasTy D 2 T v ∧
    toText o none v = .ok t ∧ fromStr o (deTy D 2 T) t = .ok v ∧ fromStr o deValue t = .ok V ∧ (V.into D 2 T).toOption = none := by
  let _ : Env := asciiEnv true true
  refine ⟨inferInstance, { defaultExtensions := { implicitSome := true } }, fun _ => .unit, .option .bool,
    .some (.bool true), c!"true", .bool true, ?_⟩
  refine ⟨.inr ⟨_, rfl, _, rfl⟩, ?_⟩
  decide +kernel

end Ron
