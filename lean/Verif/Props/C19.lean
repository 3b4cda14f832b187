import Verif.Lemmas.TyDoc
import Verif.Lemmas.Witness
import Verif.Lemmas.Deq
/-!
# C19: typed data round-trips under every combination of extensions

`HasTy` (Spec/HasTy.lean) says which data belongs to a type.  Missing from the full claim, hence `_partial`: under
`compact_ranges`, ranges with bounds that do not fit the compact notation (see C31) and, under both `implicit_some` and `unwrap_variant_newtypes`, options of tuples of options inside newtype
variants (`SVal.Clean`, Spec/Clean.lean; `C19_fails` shows that the claim is false there), fields of type `Value` and `RawValue`.
-/

set_option linter.unusedSimpArgs false

namespace Ron

variable [Env]

/-- What was serialized with any configuration is read back as the same type, whatever layout surrounds the text. -/
theorem C19_partial (o : Options) (cfg : Option PrettyConfig) (D : Nat → Ty) (n f : Nat) (T : Ty) (v : SVal) (t : Text)
    (hT : HasTy D n T v) (hf : n ≤ f) (hv : v.Clean (rgOf o cfg) (wxOf o cfg))
    (hk : ∀ m, o.recursionLimit = some m → v.cost ≤ m) (h : toText o cfg v = .ok t) :
    ∀ l l', Layout l → Layout l' → fromStr o (deTy D f T) (l ++ (t ++ l')) = .ok v :=
  typed_reads hT hf hv hk h

/-- Without compact ranges and with at most one of the two extensions every value of every type round-trips: it is written,
and the text is read back. -/
theorem C19_roundtrip_partial (o : Options) (cfg : Option PrettyConfig) (D : Nat → Ty) (n f : Nat) (T : Ty) (v : SVal)
    (hT : HasTy D n T v) (hf : n ≤ f) (hb : ∀ c, cfg = some c → c.Blank ∧ c.compactRanges = false)
    (hx : (extsOf o cfg).implicitSome = true → (extsOf o cfg).unwrapVariantNewtypes = false) (hn : v.Named)
    (hk : ∀ m, o.recursionLimit = some m → v.cost ≤ m) :
    ∃ t, toText o cfg v = .ok t ∧ ∀ l l', Layout l → Layout l' → fromStr o (deTy D f T) (l ++ (t ++ l')) = .ok v := by
  have hc := HasTy.clean D n T v hT
  obtain ⟨t, ht⟩ := toText_goes (fun c h => (hb c h).1) hn
    (fun m hm => Nat.le_trans (nesting_le_cost v hc) (hk m hm))
  refine ⟨t, ht, typed_reads hT hf ?_ hk ht⟩
  have h1 : crOf cfg = false := by
    cases cfg with
    | none => rfl
    | some c => exact (hb c rfl).2
  have h2 : wxOf o cfg = false := by
    unfold wxOf
    cases hi : (extsOf o cfg).implicitSome with
    | false => rfl
    | true => rw [hx hi]; rfl
  rw [rgOf_structs h1, h2]
  exact hc

/-- Distinct data of the same type has distinct texts. -/
theorem C19_injective_partial (o : Options) (cfg : Option PrettyConfig) (D : Nat → Ty) (n : Nat) (T : Ty) (v v' : SVal) (t : Text)
    (hT : HasTy D n T v) (hT' : HasTy D n T v') (hv : v.Clean (rgOf o cfg) (wxOf o cfg)) (hv' : v'.Clean (rgOf o cfg) (wxOf o cfg))
    (ho : o.recursionLimit = none)
    (h : toText o cfg v = .ok t) (h' : toText o cfg v' = .ok t) : v = v' := by
  have h1 := typed_reads hT (Nat.le_refl n) hv (by simp [ho]) h [] [] .nil .nil
  have h2 := typed_reads hT' (Nat.le_refl n) hv' (by simp [ho]) h' [] [] .nil .nil
  rw [h1] at h2
  exact Except.ok.inj h2

/-- A recursive list: `struct List { head: i32, tail: Option<Box<List>> }` and an enum of all four kinds of variants. -/
def exampleTypes : Nat → Ty
  | 0 => .struct c!"List" true [(c!"head", .int .i32), (c!"tail", .option (.ref 0))]
  | _ => .enum c!"E" [(c!"A", .unit), (c!"B", .newtype (.ref 0)), (c!"C", .tuple [.str, .map .char .bool]),
      (c!"D", .struct false [(c!"x", .newtype c!"W" (.seq .unit))])]

/-- Non-vacuity: a list of two elements, inside a newtype variant; a struct variant. -/
example : let _ := asciiEnv true true
    let l := SVal.struct c!"List" [(c!"head", .num (.int .i32 1)),
      (c!"tail", .some (.struct c!"List" [(c!"head", .num (.int .i32 (-2))), (c!"tail", .none)]))]
    let v := SVal.newtypeVariant c!"E" c!"B" l
    HasTy exampleTypes 8 (.ref 1) v ∧ v.Clean .compactStrict true ∧ v.Named ∧ v.cost = 7 ∧
      HasTy exampleTypes 8 (.ref 1) (.structVariant c!"E" c!"D" [(c!"x", .newtypeStruct c!"W" (.seq (some 2) [.unit, .unit]))]) := by
  refine ⟨?_, ?_, ?_, rfl, ?_⟩
  · refine ⟨c!"B", .newtype (.ref 0), by simp, by decide, _, rfl, _, rfl, by decide, ⟨rfl, _, rfl, fun _ => rfl, by decide⟩, ⟨rfl, .inr ⟨_, rfl, _, rfl, by decide, ⟨rfl, _, rfl, fun _ => rfl, by decide⟩, ⟨rfl, .inl rfl⟩, trivial⟩⟩, trivial⟩
  · simp [SVal.Clean, SVal.OptOk, CleanFields, CleanAll, Number.WF, IntTy.Avail, rangeKindOf]
    decide
  · simp only [SVal.Named, NamedFields, NamedAll]
    refine ⟨?_, ?_, ?_, ⟨?_, trivial⟩, ⟨?_, ?_, ⟨?_, trivial⟩, ⟨?_, trivial⟩, trivial⟩, trivial⟩ <;> exact ⟨by simp, by decide⟩
  · refine ⟨c!"D", .struct false [(c!"x", .newtype c!"W" (.seq .unit))], by simp, by decide, _, rfl, by decide, ⟨rfl, _, rfl, [.unit, .unit], rfl, ?_⟩, trivial⟩
    intro u hu
    simp at hu
    exact hu

omit [Env] in
/-- The full claim is false of this code.  With `implicit_some` and `unwrap_variant_newtypes`, the value
`A(Some((None, true)))` of an enum `E { A(Option<(Option<()>, bool)>) }` is written `A(None,true)`, which is not read back. -/
theorem C19_fails : ∃ (_ : Env) (o : Options) (D : Nat → Ty) (n : Nat) (T : Ty) (v : SVal) (t : Text),
    HasTy D n T v ∧ v.Named ∧ (∀ m, o.recursionLimit = some m → v.cost ≤ m) ∧ toText o none v = .ok t ∧
    ∀ u, fromStr o (deTy D n T) t ≠ .ok u := by
  let _ : Env := asciiEnv true true
  have h1 : (toText { defaultExtensions := ⟨false, true, true, false⟩ } none
      (.newtypeVariant c!"E" c!"A" (.some (.tuple [.none, .bool true])))).toOption = some c!"A(None,true)" := by decide +kernel
  have h2 : (fromStr { defaultExtensions := ⟨false, true, true, false⟩ } (deTy (fun _ => .unit) 5
      (.enum c!"E" [(c!"A", .newtype (.option (.tuple [.option .unit, .bool])))])) c!"A(None,true)").isOk = false := by
    decide +kernel
  refine ⟨inferInstance, { defaultExtensions := ⟨false, true, true, false⟩ }, fun _ => .unit, 5,
    .enum c!"E" [(c!"A", .newtype (.option (.tuple [.option .unit, .bool])))],
    .newtypeVariant c!"E" c!"A" (.some (.tuple [.none, .bool true])), c!"A(None,true)", ?_, ?_, ?_, ?_, ?_⟩
  · exact ⟨c!"A", .newtype (.option (.tuple [.option .unit, .bool])), by simp, by decide, _, rfl, .inr ⟨_, rfl, _, rfl, .inl rfl, ⟨_, rfl⟩, trivial⟩⟩
  · simp only [SVal.Named, NamedAll]
    exact ⟨⟨by simp, by decide⟩, ⟨by simp, by decide⟩, trivial, trivial, trivial⟩
  · intro m hm
    cases hm
    decide
  · revert h1
    generalize toText { defaultExtensions := ⟨false, true, true, false⟩ } none
      (.newtypeVariant c!"E" c!"A" (.some (.tuple [.none, .bool true]))) = r
    cases r <;> intro h <;> simp [Except.toOption] at h ⊢
    exact h
  · intro V h
    rw [h] at h2
    cases h2

end Ron
