import Verif.Lemmas.TypedHas
import Verif.Lemmas.Witness
import Verif.Lemmas.Deq
/-! C46: what is read is data of the type it is read as, and can be written and read again. -/

set_option linter.unusedSectionVars false

namespace Ron

section
variable [Env]

/-- Whatever text a type is read from, the result belongs to the type: integers are in range, tuples have exactly the length of the
type, structs have exactly the fields of the type in its order (a field that does not occur in the text is an option and `None`),
and variants are variants of the enum with the data of that variant. -/
theorem C46_typed (o : Options) (D : Nat → Ty) (hD : ∀ i, (D i).Every Ty.Distinct) (f : Nat) (T : Ty) (hT : T.Every Ty.Distinct) (t : Text) (v : SVal)
    (h : fromStr o (deTy D f T) t = .ok v) : Typed D f T v :=
  (fromStr_y (Y.deTy hD f T _ hT) h).1

/-- The numbers of a `Value` that was read are in the range of their type, and its maps satisfy the invariant of the map type (sorted by
key without duplicates; with `indexmap`: keys without duplicates). -/
theorem C46_value (o : Options) (t : Text) (V : Value) (h : fromStr o deValue t = .ok V) : V.Holds Number.WF :=
  (fromStr_y Y.deValue h).1

/-- Every `Value` that was read can be written, and what is written is read as the same value (numbers written without type suffix are
read back as numbers of the same value: `reNum`). -/
theorem C46_value_again (o : Options) (t : Text) (V : Value) (h : fromStr o deValue t = .ok V) (o' : Options) (cfg : Option PrettyConfig)
    (hb : ∀ c, cfg = some c → c.Blank) (hi : (extsOf o' cfg).implicitSome = false) (hx : (extsOf o' cfg).unwrapVariantNewtypes = false)
    (hk : ∀ m, o'.recursionLimit = some m → V.levels ≤ m) :
    ∃ t', toText o' cfg V.toS = .ok t' ∧ ∀ l l', Layout l → Layout l' →
      fromStr o' deValue (l ++ (t' ++ l')) = .ok (V.mapNum (reNum (sfxOf cfg))) :=
  value_roundtrip hb hi hx (C46_value o t V h) hk

/-- What was read as a type can be written, and what is written is read as the same data; the text need not be one that was written by
this crate.  (Data with NaNs that carry a payload, which can only come from the conversion of another float type, is left out.) -/
theorem C46_again (o : Options) (D : Nat → Ty) (hD : ∀ i, (D i).Every Ty.Good) (f : Nat) (T : Ty) (hT : T.Every Ty.Good) (t : Text) (v : SVal)
    (h : fromStr o (deTy D f T) t = .ok v) (hc : v.Canon) (o' : Options) (cfg : Option PrettyConfig) (hb : ∀ c, cfg = some c → c.Blank)
    (hcr : crOf cfg = false) (hwx : wxOf o' cfg = false) (hk : ∀ m, o'.recursionLimit = some m → v.cost ≤ m) :
    ∃ t', toText o' cfg v = .ok t' ∧ ∀ l l', Layout l → Layout l' → fromStr o' (deTy D f T) (l ++ (t' ++ l')) = .ok v := by
  have ht := C46_typed o D (fun i => (Every.and (hD i)).1) f T (Every.and hT).1 t v h
  obtain ⟨h1, h2⟩ := Typed.hasTy hD f T v hT hc ht
  have hcl := HasTy.clean D f T v h1
  obtain ⟨t', ht'⟩ := toText_goes hb h2 (fun m hm => Nat.le_trans (nesting_le_cost v hcl) (hk m hm))
  exact ⟨t', ht', typed_reads h1 (Nat.le_refl f) (by rw [rgOf_structs hcr, hwx]; exact hcl) hk ht'⟩

end

/-- A struct with an optional field, a tuple and an enum: the fields in another order, one of them missing, and layout. -/
def sampleTy : Ty := .struct c!"S" false
  [(c!"a", .tuple [.int .u8, .bool]), (c!"b", .option .str), (c!"c", .enum c!"E" [(c!"U", .unit), (c!"N", .newtype (.int .i64))])]

example : ∃ _ : Env,
    (let v : SVal := .struct c!"S" [(c!"a", .tuple [.num (.int .u8 7), .bool true]), (c!"b", .none), (c!"c", .newtypeVariant c!"E" c!"N" (.num (.int .i64 (-3))))]
     fromStr {} (deTy (fun _ => .unit) 5 sampleTy) c!"S( c: N(-3), /* x */ a: (7, true,), )" = .ok v ∧
      v.Canon ∧ v.cost = 4 ∧ toText {} none v = .ok c!"(a:(7,true),b:None,c:N(-3))") ∧
    sampleTy.Every Ty.Good ∧
    (fromStr {} (deTy (fun _ => .unit) 5 sampleTy) c!"S(a: (7), c: U)").toOption = none ∧
    (fromStr {} (deTy (fun _ => .unit) 5 sampleTy) c!"S(a: (7, true, 1), c: U)").toOption = none ∧
    (fromStr {} (deTy (fun _ => .unit) 5 sampleTy) c!"S(a: (256, true), c: U)").toOption = none ∧
    (fromStr {} (deTy (fun _ => .unit) 5 sampleTy) c!"S(a: (7, true), b: None)").toOption = none := by
  refine ⟨asciiEnv true true, ?_⟩
  let _ : Env := asciiEnv true true
  refine ⟨⟨by decide +kernel, ?_, by decide +kernel, by decide +kernel⟩, ?_, by decide +kernel, by decide +kernel, by decide +kernel, by decide +kernel⟩
  · simp [SVal.Canon, CanonFields, CanonAll, Number.canon]
  · simp [sampleTy, Ty.Every, Ty.Good, Ty.Distinct, Ty.Fit, Ty.Parts, PartsFields, PartsAll, PartsVariants, Variant.Parts, RawName]
    exact ⟨by decide +kernel, by intro h; cases h <;> contradiction, by decide +kernel, by intro h; cases h <;> contradiction⟩

end Ron
