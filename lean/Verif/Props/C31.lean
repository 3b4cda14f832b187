import Verif.Lemmas.TyDoc
import Verif.Lemmas.Witness
import Verif.Lemmas.Deq
/-!
# C31: compact ranges round-trip

The claim for all bounds is false (`C31_explicit_fails`, `C31_unwrap_fails`, `C31_word_fails`), hence `_partial`: a range the
bounds of which are not numbers is written as a struct without its name and always within parentheses, which does not fit
`explicit_struct_names` and `unwrap_variant_newtypes`; a range with two bounds the first of which is `inf` or `NaN` is not recognized.
The bounds are numbers that are not changed by being read without a type first (`Number.Keeps`; this is no restriction on
integers, on `f64` and on `f32` written with suffix).
-/

set_option linter.unusedSimpArgs false

namespace Ron

section
variable [Env]

/-- A range with numbers as bounds is written in the compact notation, after the header of the document, and is read back, with every
extension set and recursion limit. -/
theorem C31_document_partial (o : Options) (c : PrettyConfig) (hb : c.Blank) (hc : c.compactRanges = true) (D : Nat → Ty) (n f : Nat)
    (name : Text) (deny : Bool) (fields : List (Text × Ty)) (es : List (Text × Number)) (w : Text)
    (hT : HasTy D n (.struct name deny fields) (.struct name (es.map fun e => (e.1, SVal.num e.2)))) (hf : n ≤ f)
    (hw : RangeLit (sfxOf (some c)) name es w) (hk : ∀ e ∈ es, e.2.WF ∧ e.2.Keeps (sfxOf (some c)))
    (hs : es.length = 2 → ∀ e ∈ es.head?, e.2.NoWord) :
    ∃ hdr e, Attrs hdr e ∧ e.union o.defaultExtensions = extsOf o (some c) ∧
      toText o (some c) (.struct name (es.map fun e => (e.1, SVal.num e.2))) = .ok (hdr ++ w) ∧
      ∀ l l', Layout l → Layout l' →
        fromStr o (deTy D f (.struct name deny fields)) (l ++ ((hdr ++ w) ++ l')) = .ok (.struct name (es.map fun e => (e.1, SVal.num e.2))) := by
  obtain ⟨s1, e, h0, hx1, hn1, hcr, hid, ha, hu⟩ := toText_start (o := o) (cfg := some c) (by rintro _ ⟨⟩; exact hb)
  obtain ⟨kind, hkind⟩ := rangeLit_kind hw
  refine ⟨s1.w.out, e, ha, hu, ?_, fun l l' hl hl' => ?_⟩
  · have hq : s1.calm.Quiet := hid.good.quiet
    have hr := range_compact hw hkind hq hn1
    have hcr' : s1.compactRanges = true := hcr.trans hc
    unfold toText toWriter
    simp only [wbind_apply, h0, ser, structOpen, wget_apply, hcr', List.length_map, hkind, wmod_apply, wpure_apply]
    rw [show ({ s1 with nv := false, isd := 0 } : Ser) = s1.calm from rfl]
    unfold dropCompound
    rw [hr]
    rfl
  · rw [List.append_assoc]
    match n, f, hf, hT with
    | n + 1, f + 1, hf, hT =>
      obtain ⟨fs, e', -, hv⟩ := hT
      simp only [SVal.struct.injEq, true_and] at e'
      subst e'
      refine doc_reads (k := 0) (ReadsA.reads ?_) hl ha hu (fun _ _ => Nat.zero_le _) hl'
      exact range_reads_lit (H := HasTy D n) (fun T a hka hTa => numTo_back hka n f T (by omega) hTa) hv hw hk hs
    | 0, _, _, hT => exact hT.elim
    | n + 1, 0, hf, _ => exact absurd hf (by omega)

/-- `RangeFull` is written as `..` and read back. -/
theorem C31_full (o : Options) (c : PrettyConfig) (hb : c.Blank) (hc : c.compactRanges = true) (D : Nat → Ty) (f : Nat) :
    ∃ hdr e, Attrs hdr e ∧ e.union o.defaultExtensions = extsOf o (some c) ∧
      toText o (some c) (.unitStruct c!"RangeFull") = .ok (hdr ++ c!"..") ∧
      ∀ l l', Layout l → Layout l' →
        fromStr o (deTy D (f + 1) (.unitStruct c!"RangeFull")) (l ++ ((hdr ++ c!"..") ++ l')) = .ok (.unitStruct c!"RangeFull") := by
  obtain ⟨s1, e, h0, hx1, hn1, hcr, hid, ha, hu⟩ := toText_start (o := o) (cfg := some c) (by rintro _ ⟨⟩; exact hb)
  refine ⟨s1.w.out, e, ha, hu, ?_, fun l l' hl hl' => ?_⟩
  · have hcr' : s1.compactRanges = true := hcr.trans hc
    unfold toText toWriter
    simp only [wbind_apply, h0, ser, serUnitStruct, wget_apply, hcr']
    simp [wbind_apply, write_quiet hid.good.quiet, wmod_apply, Ser.put]
  · rw [List.append_assoc]
    refine doc_reads (k := 0) (Reads.bind_pure full_reads.reads fun _ => SVal.unitStruct c!"RangeFull") hl ha hu (fun _ _ => Nat.zero_le _) hl'

/-- Data with ranges anywhere inside of it is written and read back. -/
theorem C31_nested_partial (o : Options) (c : PrettyConfig) (hb : c.Blank) (D : Nat → Ty) (n f : Nat) (T : Ty) (v : SVal)
    (hT : HasTy D n T v) (hf : n ≤ f) (hv : v.Clean .compactStrict (wxOf o (some c))) (hn : v.Named)
    (hk : ∀ m, o.recursionLimit = some m → v.cost ≤ m) :
    ∃ t, toText o (some c) v = .ok t ∧ ∀ l l', Layout l → Layout l' → fromStr o (deTy D f T) (l ++ (t ++ l')) = .ok v := by
  obtain ⟨t, ht⟩ := toText_goes (cfg := some c) (o := o) (by rintro _ ⟨⟩; exact hb) hn
    (fun m hm => Nat.le_trans (nesting_le_cost v (HasTy.clean D n T v hT)) (hk m hm))
  exact ⟨t, ht, typed_reads hT hf (hv.mono (.inr (.inr rfl)) id) hk ht⟩

/-- Without `explicit_struct_names` and `unwrap_variant_newtypes` the bounds may also be other data than numbers (written as a struct). -/
theorem C31_fallback_partial (o : Options) (c : PrettyConfig) (hb : c.Blank) (D : Nat → Ty) (n f : Nat) (T : Ty) (v : SVal)
    (he : (extsOf o (some c)).explicitStructNames = false) (hu : (extsOf o (some c)).unwrapVariantNewtypes = false)
    (hT : HasTy D n T v) (hf : n ≤ f) (hv : v.Clean .compact false) (hn : v.Named)
    (hk : ∀ m, o.recursionLimit = some m → v.cost ≤ m) :
    ∃ t, toText o (some c) v = .ok t ∧ ∀ l l', Layout l → Layout l' → fromStr o (deTy D f T) (l ++ (t ++ l')) = .ok v := by
  obtain ⟨t, ht⟩ := toText_goes (cfg := some c) (o := o) (by rintro _ ⟨⟩; exact hb) hn
    (fun m hm => Nat.le_trans (nesting_le_cost v (HasTy.clean D n T v hT)) (hk m hm))
  refine ⟨t, ht, typed_reads hT hf (hv.mono ?_ (by simp [wxOf, hu])) hk ht⟩
  unfold rgOf
  simp only [he, hu, Bool.or_self, Bool.false_eq_true, ↓reduceIte]
  split <;> simp

/-- As an untyped `Value`, a range is the map of its bounds. -/
theorem C31_value_partial (o : Options) (c : PrettyConfig) (hb : c.Blank) (hc : c.compactRanges = true)
    (name : Text) (es : List (Text × Number)) (w : Text) (hw : RangeLit (sfxOf (some c)) name es w)
    (hu : (extsOf o (some c)).unwrapVariantNewtypes = false) (hk : ∀ e ∈ es, e.2.WF ∧ e.2.NoWord) :
    ∃ hdr, toText o (some c) (.struct name (es.map fun e => (e.1, SVal.num e.2))) = .ok (hdr ++ w) ∧
      ∀ l l', Layout l → Layout l' → fromStr o deValue (l ++ ((hdr ++ w) ++ l')) =
        .ok (.map (mapOfList (es.map fun e => (.str e.1, .num (if sfxOf (some c) then e.2.canon else e.2.untyped))))) := by
  obtain ⟨s1, e, h0, hx1, hn1, hcr, hid, ha, hu'⟩ := toText_start (o := o) (cfg := some c) (by rintro _ ⟨⟩; exact hb)
  obtain ⟨kind, hkind⟩ := rangeLit_kind hw
  refine ⟨s1.w.out, ?_, fun l l' hl hl' => ?_⟩
  · have hq : s1.calm.Quiet := hid.good.quiet
    have hr := range_compact hw hkind hq hn1
    have hcr' : s1.compactRanges = true := hcr.trans hc
    unfold toText toWriter
    simp only [wbind_apply, h0, ser, structOpen, wget_apply, hcr', List.length_map, hkind, wmod_apply, wpure_apply]
    rw [show ({ s1 with nv := false, isd := 0 } : Ser) = s1.calm from rfl]
    unfold dropCompound
    rw [hr]
    rfl
  · rw [List.append_assoc]
    exact doc_reads (deValue_reads hu (scalar_den (.range hw hk) 0)) hl ha hu' (fun _ _ => Nat.zero_le _) hl'

end

/-! ### Examples -/

/-- The type `Range<T>`. -/
def rangeTy (T : Ty) : Ty := .struct c!"Range" true [(c!"start", T), (c!"end", T)]
/-- A configuration with compact ranges. -/
def compactConfig : PrettyConfig := { newLine := [], indentor := [], separator := [], compactRanges := true }

theorem compactConfig_blank : compactConfig.Blank := by unfold PrettyConfig.Blank; decide

/-- Non-vacuity: `-1..7`, `0.0..=inf` and `inf..`. -/
example : let _ := asciiEnv true true
    RangeLit false c!"Range" [(c!"start", .int .i32 (-1)), (c!"end", .int .i32 7)] c!"-1..7" ∧
    HasTy (fun _ => .unit) 2 (rangeTy (.int .i32)) (.struct c!"Range" [(c!"start", .num (.int .i32 (-1))), (c!"end", .num (.int .i32 7))]) ∧
    toText {} (some compactConfig) (.struct c!"Range" [(c!"start", .num (.int .i32 (-1))), (c!"end", .num (.int .i32 7))]) = .ok c!"-1..7" ∧
    toText {} (some compactConfig) (.struct c!"RangeInclusive" [(c!"start", .num (.f64 0)), (c!"end", .num (.f64 F64.inf))]) = .ok c!"0.0..=inf" ∧
    toText {} (some compactConfig) (.struct c!"RangeFrom" [(c!"start", .num (.f64 F64.inf))]) = .ok c!"inf.." ∧
    (∀ e ∈ [(c!"start", Number.f64 F64.inf)], e.2.WF ∧ e.2.Keeps false) := by
  let _ : Env := asciiEnv true true
  refine ⟨?_, ⟨_, rfl, by decide, ⟨rfl, _, rfl, fun _ => rfl, by decide⟩, ⟨rfl, _, rfl, fun _ => rfl, by decide⟩, trivial⟩,
    by decide +kernel, by decide +kernel, by decide +kernel, ?_⟩
  · have := RangeLit.range (sfx := false) (a := .int .i32 (-1)) (b := .int .i32 7)
    rwa [show (Number.int .i32 (-1)).text false ++ (c!".." ++ (Number.int .i32 7).text false) = c!"-1..7" by decide +kernel] at this
  intro e he
  simp at he
  subst he
  exact ⟨trivial, trivial⟩

/-- Non-vacuity of the nested case: a list of ranges in an option. -/
example : let _ := asciiEnv true true
    let r := SVal.struct c!"Range" [(c!"start", .num (.int .i32 (-1))), (c!"end", .num (.int .i32 7))]
    (SVal.some (.seq (some 2) [r, r])).Clean .compactStrict true ∧
    toText {} (some compactConfig) (.some (.seq (some 2) [r, r])) = .ok c!"Some([-1..7,-1..7,])" := by
  let _ : Env := asciiEnv true true
  have hg : GoodRange c!"Range" [(c!"start", .num (.int .i32 (-1))), (c!"end", .num (.int .i32 7))] := by
    refine ⟨_, [(c!"start", .int .i32 (-1)), (c!"end", .int .i32 7)], rfl, .range, ?_⟩
    intro e he
    simp at he
    rcases he with rfl | rfl <;> exact ⟨⟨fun _ => rfl, by decide⟩, trivial, trivial⟩
  refine ⟨?_, by decide +kernel⟩
  simp only [SVal.Clean, CleanAll, CleanFields, and_true]
  exact ⟨⟨fun _ => .inr (.inl hg), ⟨fun _ => rfl, by decide⟩, ⟨fun _ => rfl, by decide⟩⟩,
    ⟨fun _ => .inr (.inl hg), ⟨fun _ => rfl, by decide⟩, ⟨fun _ => rfl, by decide⟩⟩⟩

/-! ### Where the claim fails -/

/-- With `explicit_struct_names` a range of characters is written without its name and then refused. -/
theorem C31_explicit_fails : ∃ (_ : Env) (o : Options) (D : Nat → Ty) (v : SVal) (t : Text), HasTy D 2 (rangeTy .char) v ∧
    v.Named ∧ toText o (some { compactConfig with structNames := true }) v = .ok t ∧
    (fromStr o (deTy D 2 (rangeTy .char)) t).mapError Prod.fst = .error (.expectedStructName c!"Range") := by
  let _ : Env := asciiEnv true true
  refine ⟨inferInstance, { defaultExtensions := ⟨false, false, false, true⟩ }, fun _ => .unit,
    .struct c!"Range" [(c!"start", .char 'a'), (c!"end", .char 'c')], c!"(start:'a',end:'c',)",
    ⟨_, rfl, by decide, ⟨rfl, _, rfl⟩, ⟨rfl, _, rfl⟩, trivial⟩, ?_, by decide +kernel, by decide +kernel⟩
  simp only [SVal.Named, NamedFields]
  refine ⟨?_, ⟨?_, trivial⟩, ⟨?_, trivial⟩, trivial⟩ <;> exact ⟨by simp, by decide⟩

/-- With `unwrap_variant_newtypes` a range of characters within an option keeps its parentheses and is then refused. -/
theorem C31_unwrap_fails : ∃ (_ : Env) (o : Options) (D : Nat → Ty) (v : SVal) (t : Text), HasTy D 3 (.option (rangeTy .char)) v ∧
    v.Named ∧ toText o (some compactConfig) v = .ok t ∧
    (fromStr o (deTy D 3 (.option (rangeTy .char))) t).mapError Prod.fst = .error .expectedIdentifier := by
  let _ : Env := asciiEnv true true
  refine ⟨inferInstance, { defaultExtensions := ⟨false, false, true, false⟩ }, fun _ => .unit,
    .some (.struct c!"Range" [(c!"start", .char 'a'), (c!"end", .char 'c')]), c!"Some((start:'a',end:'c',))",
    .inr ⟨_, rfl, _, rfl, by decide, ⟨rfl, _, rfl⟩, ⟨rfl, _, rfl⟩, trivial⟩, ?_, by decide +kernel, by decide +kernel⟩
  simp only [SVal.Named, NamedFields]
  refine ⟨?_, ⟨?_, trivial⟩, ⟨?_, trivial⟩, trivial⟩ <;> exact ⟨by simp, by decide⟩

/-- A range that starts with `inf` is refused, and so is one that starts with `NaN`. -/
theorem C31_word_fails : ∃ (_ : Env) (D : Nat → Ty) (v v' : SVal) (t t' : Text), HasTy D 2 (rangeTy .f64) v ∧ HasTy D 2 (rangeTy .f64) v' ∧
    toText {} (some compactConfig) v = .ok t ∧ toText {} (some compactConfig) v' = .ok t' ∧
    (fromStr {} (deTy D 2 (rangeTy .f64)) t).mapError Prod.fst = .error (.expectedNamedStructLike c!"Range") ∧
    (fromStr {} (deTy D 2 (rangeTy .f64)) t').mapError Prod.fst = .error (.expectedNamedStructLike c!"Range") := by
  let _ : Env := asciiEnv true true
  refine ⟨inferInstance, fun _ => .unit,
    .struct c!"Range" [(c!"start", .num (.f64 F64.inf)), (c!"end", .num (.f64 F64.inf))],
    .struct c!"Range" [(c!"start", .num (.f64 F64.nan)), (c!"end", .num (.f64 F64.inf))], c!"inf..inf", c!"NaN..inf",
    ⟨_, rfl, by decide, ⟨rfl, _, rfl, by decide⟩, ⟨rfl, _, rfl, by decide⟩, trivial⟩,
    ⟨_, rfl, by decide, ⟨rfl, _, rfl, by decide⟩, ⟨rfl, _, rfl, by decide⟩, trivial⟩, by decide +kernel, by decide +kernel, by decide +kernel, by decide +kernel⟩

/-- As an untyped `Value`, a range that ends with `inf` is refused: the end is not recognized as a number. -/
theorem C31_value_fails : ∃ (_ : Env) (v : SVal) (t : Text), toText {} (some compactConfig) v = .ok t ∧
    v = .struct c!"Range" [(c!"start", .num (.f64 0)), (c!"end", .num (.f64 F64.inf))] ∧
    (fromStr {} deValue t).mapError Prod.fst = .error .trailingCharacters := by
  let _ : Env := asciiEnv true true
  refine ⟨inferInstance, .struct c!"Range" [(c!"start", .num (.f64 0)), (c!"end", .num (.f64 F64.inf))], c!"0.0..inf", by decide +kernel, rfl, by decide +kernel⟩

end Ron
