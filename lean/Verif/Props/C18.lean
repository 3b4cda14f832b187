import Verif.Lemmas.TyDoc
import Verif.Lemmas.Witness
import Verif.Lemmas.Deq
/-!
# C18: pretty-printing options do not change the data

Missing from the full claim, hence `_partial`: the exclusions of `SVal.Clean` (see C19); and read as an untyped `Value` the texts
of an empty struct or tuple struct can differ (`C18_untyped_fails`).
-/

set_option linter.unusedSimpArgs false

namespace Ron

variable [Env]

/-- Two configurations write texts that are read back, as the type of the data, as the same data (extensions other than the default
ones stand in the header of the text):
depth limit, indentation, newlines, separators, struct names, array numbering, string escapes and number suffixes have no influence. -/
theorem C18_partial (o : Options) (cfg cfg' : Option PrettyConfig) (D : Nat → Ty) (n f : Nat) (T : Ty) (v : SVal) (t t' : Text)
    (hT : HasTy D n T v) (hf : n ≤ f)
    (hv : v.Clean (rgOf o cfg) (wxOf o cfg)) (hv' : v.Clean (rgOf o cfg') (wxOf o cfg'))
    (hk : ∀ m, o.recursionLimit = some m → v.cost ≤ m) (h : toText o cfg v = .ok t) (h' : toText o cfg' v = .ok t') :
    ∃ u, fromStr o (deTy D f T) t = .ok u ∧ fromStr o (deTy D f T) t' = .ok u := by
  have h1 := typed_reads hT hf (v := v) (cfg := cfg) hv hk h [] [] .nil .nil
  have h2 := typed_reads hT hf (v := v) (cfg := cfg') hv' hk h' [] [] .nil .nil
  simp only [List.nil_append, List.append_nil] at h1 h2
  exact ⟨v, h1, h2⟩

/-- A `Value` written with two configurations that agree on the extensions and on number suffixes is read back as the same `Value`. -/
theorem C18_value_partial (o : Options) (cfg cfg' : Option PrettyConfig) (V : Value) (hb : ∀ c, cfg = some c → c.Blank)
    (hb' : ∀ c, cfg' = some c → c.Blank) (hx : extsOf o cfg = extsOf o cfg') (hs : sfxOf cfg = sfxOf cfg')
    (hi : (extsOf o cfg).implicitSome = false) (hu : (extsOf o cfg).unwrapVariantNewtypes = false)
    (hV : V.Holds Number.WF) (hk : ∀ m, o.recursionLimit = some m → V.levels ≤ m) :
    ∃ t t' W, toText o cfg V.toS = .ok t ∧ toText o cfg' V.toS = .ok t' ∧
      fromStr o deValue t = .ok W ∧ fromStr o deValue t' = .ok W := by
  obtain ⟨t, h1, h2⟩ := value_roundtrip hb hi hu hV hk
  obtain ⟨t', h3, h4⟩ := value_roundtrip hb' (hx ▸ hi) (hx ▸ hu) hV hk
  refine ⟨t, t', _, h1, h3, by simpa using h2 [] [] .nil .nil, ?_⟩
  have := h4 [] [] .nil .nil
  rw [← hs] at this
  simpa using this

/-- Non-vacuity: two configurations that differ in everything but the extensions. -/
example : let _ := asciiEnv true true
    let c : PrettyConfig := {}
    let c' : PrettyConfig :=
      { newLine := c!"\r\n", indentor := c!"\t", separator := [], structNames := true, depthLimit := 1, escapeStrings := false,
        numberSuffixes := true, compactArrays := true, enumerateArrays := true }
    c.Blank ∧ c'.Blank ∧ extsOf {} (some c) = extsOf {} (some c') ∧
    HasTy (fun _ => .unit) 3 (.struct c!"P" true [(c!"x", .seq (.int .u8)), (c!"y", .str)])
      (.struct c!"P" [(c!"x", .seq (some 2) [.num (.int .u8 1), .num (.int .u8 2)]), (c!"y", .str c!"\t")]) ∧
    (toText {} (some c) (.struct c!"P" [(c!"x", .seq (some 2) [.num (.int .u8 1), .num (.int .u8 2)]), (c!"y", .str c!"\t")])).toOption ≠
    (toText {} (some c') (.struct c!"P" [(c!"x", .seq (some 2) [.num (.int .u8 1), .num (.int .u8 2)]), (c!"y", .str c!"\t")])).toOption := by
  refine ⟨?_, ?_, rfl, ?_, ?_⟩
  · unfold PrettyConfig.Blank; decide
  · unfold PrettyConfig.Blank; decide
  · refine ⟨_, rfl, by decide, ⟨rfl, [.num (.int .u8 1), .num (.int .u8 2)], rfl, ?_⟩, ⟨rfl, _, rfl⟩, trivial⟩
    intro u hu
    simp at hu
    rcases hu with rfl | rfl <;> exact ⟨_, rfl, fun _ => rfl, by decide⟩
  · decide +kernel

omit [Env] in
/-- As an untyped `Value` the configuration can matter: an empty tuple struct is written `()` or, with `struct_names`, `P()`; the
former is read as a unit and the latter as an empty sequence. -/
theorem C18_untyped_fails : ∃ (_ : Env) (c : PrettyConfig) (v : SVal) (t t' : Text) (V V' : Value),
    c.Blank ∧ extsOf {} none = extsOf {} (some c) ∧ sfxOf none = sfxOf (some c) ∧
    toText {} none v = .ok t ∧ toText {} (some c) v = .ok t' ∧ fromStr {} deValue t = .ok V ∧ fromStr {} deValue t' = .ok V' ∧
    V ≠ V' := by
  let _ : Env := asciiEnv true true
  refine ⟨inferInstance, { structNames := true }, .tupleStruct c!"P" [], c!"()", c!"P()", .unit, .seq [], by unfold PrettyConfig.Blank; decide, rfl, rfl, ?_, ?_, ?_, ?_, ?_⟩
  all_goals decide +kernel

end Ron
