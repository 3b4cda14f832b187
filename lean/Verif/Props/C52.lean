import Verif.Lemmas.Compact
import Verif.Lemmas.Named
import Verif.Lemmas.ValueRt
import Verif.Lemmas.Witness
import Verif.Lemmas.Deq
/-! C52: `to_string` writes exactly the compact form of the data. -/

set_option linter.unusedSectionVars false

namespace Ron

section
variable [Env]

/-- What `to_string` writes is the compact form, under any of the extensions. -/
theorem C52_text (o : Options) (v : SVal) (t : Text) (h : toText o none v = .ok t) : t = compact o.defaultExtensions false 0 v := by
  unfold toText toWriter at h
  generalize hw : (do serNew; ser v : W Unit) (Ser.init o none {}) = r at h
  cases r with
  | err e s => cases h
  | ok u s =>
    cases h
    obtain ⟨_, s1, h1, h2⟩ := wbind_ok hw
    have h0 : serNew (Ser.init o none {}) = .ok () (Ser.init o none {}) := rfl
    rw [h0] at h1
    cases h1
    have hd : Dry o.defaultExtensions (Ser.init o none {}) := by
      refine ⟨rfl, rfl, ?_⟩
      simp [Ser.extensions, Ser.init, Exts.union]
    have := (ser_compact v _ _ _ hd h2).step.out
    simpa [Ser.init] using this

/-- `to_string` writes the compact form of all data that has valid names and is nested within the recursion limit. -/
theorem C52_written (o : Options) (v : SVal) (hv : v.Named) (hk : ∀ m, o.recursionLimit = some m → v.nesting ≤ m) :
    toText o none v = .ok (compact o.defaultExtensions false 0 v) := by
  obtain ⟨t, ht⟩ := toText_goes (cfg := none) (fun c h => by cases h) hv hk
  rw [ht, C52_text o v t ht]

/-- Without a recursion limit `to_string` gives a text exactly if the names are valid, and then it is the compact form. -/
theorem C52_exactly (o : Options) (ho : o.recursionLimit = none) (v : SVal) (t : Text) :
    toText o none v = .ok t ↔ v.Named ∧ t = compact o.defaultExtensions false 0 v := by
  refine ⟨fun h => ⟨toText_named h, C52_text o v t h⟩, fun ⟨h, e⟩ => ?_⟩
  rw [e]
  exact C52_written o v h (fun m hm => by rw [ho] at hm; cases hm)

/-- The text does not depend on the recursion limit, nor on names and lengths that the form does not show: data with the same compact
form give the same text. -/
theorem C52_same (o o' : Options) (v v' : SVal) (t t' : Text)
    (hc : compact o.defaultExtensions false 0 v = compact o'.defaultExtensions false 0 v')
    (h : toText o none v = .ok t) (h' : toText o' none v' = .ok t') : t = t' := by
  rw [C52_text o v t h, C52_text o' v' t' h', hc]

end

/-- A struct with a sequence, options, a tuple variant and a name that needs `r#`. -/
def C52_data : SVal :=
  .struct c!"S" [(c!"a", .seq (some 2) [.num (.int .u8 1), .num (.int .i8 (-2))]), (c!"true", .some .none),
    (c!"m", .map (some 1) [(.char 'x', .tupleVariant c!"E" c!"V" [.bool true, .unit])])]

example : let _ : Env := asciiEnv true true
    toText {} none C52_data = .ok c!"(a:[1,-2],r#true:Some(None),m:{'x':V(true,())})" := by decide +kernel
example : let _ : Env := asciiEnv true true
    compact {} false 0 C52_data = c!"(a:[1,-2],r#true:Some(None),m:{'x':V(true,())})" := by
  intro _
  exact (C52_text {} C52_data _ (by decide +kernel)).symm
/-- With `implicit_some` only the innermost `None` needs its options; with `unwrap_variant_newtypes` the parentheses are shared. -/
example : let _ : Env := asciiEnv true true
    toText { defaultExtensions := ⟨true, true, true, true⟩ } none
      (.struct c!"S" [(c!"a", .some (.some .none)), (c!"b", .some (.num (.int .u8 1))),
        (c!"c", .newtypeVariant c!"E" c!"V" (.tuple [.bool true, .unit])), (c!"d", .newtypeStruct c!"N" .unit)])
      = .ok c!"S(a:Some(Some(None)),b:1,c:V(true,()),d:())" := by decide +kernel

end Ron
