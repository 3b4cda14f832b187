import Verif.Lemmas.ValueRt
import Verif.Lemmas.Witness
/-!
# C16: every `Value` round-trips exactly with number suffixes
-/

set_option linter.unusedSimpArgs false

namespace Ron

variable [Env]

/-- A value as it can be built through the API: numbers in the range of their type, NaNs in the canonical form that the
reader produces, maps with distinct keys (in order without `indexmap`). -/
def Value.Proper (V : Value) : Prop := V.Holds fun n => n.WF ∧ n.canon = n

/-- With any blank configuration that writes number suffixes, and within the recursion limit, serialization succeeds
and parsing the text (with any layout around it) gives back the value. -/
theorem C16 (o : Options) (c : PrettyConfig) (V : Value) (hb : c.Blank) (hs : c.numberSuffixes = true)
    (hi : (o.defaultExtensions.union c.extensions).implicitSome = false)
    (hx : (o.defaultExtensions.union c.extensions).unwrapVariantNewtypes = false)
    (hV : V.Proper) (hk : ∀ m, o.recursionLimit = some m → V.levels ≤ m) :
    ∃ t, toText o (some c) V.toS = .ok t ∧
      ∀ l l', Layout l → Layout l' → fromStr o deValue (l ++ (t ++ l')) = .ok V := by
  obtain ⟨t, h1, h2⟩ := value_roundtrip (o := o) (cfg := some c) (V := V) (by rintro c' h; cases h; exact hb) hi hx
    (hV.imp fun _ h => h.1) hk
  refine ⟨t, h1, ?_⟩
  rw [mapNum_id (p := fun n => n.WF ∧ n.canon = n) ?_ V hV] at h2
  · exact h2
  · intro n hn
    show (if sfxOf (some c) then _ else _) = _
    rw [show sfxOf (some c) = true from hs, if_pos rfl]
    exact hn.2

/-- Whenever serialization succeeds, only the reader's limit matters. -/
theorem C16_written (o : Options) (c : PrettyConfig) (V : Value) (t : Text) (hs : c.numberSuffixes = true)
    (hi : (o.defaultExtensions.union c.extensions).implicitSome = false)
    (hx : (o.defaultExtensions.union c.extensions).unwrapVariantNewtypes = false)
    (hV : V.Proper) (hk : ∀ m, o.recursionLimit = some m → V.levels ≤ m) (h : toText o (some c) V.toS = .ok t) :
    fromStr o deValue t = .ok V := by
  have hb : c.Blank := by
    refine Classical.byContradiction fun hb => ?_
    obtain ⟨m, s, h1, -⟩ := C36_refused o c {} V.toS hb
    simp [toText, h1] at h
  obtain ⟨t', h1, h2⟩ := C16 o c V hb hs hi hx hV hk
  rw [h] at h1
  cases h1
  simpa using h2 [] [] .nil .nil

/-- Non-vacuity: a nested value with a typed number, a map with two keys and an option, which needs five levels. -/
example : let _ := asciiEnv true true
    let V := Value.map [(.str c!"a", .some (.seq [.num (.int .u8 7), .unit])), (.num (.int .i64 (-3)), .bytes [1, 255])]
    V.Proper ∧ V.levels = 5 := by
  refine ⟨?_, ?_⟩
  · refine ⟨?_, ⟨trivial, ?_⟩, ⟨?_, trivial⟩, trivial⟩
    · unfold MapInv NodupKeys
      simp
    · exact ⟨⟨⟨fun h => rfl, by decide⟩, rfl⟩, trivial, trivial⟩
    · exact ⟨⟨fun h => rfl, by decide⟩, rfl⟩
  · rfl

omit [Env] in
/-- `n` nested sequences around `true`. -/
def nestedSeq : Nat → Value
  | 0 => .bool true
  | n + 1 => .seq [nestedSeq n]

/-- The reader's limit is needed: the reader spends two levels on a sequence where the writer spends one.  With the default
options, 65 nested sequences serialize to a text that the same options refuse to parse. -/
theorem C16_limit_needed : ∃ (_ : Env) (t : Text), toText {} none (nestedSeq 65).toS = .ok t ∧
    ∀ V, fromStr {} deValue t ≠ .ok V := by
  let _ : Env := asciiEnv true true
  have h1 : (toText {} none (nestedSeq 65).toS).toOption =
      some (List.replicate 65 '[' ++ c!"true" ++ List.replicate 65 ']') := by decide +kernel
  have h2 : (fromStr {} deValue (List.replicate 65 '[' ++ c!"true" ++ List.replicate 65 ']')).isOk = false := by
    decide +kernel
  refine ⟨inferInstance, List.replicate 65 '[' ++ c!"true" ++ List.replicate 65 ']', ?_, ?_⟩
  · revert h1
    generalize toText {} none (nestedSeq 65).toS = r
    cases r <;> intro h <;> simp [Except.toOption] at h ⊢
    exact h
  · intro V h
    rw [h] at h2
    cases h2

end Ron
