import Verif.Lemmas.Need
import Verif.Lemmas.ValueRt
import Verif.Lemmas.Witness
import Verif.Lemmas.Deq
/-! C24: serialization enforces the recursion limit. -/

set_option linter.unusedSectionVars false

namespace Ron

section
variable [Env]

theorem toWriter_uses (o : Options) (cfg : Option PrettyConfig) (v : SVal) (n : Nat) :
    (∃ s', toWriter (o.withRecursionLimit n) cfg {} v = .ok () s' ∧
      toWriter o.withoutRecursionLimit cfg {} v = .ok () { s' with limit := none } ∧ v.need (crOf cfg) ≤ n) ∨
    (∃ e s' t', toWriter (o.withRecursionLimit n) cfg {} v = .err e s' ∧ toWriter o.withoutRecursionLimit cfg {} v = .err e t') ∨
    (∃ s', toWriter (o.withRecursionLimit n) cfg {} v = .err .exceededRecursionLimit s' ∧ n < v.need (crOf cfg)) := by
  have h := Uses.free (cr := crOf cfg) (uses_walk _).serNew (fun _ => ser_uses (crOf cfg) v)
    (Ser.init (o.withRecursionLimit n) cfg {}) n rfl (by cases cfg <;> rfl)
  rcases h with ⟨a, s', e1, e2, hk, -⟩ | ⟨e, s', t', e1, e2⟩ | ⟨s', e1, hk⟩
  · exact .inl ⟨s', e1, e2, hk⟩
  · exact .inr (.inl ⟨e, s', t', e1, e2⟩)
  · exact .inr (.inr ⟨s', e1, hk⟩)

/-- Exactly when serialization with a limit succeeds: if the data can be serialized without limit, then with limit `n` the result
is the same if `n` is at least `need`, and otherwise the limit is reported as exceeded. -/
theorem C24_exact (o : Options) (cfg : Option PrettyConfig) (v : SVal) (n : Nat) (t : Text)
    (h : toText o.withoutRecursionLimit cfg v = .ok t) :
    toText (o.withRecursionLimit n) cfg v = if v.need (crOf cfg) ≤ n then .ok t else .error .exceededRecursionLimit := by
  rcases toWriter_uses o cfg v n with ⟨s', e1, e2, hk⟩ | ⟨e, s', t', e1, e2⟩ | ⟨s', e1, hk⟩
  · simp only [toText, e1, e2] at h ⊢
    rw [if_pos hk]
    exact h
  · simp only [toText, e2] at h
    cases h
  · rw [if_neg (by omega)]
    simp [toText, e1]

/-- The property for data nested too deeply before any compound in it is finished: serialization fails, and it fails with the
exceeded limit unless it fails without limit as well.

Missing: data that is nested too deeply only after some compound has been finished.  There the property is false, see
`C24_fails`. -/
theorem C24_partial (o : Options) (cfg : Option PrettyConfig) (v : SVal) (n : Nat) (h : n < v.front (crOf cfg)) :
    ∃ e, toText (o.withRecursionLimit n) cfg v = .error e ∧
      (e = .exceededRecursionLimit ∨ toText o.withoutRecursionLimit cfg v = .error e) := by
  rcases toWriter_uses o cfg v n with ⟨s', e1, e2, hk⟩ | ⟨e, s', t', e1, e2⟩ | ⟨s', e1, hk⟩
  · have := front_le (crOf cfg) v
    omega
  · exact ⟨e, by simp [toText, e1], .inr (by simp [toText, e2])⟩
  · exact ⟨_, by simp [toText, e1], .inl rfl⟩

/-- Data within the limit is serialized as if there were no limit. -/
theorem C24_within (o : Options) (cfg : Option PrettyConfig) (v : SVal) (n : Nat) (h : v.nesting ≤ n) :
    toText (o.withRecursionLimit n) cfg v = toText o.withoutRecursionLimit cfg v := by
  rcases toWriter_uses o cfg v n with ⟨s', e1, e2, hk⟩ | ⟨e, s', t', e1, e2⟩ | ⟨s', e1, hk⟩
  · simp [toText, e1, e2]
  · simp [toText, e1, e2]
  · have := need_le (crOf cfg) v
    omega

/-- Whatever the limit, a failure without limit is a failure, and no other failure than the exceeded limit appears. -/
theorem C24_errors (o : Options) (cfg : Option PrettyConfig) (v : SVal) (n : Nat) (e : Err)
    (h : toText (o.withRecursionLimit n) cfg v = .error e) :
    e = .exceededRecursionLimit ∨ toText o.withoutRecursionLimit cfg v = .error e := by
  rcases toWriter_uses o cfg v n with ⟨s', e1, e2, hk⟩ | ⟨e', s', t', e1, e2⟩ | ⟨s', e1, hk⟩
  · simp [toText, e1] at h
  · simp only [toText, e1, Except.error.injEq] at h
    exact .inr (by simp [toText, e2, h])
  · simp only [toText, e1, Except.error.injEq] at h
    exact .inl h.symm

/-- `[[[…]]]` -/
def chain : Nat → SVal
  | 0 => .unit
  | n + 1 => .seq none [chain n]

/-- `d` empty lists and then a list nested `d` levels. -/
def loose (d : Nat) : SVal := .seq none (List.replicate d (.seq none []) ++ [chain d])

theorem chain_need (cr : Bool) : ∀ d, (chain d).need cr = d ∧ (chain d).nesting = d ∧ (chain d).Named
  | 0 => ⟨rfl, rfl, trivial⟩
  | d + 1 => by
    obtain ⟨h1, h2, h3⟩ := chain_need cr d
    simp only [chain, SVal.need, needAll, SVal.nesting, nestingAll, SVal.Named, NamedAll, h1, h2]
    exact ⟨by omega, by omega, h3, trivial⟩

theorem loose_need (d : Nat) : ∀ k, needAll false (List.replicate k (.seq none []) ++ [chain d]) ≤ max 1 (d + 1 - k) ∧
    d + 1 ≤ nestingAll (List.replicate k (.seq none []) ++ [chain d]) ∧ NamedAll (List.replicate k (.seq none []) ++ [chain d])
  | 0 => by
    obtain ⟨h1, h2, h3⟩ := chain_need false d
    simp only [List.replicate, List.nil_append, needAll, nestingAll, NamedAll, h1, h2]
    exact ⟨by omega, by omega, h3, trivial⟩
  | k + 1 => by
    obtain ⟨h1, h2, h3⟩ := loose_need d k
    simp only [List.replicate, List.cons_append, needAll, nestingAll, NamedAll, SVal.need, SVal.nesting, SVal.compounds,
      compoundsAll, SVal.Named]
    exact ⟨by omega, by omega, trivial, h3⟩

/-- The property is false in general: with limit 1 data of any nesting can be serialized, because every compound that has been
finished raises the limit. -/
theorem C24_fails (d : Nat) : ∃ v : SVal, d < v.nesting ∧ ∃ t, toText (({} : Options).withRecursionLimit 1) none v = .ok t := by
  obtain ⟨h1, h2, h3⟩ := loose_need d d
  refine ⟨loose d, by simp only [loose, SVal.nesting]; omega, ?_⟩
  obtain ⟨t, ht⟩ := toText_goes (o := ({} : Options).withoutRecursionLimit) (cfg := none) (v := loose d) (by simp)
    (by simp only [loose, SVal.Named]; exact h3) (fun m e => by cases e)
  refine ⟨t, ?_⟩
  rw [C24_exact _ _ _ _ _ ht, if_pos]
  simp only [loose, SVal.need, crOf]
  omega

end

/-- Five levels and the limit two: refused in front, accepted behind lists that have been finished. -/
example : ∃ _ : Env,
    toText (({} : Options).withRecursionLimit 2) none (chain 5) = .error .exceededRecursionLimit ∧
    (chain 5).front false = 5 ∧ (SVal.seq none [chain 5, .seq none []]).front false = 6 ∧
    toText (({} : Options).withRecursionLimit 2) none (.seq none [.seq none [], .seq none [], .seq none [], .seq none [], chain 5]) =
      .ok c!"[[],[],[],[],[[[[[()]]]]]]" ∧
    (SVal.seq none [.seq none [], .seq none [], .seq none [], .seq none [], chain 5]).need false = 2 ∧
    (SVal.seq none [.seq none [], .seq none [], .seq none [], .seq none [], chain 5]).nesting = 6 := by
  refine ⟨asciiEnv true true, ?_⟩
  let _ : Env := asciiEnv true true
  exact ⟨by decide +kernel, by decide +kernel, by decide +kernel, by decide +kernel, by decide +kernel, by decide +kernel⟩

end Ron
