import Verif.Lemmas.SerRend
import Verif.Spec.Clean
import Verif.Lemmas.DeAny
import Verif.Lemmas.SerRange
/-! Everything the serializer writes is in the grammar of typed text. -/

set_option linter.unusedSimpArgs false

namespace Ron

variable [Env] {rg : Ranges} {wx : Bool}

/-! ### Loops keep the shape of the compound -/

omit [Env] in
theorem foldW_keep {α : Type} {step : Comp → α → W Comp}
    (hstep : ∀ v c s c' s', c.range = none → step c v s = .ok c' s' → c'.nv = c.nv ∧ c'.range = none) (vs : List α) :
    ∀ c s c' s', c.range = none → foldW step c vs s = .ok c' s' → c'.nv = c.nv ∧ c'.range = none := by
  induction vs with
  | nil =>
    intro c s c' s' hr h
    obtain ⟨rfl, rfl⟩ := wpure_ok h
    exact ⟨rfl, hr⟩
  | cons v vs ih =>
    intro c s c' s' hr h
    obtain ⟨c1, s1, h1, h⟩ := wbind_ok h
    obtain ⟨h2, h3⟩ := hstep v c s c1 s1 hr h1
    obtain ⟨h4, h5⟩ := ih c1 s1 c' s' h3 h
    exact ⟨h4.trans h2, h5⟩

theorem serTuple_keep {vs : List SVal} {c c' : Comp} {s s' : Ser} (hr : c.range = none) (h : serTuple c vs s = .ok c' s') :
    c'.nv = c.nv ∧ c'.range = none := by
  rw [serTuple_fold] at h
  refine foldW_keep ?_ vs c s c' s' hr h
  intro v c s c' s' hr h
  unfold tupleElement at h
  simp only [ite_seq] at h
  obtain ⟨_, _, -, h⟩ := wbind_ok h
  obtain ⟨_, _, -, h⟩ := wbind_ok h
  obtain ⟨_, _, -, h⟩ := wbind_ok h
  obtain ⟨_, _, -, h⟩ := wbind_ok h
  obtain ⟨rfl, rfl⟩ := wpure_ok h
  exact ⟨rfl, hr⟩

theorem serFields_keep {vs : List (Text × SVal)} {c c' : Comp} {s s' : Ser} (hr : c.range = none)
    (h : serFields c vs s = .ok c' s') : c'.nv = c.nv ∧ c'.range = none := by
  rw [serFields_fold] at h
  refine foldW_keep ?_ vs c s c' s' hr h
  intro v c s c' s' hr h
  simp only [structField, hr] at h
  unfold fieldPlain at h
  simp only [ite_seq] at h
  obtain ⟨_, _, -, h⟩ := wbind_ok h
  obtain ⟨_, _, -, h⟩ := wbind_ok h
  obtain ⟨_, _, -, h⟩ := wbind_ok h
  obtain ⟨_, _, -, h⟩ := wbind_ok h
  obtain ⟨_, _, -, h⟩ := wbind_ok h
  obtain ⟨_, _, -, h⟩ := wbind_ok h
  obtain ⟨_, _, -, h⟩ := wbind_ok h
  obtain ⟨_, _, -, h⟩ := wbind_ok h
  obtain ⟨_, _, -, h⟩ := wbind_ok h
  obtain ⟨rfl, rfl⟩ := wpure_ok h
  exact ⟨rfl, hr⟩

/-! ### Openings -/

/-- The state in which the elements of a compound are serialized. -/
def Ser.calm (s : Ser) : Ser := { s with nv := false, isd := 0 }

omit [Env] in
theorem calm_core (s : Ser) : s.calm.core = s.core := rfl
omit [Env] in
theorem Ready.calm {s : Ser} (h : Ready rg wx s) : Idle s.calm := ⟨h.good.step rfl, rfl, rfl⟩

omit [Env] in
theorem tupleIndent_opens {s s' : Ser} {n : Nat} (h : Good s) (e : tupleIndent n s = .ok () s') :
    Opens s.separateTupleMembers s s' := by
  unfold tupleIndent at e
  simp only [wbind_apply, wget_apply, ite_W] at e
  cases hf : s.separateTupleMembers with
  | false =>
    simp only [hf, Bool.false_eq_true, ↓reduceIte, wpure_apply, WRes.ok.injEq, true_and] at e
    subst e; exact opens_refl s
  | true =>
    simp only [hf, ↓reduceIte, wbind_apply, wmod_apply] at e
    obtain ⟨s2, e2, ho⟩ := startIndent_opens (s := { s with isEmpty := some (n == 0) }) (h.step rfl)
    rw [e2] at e
    simp only [WRes.ok.injEq, true_and] at e
    subst e
    exact opens_of_isEmpty ho

omit [Env] in
theorem structIndent_opens {s s' : Ser} {n : Nat} (h : Good s) (e : structIndent n s = .ok () s') :
    Opens (!s.compactStructs) s s' := by
  unfold structIndent at e
  simp only [wbind_apply, wget_apply, ite_W] at e
  cases hf : s.compactStructs with
  | true =>
    simp only [hf, Bool.not_true, Bool.false_eq_true, ↓reduceIte, wpure_apply, WRes.ok.injEq, true_and] at e
    subst e; exact opens_refl s
  | false =>
    simp only [hf, Bool.not_false, ↓reduceIte, wbind_apply, wmod_apply] at e
    obtain ⟨s2, e2, ho⟩ := startIndent_opens (s := { s with isEmpty := some (n == 0) }) (h.step rfl)
    rw [e2] at e
    simp only [WRes.ok.injEq, true_and] at e
    subst e
    exact opens_of_isEmpty ho

omit [Env] in
theorem seqOpen_opens {s s' : Ser} {c : Comp} {len : Option Nat} (h : Good s) (e : seqOpen len s = .ok c s') :
    c = {} ∧ Opens (!s.compactArrays) (s.calm.put c!"[") s' := by
  have hq : s.calm.Quiet := h.quiet
  have hfl : (s.calm.put c!"[").compactArrays = s.compactArrays := rfl
  unfold seqOpen at e
  simp only [wbind_apply, wget_apply, ite_W, wmod_apply] at e
  rw [show ({ s with nv := false, isd := 0 } : Ser) = s.calm from rfl, write_quiet hq] at e
  simp only [hfl] at e
  cases hf : s.compactArrays with
  | true =>
    simp only [hf, Bool.not_true, Bool.false_eq_true, ↓reduceIte, wpure_apply, WRes.ok.injEq, true_and] at e
    obtain ⟨rfl, rfl⟩ := e; exact ⟨rfl, opens_refl _⟩
  | false =>
    have hg : Good (s.calm.put c!"[") := h.step rfl
    cases len with
    | none =>
      simp only [hf, Bool.not_false, ↓reduceIte, wbind_apply, wmod_apply] at e
      obtain ⟨s2, e2, ho⟩ := startIndent_opens hg
      simp only [e2, wpure_apply, WRes.ok.injEq] at e
      obtain ⟨rfl, rfl⟩ := e
      exact ⟨rfl, ho⟩
    | some n =>
      simp only [hf, Bool.not_false, ↓reduceIte, wbind_apply, wmod_apply] at e
      obtain ⟨s2, e2, ho⟩ := startIndent_opens (s := { (s.calm.put c!"[") with isEmpty := some (n == 0) }) (hg.step rfl)
      simp only [e2, wpure_apply, WRes.ok.injEq] at e
      obtain ⟨rfl, rfl⟩ := e
      exact ⟨rfl, opens_of_isEmpty ho⟩

omit [Env] in
theorem mapOpen_opens {s s' : Ser} {c : Comp} {len : Option Nat} (h : Good s) (e : mapOpen len s = .ok c s') :
    c = {} ∧ Opens (!s.compactMaps) (s.calm.put c!"{") s' := by
  have hq : s.calm.Quiet := h.quiet
  have hfl : (s.calm.put c!"{").compactMaps = s.compactMaps := rfl
  unfold mapOpen at e
  simp only [wbind_apply, wget_apply, ite_W, wmod_apply] at e
  rw [show ({ s with nv := false, isd := 0 } : Ser) = s.calm from rfl, write_quiet hq] at e
  simp only [hfl] at e
  cases hf : s.compactMaps with
  | true =>
    simp only [hf, Bool.not_true, Bool.false_eq_true, ↓reduceIte, wpure_apply, WRes.ok.injEq, true_and] at e
    obtain ⟨rfl, rfl⟩ := e; exact ⟨rfl, opens_refl _⟩
  | false =>
    have hg : Good (s.calm.put c!"{") := h.step rfl
    cases len with
    | none =>
      simp only [hf, Bool.not_false, ↓reduceIte, wbind_apply, wmod_apply] at e
      obtain ⟨s2, e2, ho⟩ := startIndent_opens hg
      simp only [e2, wpure_apply, WRes.ok.injEq] at e
      obtain ⟨rfl, rfl⟩ := e
      exact ⟨rfl, ho⟩
    | some n =>
      simp only [hf, Bool.not_false, ↓reduceIte, wbind_apply, wmod_apply] at e
      obtain ⟨s2, e2, ho⟩ := startIndent_opens (s := { (s.calm.put c!"{") with isEmpty := some (n == 0) }) (hg.step rfl)
      simp only [e2, wpure_apply, WRes.ok.injEq] at e
      obtain ⟨rfl, rfl⟩ := e
      exact ⟨rfl, opens_of_isEmpty ho⟩

omit [Env] in
theorem tupleOpen_opens {s s' : Ser} {c : Comp} {n : Nat} (h : Good s) (e : tupleOpen n s = .ok c s') :
    c = { nv := s.nv } ∧ Opens s.separateTupleMembers (s.calm.put (if s.nv then [] else c!"(")) s' := by
  have hq : s.calm.Quiet := h.quiet
  unfold tupleOpen at e
  simp only [ite_seq] at e
  simp only [wbind_apply, wget_apply, wmod_apply] at e
  rw [show ({ s with nv := false, isd := 0 } : Ser) = s.calm from rfl] at e
  have e1 : (if (!s.nv) = true then write c!"(" else pure ()) s.calm = .ok () (s.calm.put (if s.nv then [] else c!"(")) := by
    cases s.nv <;> simp [write_quiet hq]
  rw [e1] at e
  simp only at e
  split at e
  · next u s2 e2 =>
    obtain ⟨rfl, rfl⟩ := wpure_ok e
    exact ⟨rfl, tupleIndent_opens (s := s.calm.put _) (h.step rfl) e2⟩
  · cases e

/-! ### Ends -/

omit [Env] in
theorem seqEnd_closes {s s' : Ser} {c : Comp} (h : Good s) (e : seqEnd c s = .ok () s') :
    ∃ s3, Closes (!s.compactArrays) c.rest s s3 ∧ s' = s3.put c!"]" := by
  unfold seqEnd at e
  simp only [ite_seq] at e
  obtain ⟨_, _, h1, e⟩ := wbind_ok e
  simp only [wget_apply, WRes.ok.injEq] at h1
  obtain ⟨rfl, rfl⟩ := h1
  obtain ⟨_, s1, h1, e⟩ := wbind_ok e
  obtain ⟨_, s2, h2, e⟩ := wbind_ok e
  have hcl : Closes (!s.compactArrays) c.rest s s2 := by
    apply closes_good h
    rw [Bool.not_not, wbind_apply, h1]
    exact h2
  have hq : s2.Quiet := by
    obtain ⟨t, -, -, hst, -⟩ := hcl
    exact (h.step hst.core).quiet
  rw [write_quiet hq] at e
  simp only [WRes.ok.injEq, true_and] at e
  exact ⟨s2, hcl, e.symm⟩

omit [Env] in
theorem mapEnd_closes {s s' : Ser} {c : Comp} (h : Good s) (e : mapEnd c s = .ok () s') :
    ∃ s3, Closes (!s.compactMaps) c.rest s s3 ∧ s' = s3.put c!"}" := by
  unfold mapEnd at e
  simp only [ite_seq] at e
  obtain ⟨_, _, h1, e⟩ := wbind_ok e
  simp only [wget_apply, WRes.ok.injEq] at h1
  obtain ⟨rfl, rfl⟩ := h1
  obtain ⟨_, s1, h1, e⟩ := wbind_ok e
  obtain ⟨_, s2, h2, e⟩ := wbind_ok e
  have hcl : Closes (!s.compactMaps) c.rest s s2 := by
    apply closes_good h
    rw [Bool.not_not, wbind_apply, h1]
    exact h2
  have hq : s2.Quiet := by
    obtain ⟨t, -, -, hst, -⟩ := hcl
    exact (h.step hst.core).quiet
  rw [write_quiet hq] at e
  simp only [WRes.ok.injEq, true_and] at e
  exact ⟨s2, hcl, e.symm⟩

omit [Env] in
theorem tupleEnd_closes {s s' : Ser} {c : Comp} (h : Good s) (e : tupleEnd c s = .ok () s') :
    ∃ s3, Closes s.separateTupleMembers c.rest s s3 ∧ s' = s3.put (if c.nv then [] else c!")") := by
  unfold tupleEnd at e
  simp only [ite_seq] at e
  obtain ⟨_, _, h1, e⟩ := wbind_ok e
  simp only [wget_apply, WRes.ok.injEq] at h1
  obtain ⟨rfl, rfl⟩ := h1
  obtain ⟨_, s1, h1, e⟩ := wbind_ok e
  obtain ⟨_, s2, h2, e⟩ := wbind_ok e
  have hcl : Closes s.separateTupleMembers c.rest s s2 := by
    apply closes_good h
    rw [wbind_apply, h1]
    exact h2
  have hq : s2.Quiet := by
    obtain ⟨t, -, -, hst, -⟩ := hcl
    exact (h.step hst.core).quiet
  refine ⟨s2, hcl, ?_⟩
  cases hc : c.nv <;> simp only [hc, ite_W, Bool.not_false, Bool.not_true, Bool.false_eq_true, ↓reduceIte, write_quiet hq, wpure_apply,
    WRes.ok.injEq, true_and] at e ⊢
  · exact e.symm
  · simpa using e.symm

theorem structEnd_closes {s s' : Ser} {c : Comp} (h : Good s) (hr : c.range = none) (e : structEnd c s = .ok () s') :
    ∃ s3, Closes (!s.compactStructs) c.rest s s3 ∧ s' = s3.put (if c.nv then [] else c!")") := by
  unfold structEnd at e
  simp only [hr, ite_seq] at e
  obtain ⟨_, _, h1, e⟩ := wbind_ok e
  simp only [wget_apply, WRes.ok.injEq] at h1
  obtain ⟨rfl, rfl⟩ := h1
  obtain ⟨_, s1, h1, e⟩ := wbind_ok e
  obtain ⟨_, s2, h2, e⟩ := wbind_ok e
  have hcl : Closes (!s.compactStructs) c.rest s s2 := by
    apply closes_good h
    rw [Bool.not_not, wbind_apply, h1]
    exact h2
  have hq : s2.Quiet := by
    obtain ⟨t, -, -, hst, -⟩ := hcl
    exact (h.step hst.core).quiet
  refine ⟨s2, hcl, ?_⟩
  cases hc : c.nv <;> simp only [hc, ite_W, Bool.not_false, Bool.not_true, Bool.false_eq_true, ↓reduceIte, write_quiet hq, wpure_apply,
    WRes.ok.injEq, true_and] at e ⊢
  · exact e.symm
  · simpa using e.symm

/-! ### Compounds -/

theorem tupleRest_inv {vs : List SVal} (hv : ∀ v ∈ vs, Writes rg wx v) {s s0 s1 s' : Ser} {b : Bool} (hr : Ready rg wx s)
    (hs : s0.core = s.core) (hi : Idle s0) (ho : Opens s.separateTupleMembers s0 s1)
    (e : dropCompound (do let c ← serTuple { nv := b } vs; tupleEnd c) s1 = .ok () s') :
    ∃ s3, Idle s3 ∧ s3.pretty = s0.pretty ∧ Inside (RendOf s) vs s0 s3 ∧
      ∃ m, s' = { s3.put (if b then [] else c!")") with limit := m } := by
  obtain ⟨m, s4, e', rfl⟩ := dropCompound_inv e
  obtain ⟨c', s2, e1, e2⟩ := wbind_ok e'
  have hn := (serTuple_keep rfl e1).1
  obtain ⟨s3, h1, h2, h3, rfl⟩ := serTuple_inside hv hr hs rfl rfl hi ho e1
    (P := fun s3 => s4 = s3.put (if b then [] else c!")")) (by
      intro hg hc
      obtain ⟨s3, h3, h4⟩ := tupleEnd_closes hg e2
      rw [core_separateTupleMembers (hc.trans hs)] at h3
      rw [hn] at h4
      exact ⟨s3, h3, h4⟩)
  exact ⟨s3, h1, h2, h3, m, rfl⟩

theorem structBody_inv {vs : List (Text × SVal)} (hv : ∀ v ∈ vs, Writes rg wx v.2) {s s0 s1 s4 : Ser} {b : Bool} (hr : Ready rg wx s)
    (hs : s0.core = s.core) (hi : Idle s0) (ho : Opens (!s.compactStructs) s0 s1)
    (e' : (do let c ← serFields { nv := b } vs; structEnd c) s1 = .ok () s4) :
    ∃ s3, Idle s3 ∧ s3.pretty = s0.pretty ∧ Inside (FieldOf s) vs s0 s3 ∧ s4 = s3.put (if b then [] else c!")") := by
  obtain ⟨c', s2, e1, e2⟩ := wbind_ok e'
  obtain ⟨hn, hrg⟩ := serFields_keep rfl e1
  obtain ⟨s3, h1, h2, h3, rfl⟩ := serFields_inside hv hr hs rfl rfl hi ho e1
    (P := fun s3 => s4 = s3.put (if b then [] else c!")")) (by
      intro hg hc
      obtain ⟨s3, h3, h4⟩ := structEnd_closes hg hrg e2
      rw [core_compactStructs (hc.trans hs)] at h3
      rw [hn] at h4
      exact ⟨s3, h3, h4⟩)
  exact ⟨s3, h1, h2, h3, rfl⟩

theorem structRest_inv {vs : List (Text × SVal)} (hv : ∀ v ∈ vs, Writes rg wx v.2) {s s0 s1 s' : Ser} {b : Bool} (hr : Ready rg wx s)
    (hs : s0.core = s.core) (hi : Idle s0) (ho : Opens (!s.compactStructs) s0 s1)
    (e : dropCompound (do let c ← serFields { nv := b } vs; structEnd c) s1 = .ok () s') :
    ∃ s3, Idle s3 ∧ s3.pretty = s0.pretty ∧ Inside (FieldOf s) vs s0 s3 ∧
      ∃ m, s' = { s3.put (if b then [] else c!")") with limit := m } := by
  obtain ⟨m, s4, e', rfl⟩ := dropCompound_inv e
  obtain ⟨s3, h1, h2, h3, rfl⟩ := structBody_inv hv hr hs hi ho e'
  exact ⟨s3, h1, h2, h3, m, rfl⟩

theorem seqRest_inv {vs : List SVal} (hv : ∀ v ∈ vs, Writes rg wx v) {s s0 s1 s' : Ser} (hr : Ready rg wx s)
    (hs : s0.core = s.core) (hi : Idle s0) (ho : Opens (!s.compactArrays) s0 s1)
    (e : dropCompound (do let c ← serSeq {} vs; seqEnd c) s1 = .ok () s') :
    ∃ s3, Idle s3 ∧ s3.pretty = s0.pretty ∧ Inside (RendOf s) vs s0 s3 ∧ ∃ m, s' = { s3.put c!"]" with limit := m } := by
  obtain ⟨m, s4, e', rfl⟩ := dropCompound_inv e
  obtain ⟨c', s2, e1, e2⟩ := wbind_ok e'
  obtain ⟨s3, h1, h2, h3, rfl⟩ := serSeq_inside hv hr hs rfl rfl hi ho e1
    (P := fun s3 => s4 = s3.put c!"]") (by
      intro hg hc
      obtain ⟨s3, h3, h4⟩ := seqEnd_closes hg e2
      rw [core_compactArrays (hc.trans hs)] at h3
      exact ⟨s3, h3, h4⟩)
  exact ⟨s3, h1, h2, h3, m, rfl⟩

theorem mapRest_inv {vs : List (SVal × SVal)} (hv : ∀ v ∈ vs, Writes rg wx v.1 ∧ Writes rg wx v.2) {s s0 s1 s' : Ser} (hr : Ready rg wx s)
    (hs : s0.core = s.core) (hi : Idle s0) (ho : Opens (!s.compactMaps) s0 s1)
    (e : dropCompound (do let c ← serMap {} vs; mapEnd c) s1 = .ok () s') :
    ∃ s3, Idle s3 ∧ s3.pretty = s0.pretty ∧ Inside (EntryOf s) vs s0 s3 ∧ ∃ m, s' = { s3.put c!"}" with limit := m } := by
  obtain ⟨m, s4, e', rfl⟩ := dropCompound_inv e
  obtain ⟨c', s2, e1, e2⟩ := wbind_ok e'
  obtain ⟨s3, h1, h2, h3, rfl⟩ := serMap_inside hv hr hs rfl rfl hi ho e1
    (P := fun s3 => s4 = s3.put c!"}") (by
      intro hg hc
      obtain ⟨s3, h3, h4⟩ := mapEnd_closes hg e2
      rw [core_compactMaps (hc.trans hs)] at h3
      exact ⟨s3, h3, h4⟩)
  exact ⟨s3, h1, h2, h3, m, rfl⟩

/-! ### Names -/

omit [Env] in
theorem structNames_false {s : Ser} (h : s.structNames = false) : s.extensions.explicitStructNames = false := by
  unfold Ser.structNames at h
  simp only [Bool.or_eq_false_iff] at h
  exact h.1

/-- The name of a struct and what it writes. -/
theorem structName_inv {s s' : Ser} {name : Text} (hg : Good s) (e : structName name s = .ok () s') :
    ∃ p, s' = s.put p ∧ ((s.nv = true ∧ p = []) ∨ (s.nv = false ∧ OptNameTight s.extensions name p)) := by
  unfold structName at e
  simp only [wbind_apply, wget_apply, ite_W] at e
  split at e
  · next h =>
    simp only [Bool.and_eq_true, Bool.not_eq_true'] at h
    obtain ⟨-, ht, rfl⟩ := writeIdentifier_inv hg.quiet e
    exact ⟨_, rfl, .inr ⟨h.2, .inr ht⟩⟩
  · next h =>
    obtain ⟨hn, rfl⟩ := validateIdentifier_inv e
    refine ⟨[], by simp, ?_⟩
    cases hnv : s'.nv with
    | true => exact .inl ⟨rfl, rfl⟩
    | false =>
      simp only [hnv, Bool.not_false, Bool.and_true, Bool.not_eq_true] at h
      exact .inr ⟨rfl, .inl ⟨structNames_false h, rfl⟩⟩

/-! ### The cases -/

section Cases

variable {s s' : Ser} {nv0 : Bool} {g : SVal → SVal}

/-- Nothing that starts an identifier follows. -/
theorem notOption_append {w f : Text} (h : NotOption w) (hf : IdentFollow f) : NotOption (w ++ f) := by
  intro kw hk u hu
  have hkx : ∀ c ∈ kw, Env.xidCont c = true := by
    simp only [List.mem_cons, List.not_mem_nil, or_false] at hk
    rcases hk with rfl | rfl <;> exact reserved_xid (by simp [reservedNames])
  rcases List.append_eq_append_iff.mp hu with ⟨a, ha, hb⟩ | ⟨a, ha, hb⟩
  · cases a with
    | nil =>
      obtain ⟨c, u', e, -⟩ := h kw hk [] (by simpa using ha.symm)
      cases e
    | cons c a =>
      have h1 := hf.xid c (a ++ u) (by rw [hb]; simp)
      have h2 := hkx c (by rw [ha]; simp)
      rw [h1] at h2; cases h2
  · obtain ⟨c, u', rfl, hc⟩ := h kw hk a ha
    exact ⟨c, u' ++ f, by simp [hb], hc⟩

/-- The items start with a text that is no option. -/
theorem bare_notOption {ts : List Text} {w : Text} (h : Bare ts w) (ht : ∀ t ts', ts = t :: ts' → NotOption t) : NotOption w := by
  rcases h with ⟨-, rfl⟩ | h
  · exact notOption_nil
  · cases h with
    | one => exact ht _ _ rfl
    | @cons t b a u ts hb ha hu =>
      refine notOption_append (ht _ _ rfl) (layout_follow hb ?_)
      exact stop_identFollow (.inr ⟨',', _, rfl, by simp⟩)

omit [Env] in
theorem delim_notOption {o c : Char} {ts : List Text} {w : Text} (h : Delim o c ts w) (ho : o ≠ 'S' ∧ o ≠ 'N') [Env] : NotOption w := by
  cases h <;> exact notOption_cons ho

theorem nameParen_notOption {name k q : Text} {ts : List Text} (hk : NameTok name k) (hq : Delim '(' ')' ts q) : NotOption (k ++ q) := by
  refine hk.notOption ?_
  cases hq <;> exact parenOpen_follow _

theorem nameTok_notOption {name k : Text} (hk : NameTok name k) : NotOption k := by
  have := hk.notOption (r := []) (by intro c r e; cases e)
  simpa using this

theorem optTight_notOption {x : Exts} {name p q : Text} {ts : List Text} (hp : OptNameTight x name p) (hq : Delim '(' ')' ts q) :
    NotOption (p ++ q) := by
  rcases hp with ⟨-, rfl⟩ | hp
  · exact delim_notOption hq (by decide)
  · exact nameParen_notOption hp hq

theorem OptNameTight.toOpt {x : Exts} {name p : Text} (h : OptNameTight x name p) : OptName x name p := by
  rcases h with h | h
  · exact .inl h
  · exact .inr ⟨p, [], h, .nil, by simp⟩

/-- Names that are not part of a struct with members. -/
theorem writes_unitStruct {name : Text} : Writes rg wx (.unitStruct name) := by
  intro s s' hr e nv0 g h0 hc hw0
  simp only [ser] at e
  unfold serUnitStruct at e
  simp only [wbind_apply, wget_apply, ite_W] at e
  split at e
  · next h =>
    simp only [Bool.and_eq_true, beq_iff_eq] at h
    rw [write_quiet hr.good.quiet] at e
    simp only [WRes.ok.injEq, true_and] at e
    subst e
    refine wrote_put hc rfl ?_ (.inr (notOption_cons (by decide)))
    exact .inr ⟨h.2, rfl⟩
  split at e
  · next h =>
    simp only [Bool.and_eq_true, Bool.not_eq_true'] at h
    obtain ⟨-, ht, rfl⟩ := writeIdentifier_inv hr.good.quiet e
    refine wrote_put hc rfl ?_ (.inr (nameTok_notOption ht))
    simp only [Rend, h.2, Bool.false_eq_true, ↓reduceIte]
    exact .inl (.inr ht)
  · next h =>
    split at e
    · next u s2 hv =>
      obtain ⟨hn, rfl⟩ := validateIdentifier_inv hv
      unfold serUnit at e
      simp only [wbind_apply, wget_apply, ite_W, write_quiet hr.good.quiet, wpure_apply] at e
      cases hnv : s2.nv with
      | true =>
        simp only [hnv, Bool.not_true, Bool.false_eq_true, ↓reduceIte, WRes.ok.injEq, true_and] at e
        refine wrote_put (w := []) hc (by simp [e]) ?_ (.inr notOption_nil)
        simp [Rend, hnv]
      | false =>
        simp only [hnv, Bool.not_false, ↓reduceIte, WRes.ok.injEq, true_and] at e
        refine wrote_put hc e.symm ?_ (.inr (notOption_cons (by decide)))
        simp only [Rend, hnv, Bool.false_eq_true, ↓reduceIte]
        simp only [hnv, Bool.not_false, Bool.and_true, Bool.not_eq_true] at h
        simp [structNames_false h]
    · cases e

theorem writes_none : Writes rg wx .none := by
  intro s s' hr e nv0 g h0 hc hw0
  simp only [ser] at e
  unfold serNone openSomes closeSomes at e
  have hq : ({ s with isd := 0 } : Ser).Quiet := hr.good.quiet
  simp only [wbind_apply, wget_apply, wmod_apply, writeAll_quiet hq, write_quiet (hq.put _), Ser.put_put,
    writeAll_quiet (hq.put _), WRes.ok.injEq, true_and] at e
  subst e
  have hx : Rend s.extensions s.numberSuffixes nv0 (g .none) (somes s.isd c!"None") :=
    hc.explicit h0 fun nv' _ => by simp [Rend]
  refine ⟨rfl, id, fun _ => rfl, [], _, [], .nil, .nil, fun _ => ⟨rfl, rfl⟩, ?_, hx⟩
  rw [somes_eq]
  exact ⟨by simp, rfl⟩

theorem writes_some {v : SVal} (hv : Writes rg wx v) : Writes rg wx (.some v) := by
  intro s s' hr e nv0 g h0 hc hw0
  simp only [ser] at e
  unfold serSome at e
  simp only [wbind_apply, wget_apply, ite_W] at e
  split at e
  · next hi =>
    simp only [wbind_apply, wmod_apply] at e
    split at e
    · next u s2 hg =>
      simp only [WRes.ok.injEq, true_and] at e
      obtain ⟨m, m', s3, h3, rfl⟩ := guardQ_inv hg
      have hw := hv { s with isd := s.isd + 1, limit := m } s3 (hr.step rfl) h3 nv0 (fun v => g (.some v)) h0 (.some hi hc)
        (fun hx hn => by simpa [SVal.OptOk] using hw0 hx hn)
      obtain ⟨a, w, b, ha, hb, hab, hst, hrd⟩ := hw.text
      subst e
      exact ⟨hw.pretty, hw.nv, fun _ => rfl, a, w, b, ha, hb, hab, ⟨hst.out, hst.core⟩, hrd⟩
    · cases e
  · next hi =>
    simp only [wbind_apply, wmod_apply] at e
    have hk : s.isd = 0 := by
      by_cases h : s.isd = 0
      · exact h
      · exact absurd (hc.implicit h) hi
    generalize hs1 : ({ s with nv := s.extensions.unwrapVariantNewtypes } : Ser) = s1 at e
    have hq : s1.Quiet := by subst hs1; exact hr.good.quiet
    rw [write_quiet hq] at e
    simp only at e
    split at e
    · next u s2 hg =>
      obtain ⟨m, m', s3, h3, rfl⟩ := guardQ_inv hg
      have hcore : s1.core = s.core := by subst hs1; rfl
      have hext : s1.extensions = s.extensions := core_extensions hcore
      have hw := hv _ s3 (hr.step (by subst hs1; rfl)) h3 s.extensions.unwrapVariantNewtypes id
        (by subst hs1; exact id) (by
          subst hs1
          simp only [Ser.put_isd, hk, Ser.put_nv]
          exact .nil)
        (fun hx => by have := hr.options; rw [hx] at this; simp [hi] at this)
      obtain ⟨a, w, b, ha, hb, -, hst, hrd⟩ := hw.text
      have hq3 : ({ s3 with limit := m' } : Ser).Quiet := by
        have := core_fault hst.core
        subst hs1
        exact this.trans hr.good.quiet
      rw [write_quiet hq3] at e
      simp only [WRes.ok.injEq, true_and] at e
      subst e
      refine wrote_of (a := []) (b := []) (w := c!"Some" ++ ([] ++ '(' :: (a ++ (w ++ (b ++ [')']))))) hc ?_ (fun _ => rfl) ?_ .nil .nil (fun _ => ⟨rfl, rfl⟩) ?_ ?_ (.inl hk)
      · have := hw.pretty; subst hs1; exact this
      · intro _; have := hw.isd; subst hs1; exact this hk
      · refine ⟨?_, ?_⟩
        · have := hst.out
          subst hs1
          simp at this ⊢
          simp [this]
        · have := hst.core
          subst hs1
          exact this
      · refine .inl ⟨[], _, .nil, ⟨a, w, b, ha, ?_, hb, rfl⟩, rfl⟩
        have : ((s1.put c!"Some(").extensions) = s.extensions := hext
        have h2 : s1.numberSuffixes = s.numberSuffixes := core_numberSuffixes hcore
        subst hs1
        exact hrd
    · cases e

/-- One item in parentheses after a name. -/
theorem paren_wrote {v : SVal} (hv : Writes rg wx v) {p : Text} {b : Bool} (hr : Ready rg wx s) {s2 : Ser} {m : Option Nat}
    (hb : b = true → s.extensions.unwrapVariantNewtypes = true) (hw0 : wx = true → b = true → v.OptOk false)
    (e : ser v { (s.put (p ++ ['('])) with nv := b, isd := 0, limit := m } = .ok () s2) :
    s2.pretty = s.pretty ∧ (b = false → s2.nv = false) ∧ s2.isd = 0 ∧ Good s2 ∧
      ∃ q, Step s (s2.put [')']) (p ++ q) ∧ Paren (fun t => Rend s.extensions s.numberSuffixes b v t) q := by
  have hw := hv { (s.put (p ++ ['('])) with nv := b, isd := 0, limit := m } s2 (hr.step rfl) e b id hb .nil hw0
  obtain ⟨x, w, y, hx, hy, -, hst, hrd⟩ := hw.text
  refine ⟨hw.pretty, hw.nv, hw.isd rfl, hr.good.step hst.core, '(' :: (x ++ (w ++ (y ++ [')']))), ⟨?_, hst.core⟩, ⟨x, w, y, hx, hrd, hy, rfl⟩⟩
  have := hst.out
  simp at this ⊢
  simp [this]

theorem paren_notOption {R : Text → Prop} {q : Text} (h : Paren R q) : NotOption q := by
  obtain ⟨a, t, b, -, -, -, rfl⟩ := h
  exact notOption_cons (by decide)

theorem nameParen_notOption' {R : Text → Prop} {name k q : Text} (hk : NameTok name k) (h : Paren R q) : NotOption (k ++ q) := by
  obtain ⟨a, t, b, -, -, -, rfl⟩ := h
  exact hk.notOption (parenOpen_follow _)

theorem RangeRend.notOption {sfx : Bool} {name w : Text} {fs : List (Text × SVal)} (h : RangeRend sfx name fs w) : NotOption w := by
  obtain ⟨es, -, h1, h2⟩ := h
  obtain ⟨c, u, rfl, hc⟩ := h1.head fun e he => (h2 e he).2.1
  refine notOption_cons ?_
  rcases hc with hc | rfl | rfl
  · constructor <;> rintro rfl <;> revert hc <;> decide
  · decide
  · decide

/-- The text of anything but an option. -/
theorem rend_notOption {x : Exts} {sfx : Bool} : ∀ (v : SVal) (w : Text), v.isOption = false → Rend x sfx false v w → NotOption w
  | .bool b, w, _, h => by
    simp only [Rend] at h
    subst h
    cases b <;> exact notOption_cons (by decide)
  | .num n, w, _, h => by
    simp only [Rend] at h
    rw [h.2]; exact number_notOption n _
  | .char c, w, _, h => by
    simp only [Rend] at h
    obtain ⟨u, hu⟩ := charText_form c
    rw [h, hu]; exact notOption_cons (by decide)
  | .str t, w, _, h => by
    simp only [Rend] at h
    have := h.form []
    rw [List.append_nil] at this
    rcases this with ⟨u, hu⟩ | ⟨u, hu, -⟩ <;> rw [hu] <;> exact notOption_cons (by decide)
  | .bytes b, w, _, h => by
    simp only [Rend] at h
    have := h.form []
    rw [List.append_nil] at this
    obtain ⟨u, hu, -⟩ := this
    rw [hu]; exact notOption_cons (by decide)
  | .none, w, h, _ => by cases h
  | .some v, w, h, _ => by cases h
  | .unit, w, _, h => by
    simp only [Rend, Bool.false_eq_true, ↓reduceIte] at h
    subst h; exact notOption_cons (by decide)
  | .unitStruct name, w, _, h => by
    simp only [Rend, Bool.false_eq_true, ↓reduceIte] at h
    rcases h with (⟨-, rfl⟩ | h) | ⟨-, rfl⟩
    · exact notOption_cons (by decide)
    · exact nameTok_notOption h
    · exact notOption_cons (by decide)
  | .unitVariant _ n, w, _, h => by
    simp only [Rend] at h
    exact nameTok_notOption h
  | .newtypeStruct n v, w, ho, h => by
    simp only [Rend, Bool.or_false] at h
    split at h
    · exact rend_notOption v w (by simpa [SVal.isOption] using ho) h
    · obtain ⟨p, q, hp, hq, rfl⟩ := h
      rcases hp with ⟨-, rfl⟩ | ⟨tok, l, ht, hl, rfl⟩
      · exact paren_notOption hq
      · obtain ⟨a, t, b, -, -, -, rfl⟩ := hq
        rw [List.append_assoc]
        exact ht.notOption (layout_follow hl (parenOpen_follow _))
  | .newtypeVariant e n v, w, _, h => by
    simp only [Rend] at h
    obtain ⟨k, l, q, h1, h2, ⟨a, t, b, -, -, -, rfl⟩, rfl⟩ := h
    exact h1.notOption (layout_follow h2 (parenOpen_follow _))
  | .seq n vs, w, _, h => by
    simp only [Rend] at h
    obtain ⟨ts, -, h2⟩ := h
    exact delim_notOption h2 (by decide)
  | .tuple vs, w, _, h => by
    simp only [Rend, Bool.false_eq_true, ↓reduceIte] at h
    obtain ⟨ts, -, h2⟩ := h
    exact delim_notOption h2 (by decide)
  | .tupleStruct name vs, w, _, h => by
    simp only [Rend, Bool.false_eq_true, ↓reduceIte] at h
    obtain ⟨ts, -, p, q, h1, h2, rfl⟩ := h
    exact optTight_notOption h1 h2
  | .tupleVariant e n vs, w, _, h => by
    simp only [Rend] at h
    obtain ⟨ts, -, k, l, q, h1, h2, h3, rfl⟩ := h
    refine h1.notOption (layout_follow h2 ?_)
    cases h3 <;> exact parenOpen_follow _
  | .map n kvs, w, _, h => by
    simp only [Rend] at h
    obtain ⟨ts, -, h2⟩ := h
    exact delim_notOption h2 (by decide)
  | .struct name fs, w, _, h => by
    simp only [Rend, Bool.false_eq_true, ↓reduceIte] at h
    rcases h with ⟨ts, -, p, q, h1, h2, rfl⟩ | h
    · rcases h1 with ⟨-, rfl⟩ | ⟨tok, l, ht, hl, rfl⟩
      · exact delim_notOption h2 (by decide)
      · rw [List.append_assoc]
        refine ht.notOption (layout_follow hl ?_)
        cases h2 <;> exact parenOpen_follow _
    · exact h.notOption
  | .structVariant e n fs, w, _, h => by
    simp only [Rend] at h
    obtain ⟨ts, -, k, l, q, h1, h2, h3, rfl⟩ := h
    refine h1.notOption (layout_follow h2 ?_)
    cases h3 <;> exact parenOpen_follow _
  | .raw _, w, _, h => by simp only [Rend] at h

/-- The items of a tuple without parentheses, inside of options that are not written. -/
theorem tuple_notOption {v : SVal} {vs : List SVal} {ts : List Text} {w : Text} (hr : Ready rg wx s)
    (h0 : nv0 = true → s.extensions.unwrapVariantNewtypes = true) (hc : Ctx s.extensions nv0 s.isd s.nv g) (hn : s.nv = true)
    (hw0 : wx = true → s.nv = true → v.OptOk (s.isd != 0)) (hv : v.OptOk true → firstOk vs = true)
    (h6 : All2 (fun v t => Rend s.extensions s.numberSuffixes false v t) vs ts) (h7 : Bare ts w) : s.isd = 0 ∨ NotOption w := by
  by_cases h : s.isd = 0
  · exact .inl h
  · right
    have hx : wx = true := by rw [← hr.options, hc.implicit h, h0 (hc.nv hn)]; rfl
    have hok := hv (by have := hw0 hx hn; rwa [show (s.isd != 0) = true by simpa using h] at this)
    refine bare_notOption h7 fun t ts' e => ?_
    subst e
    cases vs with
    | nil => cases h6
    | cons v vs =>
      simp only [firstOk, Bool.not_eq_true'] at hok
      exact rend_notOption v t hok (by cases h6; assumption)

theorem writes_newtypeStruct {name : Text} {v : SVal} (hv : Writes rg wx v) : Writes rg wx (.newtypeStruct name v) := by
  intro s s' hr e nv0 g h0 hc hw0
  simp only [ser] at e
  unfold serNewtypeStruct at e
  simp only [ite_seq2] at e
  obtain ⟨_, _, h1, e⟩ := wbind_ok e
  simp only [wget_apply, WRes.ok.injEq] at h1
  obtain ⟨rfl, rfl⟩ := h1
  rw [ite_W] at e
  split at e
  · next hu =>
    simp only [wbind_apply, wmod_apply] at e
    split at e
    · next u s2 hval =>
      obtain ⟨-, rfl⟩ := validateIdentifier_inv hval
      obtain ⟨m, m', s3, h3, rfl⟩ := guardR_inv e
      have hw := hv { s with nv := false, limit := m } s3 (hr.step rfl) h3 nv0 (fun v => g (.newtypeStruct name v)) h0 (.newtype hu hc) (by simp)
      obtain ⟨a, w, b, ha, hb, hab, hst, hrd⟩ := hw.text
      exact ⟨hw.pretty, fun _ => hw.nv rfl, hw.isd, a, w, b, ha, hb, hab, ⟨hst.out, hst.core⟩, hrd⟩
    · cases e
  · next hu =>
    simp only [Bool.or_eq_true, not_or, Bool.not_eq_true] at hu
    obtain ⟨_, s1, h1, e⟩ := wbind_ok e
    obtain ⟨p, rfl, hp⟩ : ∃ p, s1 = s.put p ∧ OptNameTight s.extensions name p := by
      obtain ⟨p, h2, h3⟩ := structName_inv (s := s) (s' := s1) (name := name) hr.good (by
        unfold structName
        simp only [wbind_apply, wget_apply, hu.2, Bool.not_false, Bool.and_true]
        exact h1)
      rcases h3 with ⟨h3, -⟩ | ⟨-, h3⟩
      · rw [hu.2] at h3; cases h3
      · exact ⟨p, h2, h3⟩
    have hq : ({ (s.put p) with isd := 0 } : Ser).Quiet := hr.good.quiet
    simp only [wbind_apply, wmod_apply, write_quiet hq] at e
    split at e
    · next u s2 hg =>
      obtain ⟨m, m', s3, h3, rfl⟩ := guardQ_inv hg
      obtain ⟨i1, i2, i3, i4, q, i5, i6⟩ := paren_wrote (s := s) (p := p) (b := false) hv hr (by simp) (by simp) (s2 := s3) (m := m) (by
        rw [← h3]; congr 1
        simp [Ser.put, hu.2])
      have hq3 : ({ s3 with limit := m' } : Ser).Quiet := i4.quiet
      rw [write_quiet hq3] at e
      simp only [WRes.ok.injEq, true_and] at e
      subst e
      refine wrote_of (a := []) (b := []) (w := p ++ q) hc i1 (fun _ => i2 rfl) (fun _ => i3) .nil .nil
        (fun _ => ⟨rfl, rfl⟩) ⟨by simpa using i5.out, i5.core⟩ ?_ (.inr ?_)
      · simp only [Rend, hu.1, hu.2, Bool.or_self, Bool.false_eq_true, ↓reduceIte]
        exact ⟨p, q, hp.toOpt, i6, rfl⟩
      · rcases hp with ⟨-, rfl⟩ | hp
        · exact paren_notOption i6
        · exact nameParen_notOption' hp i6
    · cases e

theorem writes_newtypeVariant {name variant : Text} {v : SVal} (ho : wx = true → v.OptOk false) (hv : Writes rg wx v) : Writes rg wx (.newtypeVariant name variant v) := by
  intro s s' hr e nv0 g h0 hc hw0
  simp only [ser] at e
  unfold serNewtypeVariant at e
  obtain ⟨_, s1, h1, e⟩ := wbind_ok e
  obtain rfl := (validateIdentifier_inv h1).2.symm
  obtain ⟨_, s2, h1, e⟩ := wbind_ok e
  obtain ⟨-, ht, rfl⟩ := writeIdentifier_inv hr.good.quiet h1
  have hq := hr.good.quiet.put (identText variant)
  simp only [wbind_apply, write_quiet hq, wmod_apply] at e
  split at e
  · next u s2 hg =>
    obtain ⟨m, m', s3, h3, rfl⟩ := guardQ_inv hg
    obtain ⟨i1, i2, i3, i4, q, i5, i6⟩ := paren_wrote (s := s) (p := identText variant)
      (b := s.extensions.unwrapVariantNewtypes) hv hr id (fun hx _ => ho hx) (s2 := s3) (m := m) (by
      rw [← h3]; congr 1
      simp [Ser.put]; rfl)
    have hq3 : ({ s3 with limit := m', nv := false } : Ser).Quiet := i4.quiet
    rw [write_quiet hq3] at e
    simp only [WRes.ok.injEq, true_and] at e
    subst e
    refine wrote_of (a := []) (b := []) (w := identText variant ++ ([] ++ q)) hc i1 (fun _ => rfl) (fun _ => i3) .nil .nil
      (fun _ => ⟨rfl, rfl⟩) ⟨by simpa using i5.out, i5.core⟩ ?_ (.inr ?_)
    · exact ⟨_, [], q, ht, .nil, i6, rfl⟩
    · exact nameParen_notOption' ht i6
  · cases e

theorem writes_unitVariant (name variant : Text) : Writes rg wx (.unitVariant name variant) := by
  intro s s' hr e nv0 g h0 hc hw0
  simp only [ser] at e
  obtain ⟨_, s1, h1, e⟩ := wbind_ok e
  obtain rfl := (validateIdentifier_inv h1).2.symm
  obtain ⟨-, ht, rfl⟩ := writeIdentifier_inv hr.good.quiet e
  exact wrote_put hc rfl ht (.inr (nameTok_notOption ht))

theorem writes_unit : Writes rg wx .unit := by
  intro s s' hr e nv0 g h0 hc hw0
  simp only [ser] at e
  unfold serUnit at e
  simp only [wbind_apply, wget_apply, ite_W, write_quiet hr.good.quiet, wpure_apply] at e
  cases hnv : s.nv with
  | true =>
    simp only [hnv, Bool.not_true, Bool.false_eq_true, ↓reduceIte, WRes.ok.injEq, true_and] at e
    refine wrote_put (w := []) hc (by simp [e]) ?_ (.inr notOption_nil)
    simp [Rend, hnv]
  | false =>
    simp only [hnv, Bool.not_false, ↓reduceIte, WRes.ok.injEq, true_and] at e
    refine wrote_put hc e.symm ?_ (.inr (notOption_cons (by decide)))
    simp [Rend, hnv]

theorem writes_bool (b : Bool) : Writes rg wx (.bool b) := by
  intro s s' hr e nv0 g h0 hc hw0
  simp only [ser, write_quiet hr.good.quiet, WRes.ok.injEq, true_and] at e
  refine wrote_put hc e.symm rfl (.inr ?_)
  cases b <;> exact notOption_cons (by decide)

theorem writes_num {n : Number} (h : n.WF) : Writes rg wx (.num n) := by
  intro s s' hr e nv0 g h0 hc hw0
  simp only [ser, serNumber_quiet hr.good.quiet, WRes.ok.injEq, true_and] at e
  exact wrote_put hc e.symm ⟨h, rfl⟩ (.inr (number_notOption n _))

theorem writes_char (c : Char) : Writes rg wx (.char c) := by
  intro s s' hr e nv0 g h0 hc hw0
  simp only [ser, serChar_quiet hr.good.quiet, WRes.ok.injEq, true_and] at e
  refine wrote_put hc e.symm rfl (.inr ?_)
  obtain ⟨u, hu⟩ := charText_form c
  rw [hu]
  exact notOption_cons (by decide)

theorem writes_str (t : Text) : Writes rg wx (.str t) := by
  intro s s' hr e nv0 g h0 hc hw0
  simp only [ser, serStr_quiet hr.good.quiet, WRes.ok.injEq, true_and] at e
  have hl := strText_lit s.escapeStrings t
  refine wrote_put hc e.symm hl (.inr ?_)
  have := hl.form []
  rw [List.append_nil] at this
  rcases this with ⟨u, hu⟩ | ⟨u, hu, -⟩ <;> rw [hu] <;> exact notOption_cons (by decide)

theorem writes_bytes (b : List UInt8) : Writes rg wx (.bytes b) := by
  intro s s' hr e nv0 g h0 hc hw0
  simp only [ser, serBytes_quiet hr.good.quiet, WRes.ok.injEq, true_and] at e
  have hl := bytesText_lit s.escapeStrings b
  refine wrote_put hc e.symm hl (.inr ?_)
  have := hl.form []
  rw [List.append_nil] at this
  obtain ⟨u, hu, -⟩ := this
  rw [hu]; exact notOption_cons (by decide)

theorem writes_seq {len : Option Nat} {vs : List SVal} (hv : ∀ v ∈ vs, Writes rg wx v) : Writes rg wx (.seq len vs) := by
  intro s s' hr e nv0 g h0 hc hw0
  simp only [ser] at e
  obtain ⟨c, s1, h1, e⟩ := wbind_ok e
  obtain ⟨rfl, ho⟩ := seqOpen_opens hr.good h1
  obtain ⟨s3, h3, h4, h5, m, rfl⟩ := seqRest_inv hv hr (s0 := s.calm.put c!"[") rfl (hr.calm.put _) ho e
  obtain ⟨ts, w, h6, h7, h8⟩ := h5.delim (c := ']')
  refine wrote_of (a := []) (b := []) (w := w) hc h4 (fun _ => h3.nv) (fun _ => h3.isd) .nil .nil
    (fun _ => ⟨rfl, rfl⟩) ⟨by simpa [Ser.calm] using h8.out, h8.core⟩ ?_ (.inr (delim_notOption h7 (by decide)))
  exact ⟨ts, rendAll_iff.mpr h6, h7⟩

theorem writes_map {len : Option Nat} {vs : List (SVal × SVal)} (hv : ∀ v ∈ vs, Writes rg wx v.1 ∧ Writes rg wx v.2) : Writes rg wx (.map len vs) := by
  intro s s' hr e nv0 g h0 hc hw0
  simp only [ser] at e
  obtain ⟨c, s1, h1, e⟩ := wbind_ok e
  obtain ⟨rfl, ho⟩ := mapOpen_opens hr.good h1
  obtain ⟨s3, h3, h4, h5, m, rfl⟩ := mapRest_inv hv hr (s0 := s.calm.put c!"{") rfl (hr.calm.put _) ho e
  obtain ⟨ts, w, h6, h7, h8⟩ := h5.delim (c := '}')
  refine wrote_of (a := []) (b := []) (w := w) hc h4 (fun _ => h3.nv) (fun _ => h3.isd) .nil .nil
    (fun _ => ⟨rfl, rfl⟩) ⟨by simpa [Ser.calm] using h8.out, h8.core⟩ ?_ (.inr (delim_notOption h7 (by decide)))
  exact ⟨ts, rendEntries_iff.mpr h6, h7⟩

theorem writes_tuple {vs : List SVal} (hv : ∀ v ∈ vs, Writes rg wx v) : Writes rg wx (.tuple vs) := by
  intro s s' hr e nv0 g h0 hc hw0
  simp only [ser] at e
  obtain ⟨c, s1, h1, e⟩ := wbind_ok e
  obtain ⟨rfl, ho⟩ := tupleOpen_opens hr.good h1
  obtain ⟨s3, h3, h4, h5, m, rfl⟩ := tupleRest_inv hv hr (s0 := s.calm.put (if s.nv then [] else c!"(")) rfl (hr.calm.put _) ho e
  cases hnv : s.nv with
  | false =>
    simp only [hnv, Bool.false_eq_true, ↓reduceIte] at h4 h5 ⊢
    obtain ⟨ts, w, h6, h7, h8⟩ := h5.delim (c := ')')
    refine wrote_of (a := []) (b := []) (w := w) hc h4 (fun _ => h3.nv) (fun _ => h3.isd) .nil .nil
      (fun _ => ⟨rfl, rfl⟩) ⟨by simpa [Ser.calm] using h8.out, h8.core⟩ ?_ (.inr (delim_notOption h7 (by decide)))
    exact ⟨ts, rendAll_iff.mpr h6, by simpa [hnv] using h7⟩
  | true =>
    simp only [hnv, ↓reduceIte, Ser.put_nil] at h4 h5 ⊢
    obtain ⟨ts, a, w, b, h6, h7, h8, h9, h10⟩ := h5.bare (fun v _ h => rend_ne v h)
    refine wrote_of (a := a) (b := b) (w := w) hc h4 (fun _ => h3.nv) (fun _ => h3.isd) h8 h9
      (by simp [hnv]) ⟨by simpa [Ser.calm] using h10.out, h10.core⟩ ?_ (tuple_notOption hr h0 hc hnv hw0 (by simp [SVal.OptOk]) h6 h7)
    exact ⟨ts, rendAll_iff.mpr h6, by simpa [hnv] using h7⟩

theorem writes_tupleStruct {name : Text} {vs : List SVal} (hv : ∀ v ∈ vs, Writes rg wx v) : Writes rg wx (.tupleStruct name vs) := by
  intro s s' hr e nv0 g h0 hc hw0
  simp only [ser] at e
  obtain ⟨_, s0, h1, e⟩ := wbind_ok e
  obtain ⟨p, rfl, hp⟩ := structName_inv hr.good h1
  obtain ⟨c, s1, h1, e⟩ := wbind_ok e
  obtain ⟨rfl, ho⟩ := tupleOpen_opens (s := s.put p) (hr.good.step rfl) h1
  obtain ⟨s3, h3, h4, h5, m, rfl⟩ := tupleRest_inv hv hr (s0 := (s.put p).calm.put (if (s.put p).nv then [] else c!"(")) rfl
    (Idle.put (Ready.calm (s := s.put p) (hr.step rfl)) _) ho e
  rcases hp with ⟨hnv, rfl⟩ | ⟨hnv, hp⟩
  · simp only [hnv, ↓reduceIte, Ser.put_nil, Ser.put_nv] at h4 h5 ⊢
    obtain ⟨ts, a, w, b, h6, h7, h8, h9, h10⟩ := h5.bare (fun v _ h => rend_ne v h)
    refine wrote_of (a := a) (b := b) (w := w) hc h4 (fun _ => h3.nv) (fun _ => h3.isd) h8 h9
      (by simp [hnv]) ⟨by simpa [Ser.calm] using h10.out, h10.core⟩ ?_ (tuple_notOption hr h0 hc hnv hw0 (by simp [SVal.OptOk]) h6 h7)
    exact ⟨ts, rendAll_iff.mpr h6, by simpa [hnv] using h7⟩
  · simp only [hnv, Bool.false_eq_true, ↓reduceIte, Ser.put_nv] at h4 h5 ⊢
    obtain ⟨ts, w, h6, h7, h8⟩ := h5.delim (c := ')')
    refine wrote_of (a := []) (b := []) (w := p ++ w) hc h4 (fun _ => h3.nv) (fun _ => h3.isd) .nil .nil
      (fun _ => ⟨rfl, rfl⟩) ⟨by simpa [Ser.calm] using h8.out, h8.core⟩ ?_ (.inr (optTight_notOption hp h7))
    refine ⟨ts, rendAll_iff.mpr h6, ?_⟩
    simp only [hnv, Bool.false_eq_true, ↓reduceIte]
    exact ⟨p, w, hp, h7, rfl⟩

theorem writes_tupleVariant {name variant : Text} {vs : List SVal} (hv : ∀ v ∈ vs, Writes rg wx v) :
    Writes rg wx (.tupleVariant name variant vs) := by
  intro s s' hr e nv0 g h0 hc hw0
  simp only [ser] at e
  obtain ⟨c, s1, h1, e⟩ := wbind_ok e
  unfold tupleVariantOpen at h1
  obtain ⟨_, s2, h2, h1⟩ := wbind_ok h1
  simp only [wmod_apply, WRes.ok.injEq, true_and] at h2
  rw [show ({ s with nv := false, isd := 0 } : Ser) = s.calm from rfl] at h2
  subst h2
  obtain ⟨_, s2, h2, h1⟩ := wbind_ok h1
  obtain rfl := (validateIdentifier_inv h2).2.symm
  obtain ⟨_, s2, h2, h1⟩ := wbind_ok h1
  have hq : s.calm.Quiet := hr.good.quiet
  obtain ⟨-, ht, rfl⟩ := writeIdentifier_inv hq h2
  obtain ⟨_, s2, h2, h1⟩ := wbind_ok h1
  rw [write_quiet (hq.put _)] at h2
  simp only [WRes.ok.injEq, true_and] at h2
  subst h2
  obtain ⟨_, s2, h2, h1⟩ := wbind_ok h1
  obtain ⟨rfl, rfl⟩ := wpure_ok h1
  have ho := tupleIndent_opens (s := (s.calm.put (identText variant)).put c!"(") (hr.good.step rfl) h2
  obtain ⟨s3, h3, h4, h5, m, rfl⟩ := tupleRest_inv (b := false) hv hr (s0 := (s.calm.put (identText variant)).put c!"(") rfl
    (Idle.put (hr.calm.put _) _) ho e
  obtain ⟨ts, w, h6, h7, h8⟩ := h5.delim (c := ')')
  refine wrote_of (a := []) (b := []) (w := identText variant ++ ([] ++ w)) hc h4 (fun _ => h3.nv) (fun _ => h3.isd) .nil .nil
    (fun _ => ⟨rfl, rfl⟩) ⟨by simpa [Ser.calm] using h8.out, h8.core⟩ ?_ (.inr (nameParen_notOption ht h7))
  exact ⟨ts, rendAll_iff.mpr h6, _, [], w, ht, .nil, h7, rfl⟩

omit [Env] in
theorem Number.Keeps.mono {n : Number} [Env] (h : n.Keeps false) (sfx : Bool) : n.Keeps sfx := by
  cases n with
  | f32 b =>
    rcases h with h | h
    · cases h
    · exact .inr h
  | _ => trivial

/-- The range notation exists with and without suffixes. -/
theorem GoodRange.rend {name : Text} {fs : List (Text × SVal)} (h : GoodRange name fs) (sfx : Bool) :
    ∃ es w, fs = es.map (fun e : Text × Number => (e.1, SVal.num e.2)) ∧ RangeLit sfx name es w ∧ RangeRend sfx name fs w := by
  obtain ⟨w, es, rfl, h1, h2⟩ := h
  obtain ⟨w', h1'⟩ : ∃ w', RangeLit sfx name es w' := by
    cases h1
    · exact ⟨_, .range⟩
    · exact ⟨_, .rangeInclusive⟩
    · exact ⟨_, .rangeFrom⟩
    · exact ⟨_, .rangeTo⟩
    · exact ⟨_, .rangeToInclusive⟩
  exact ⟨es, w', rfl, h1', es, rfl, h1', fun e he => ⟨(h2 e he).1, (h2 e he).2.1, (h2 e he).2.2.mono _⟩⟩

/-- A struct that is written as a range, or was meant to be. -/
theorem writes_range {name : Text} {fs : List (Text × SVal)} {kind : RangeKind} (hk : rangeKindOf name fs.length = some kind)
    (hcr : GoodRange name fs ∨ rg = .compact ∧ numericRange name fs = false) (hv : ∀ v ∈ fs, Writes rg wx v.2) (hrg : rg ≠ .structs) :
    Writes rg wx (.struct name fs) := by
  intro s s' hr e nv0 g h0 hc hw0
  simp only [ser] at e
  obtain ⟨c, s1, h1, e⟩ := wbind_ok e
  unfold structOpen at h1
  simp only [wbind_apply, wget_apply, hr.compactRanges, hrg, hk, wmod_apply, ne_eq, not_false_eq_true, decide_true, wpure_apply,
    WRes.ok.injEq] at h1
  obtain ⟨rfl, rfl⟩ := h1
  rw [show ({ s with nv := false, isd := 0 } : Ser) = s.calm from rfl] at e
  have hq : s.calm.Quiet := hr.good.quiet
  obtain ⟨m, s4, e', rfl⟩ := dropCompound_inv e
  rcases hcr with hcr | ⟨hcr, hn⟩
  · obtain ⟨es, w, rfl, h1, h2⟩ := hcr.rend s.numberSuffixes
    rw [List.length_map] at hk
    have := (range_compact h1 hk hq rfl).symm.trans e'
    simp only [WRes.ok.injEq, true_and] at this
    subst this
    refine wrote_of (a := []) (b := []) (w := w) hc rfl (fun _ => rfl) (fun _ => rfl) .nil .nil (fun _ => ⟨rfl, rfl⟩)
      ⟨by simp [Ser.calm], rfl⟩ (.inr h2) (.inr h2.notOption)
  · have e' := (congrFun (range_falls fs hk hn) s.calm).symm.trans e'
    obtain ⟨_, s2, h2, e'⟩ := wbind_ok e'
    rw [write_quiet hq] at h2
    simp only [WRes.ok.injEq, true_and] at h2
    subst h2
    obtain ⟨_, s2, h2, e'⟩ := wbind_ok e'
    have ho := structIndent_opens (s := s.calm.put c!"(") (hr.good.step rfl) h2
    obtain ⟨s3, h3, h4, h5, rfl⟩ := structBody_inv (b := false) hv hr (s0 := s.calm.put c!"(") rfl (hr.calm.put _) ho e'
    obtain ⟨ts, w, h6, h7, h8⟩ := h5.delim (c := ')')
    obtain ⟨p1, p2⟩ := hr.plain hcr
    have hnv : s.nv = false := by
      cases hnv : s.nv with
      | false => rfl
      | true =>
        have := h0 (hc.nv hnv)
        rw [p2] at this; cases this
    refine wrote_of (a := []) (b := []) (w := w) hc h4 (fun _ => h3.nv) (fun _ => h3.isd) .nil .nil
      (fun _ => ⟨rfl, rfl⟩) ⟨by simpa [Ser.calm] using h8.out, h8.core⟩ ?_ (.inr (delim_notOption h7 (by decide)))
    refine .inl ⟨ts, rendFields_iff.mpr h6, ?_⟩
    simp only [hnv, Bool.false_eq_true, ↓reduceIte]
    exact ⟨[], w, .inl ⟨p1, rfl⟩, h7, rfl⟩

theorem writes_struct {name : Text} {fs : List (Text × SVal)}
    (hcr : rg ≠ .structs → rangeKindOf name fs.length = none ∨ GoodRange name fs ∨ (rg = .compact ∧ numericRange name fs = false))
    (hv : ∀ v ∈ fs, Writes rg wx v.2) : Writes rg wx (.struct name fs) := by
  by_cases hrk : rg = .structs ∨ rangeKindOf name fs.length = none
  rotate_left
  · obtain ⟨h1, h2⟩ := not_or.mp hrk
    cases hk : rangeKindOf name fs.length with
    | none => exact absurd hk h2
    | some kind => exact writes_range hk ((hcr h1).resolve_left h2) hv h1
  intro s s' hr e nv0 g h0 hc hw0
  simp only [ser] at e
  obtain ⟨c, s1, h1, e⟩ := wbind_ok e
  unfold structOpen at h1
  simp only [wbind_apply, wget_apply, hr.compactRanges] at h1
  have h1 : structOpenPlain name fs.length s = .ok c s1 := by
    rcases hrk with h | h
    · simp only [h, ne_eq, not_true_eq_false, decide_false] at h1
      exact h1
    · rw [h] at h1
      generalize decide (rg ≠ .structs) = b at h1
      cases b <;> exact h1
  unfold structOpenPlain at h1
  obtain ⟨_, _, h2, h1⟩ := wbind_ok h1
  simp only [wget_apply, WRes.ok.injEq] at h2
  obtain ⟨rfl, rfl⟩ := h2
  obtain ⟨_, s2, h2, h1⟩ := wbind_ok h1
  simp only [wmod_apply, WRes.ok.injEq, true_and] at h2
  rw [show ({ s with nv := false, isd := 0 } : Ser) = s.calm from rfl] at h2
  subst h2
  have hq : s.calm.Quiet := hr.good.quiet
  cases hnv : s.nv with
  | true =>
    simp only [hnv, ↓reduceIte] at h1
    obtain ⟨_, s2, h2, h1⟩ := wbind_ok h1
    obtain rfl := (validateIdentifier_inv h2).2.symm
    obtain ⟨_, s2, h2, h1⟩ := wbind_ok h1
    obtain ⟨rfl, rfl⟩ := wpure_ok h1
    have ho := structIndent_opens (s := s.calm) (hr.good.step rfl) h2
    obtain ⟨s3, h3, h4, h5, m, rfl⟩ := structRest_inv (b := true) hv hr (s0 := s.calm) rfl hr.calm ho e
    simp only [↓reduceIte, Ser.put_nil] at h4 h5 ⊢
    obtain ⟨ts, a, w, b, h6, h7, h8, h9, h10⟩ := h5.bare (fun _ _ h => by obtain ⟨_, _, hk, _, he⟩ := h; cases he; simp)
    refine wrote_of (a := a) (b := b) (w := w) hc h4 (fun _ => h3.nv) (fun _ => h3.isd) h8 h9
      (by simp [hnv]) ⟨by simpa [Ser.calm] using h10.out, h10.core⟩ ?_ (.inr (bare_notOption h7 fun t ts' e => by
        subst e
        cases fs with
        | nil => cases h6
        | cons f fs =>
          obtain ⟨k, u, hk, -, he⟩ := h6.1
          cases he with
          | mk hl _ => exact hk.notOption (layout_follow hl (stop_identFollow (.inr ⟨':', _, rfl, by simp⟩)))))
    exact .inl ⟨ts, rendFields_iff.mpr h6, by simpa [hnv] using h7⟩
  | false =>
    simp only [hnv, Bool.false_eq_true, ↓reduceIte, ite_seq2] at h1
    obtain ⟨_, s2, h2, h1⟩ := wbind_ok h1
    obtain ⟨p, rfl, hp⟩ : ∃ p, s2 = s.calm.put p ∧ OptNameTight s.extensions name p := by
      obtain ⟨p, h3, h4⟩ := structName_inv (s := s.calm) (s' := s2) (name := name) (hr.good.step rfl) (by
        unfold structName
        simp only [wbind_apply, wget_apply, Ser.calm, Bool.not_false, Bool.and_true]
        exact h2)
      rcases h4 with ⟨h4, -⟩ | ⟨-, h4⟩
      · cases h4
      · exact ⟨p, h3, h4⟩
    obtain ⟨_, s2, h2, h1⟩ := wbind_ok h1
    rw [write_quiet (hq.put _)] at h2
    simp only [WRes.ok.injEq, true_and] at h2
    subst h2
    obtain ⟨_, s2, h2, h1⟩ := wbind_ok h1
    obtain ⟨rfl, rfl⟩ := wpure_ok h1
    have ho := structIndent_opens (s := (s.calm.put p).put c!"(") (hr.good.step rfl) h2
    obtain ⟨s3, h3, h4, h5, m, rfl⟩ := structRest_inv (b := false) hv hr (s0 := (s.calm.put p).put c!"(") rfl
      (Idle.put (hr.calm.put _) _) ho e
    obtain ⟨ts, w, h6, h7, h8⟩ := h5.delim (c := ')')
    refine wrote_of (a := []) (b := []) (w := p ++ w) hc h4 (fun _ => h3.nv) (fun _ => h3.isd) .nil .nil
      (fun _ => ⟨rfl, rfl⟩) ⟨by simpa [Ser.calm] using h8.out, h8.core⟩ ?_ (.inr (optTight_notOption hp h7))
    refine .inl ⟨ts, rendFields_iff.mpr h6, ?_⟩
    simp only [hnv, Bool.false_eq_true, ↓reduceIte]
    exact ⟨p, w, hp.toOpt, h7, rfl⟩

theorem writes_structVariant {name variant : Text} {fs : List (Text × SVal)} (hv : ∀ v ∈ fs, Writes rg wx v.2) :
    Writes rg wx (.structVariant name variant fs) := by
  intro s s' hr e nv0 g h0 hc hw0
  simp only [ser] at e
  obtain ⟨c, s1, h1, e⟩ := wbind_ok e
  unfold structVariantOpen at h1
  obtain ⟨_, s2, h2, h1⟩ := wbind_ok h1
  simp only [wmod_apply, WRes.ok.injEq, true_and] at h2
  rw [show ({ s with nv := false, isd := 0 } : Ser) = s.calm from rfl] at h2
  subst h2
  obtain ⟨_, s2, h2, h1⟩ := wbind_ok h1
  obtain rfl := (validateIdentifier_inv h2).2.symm
  obtain ⟨_, s2, h2, h1⟩ := wbind_ok h1
  have hq : s.calm.Quiet := hr.good.quiet
  obtain ⟨-, ht, rfl⟩ := writeIdentifier_inv hq h2
  obtain ⟨_, s2, h2, h1⟩ := wbind_ok h1
  rw [write_quiet (hq.put _)] at h2
  simp only [WRes.ok.injEq, true_and] at h2
  subst h2
  obtain ⟨_, s2, h2, h1⟩ := wbind_ok h1
  obtain ⟨rfl, rfl⟩ := wpure_ok h1
  have ho := structIndent_opens (s := (s.calm.put (identText variant)).put c!"(") (hr.good.step rfl) h2
  obtain ⟨s3, h3, h4, h5, m, rfl⟩ := structRest_inv (b := false) hv hr (s0 := (s.calm.put (identText variant)).put c!"(") rfl
    (Idle.put (hr.calm.put _) _) ho e
  obtain ⟨ts, w, h6, h7, h8⟩ := h5.delim (c := ')')
  refine wrote_of (a := []) (b := []) (w := identText variant ++ ([] ++ w)) hc h4 (fun _ => h3.nv) (fun _ => h3.isd) .nil .nil
    (fun _ => ⟨rfl, rfl⟩) ⟨by simpa [Ser.calm] using h8.out, h8.core⟩ ?_ (.inr (nameParen_notOption ht h7))
  exact ⟨ts, rendFields_iff.mpr h6, _, [], w, ht, .nil, h7, rfl⟩

mutual
/-- Everything serialized is in the grammar. -/
theorem writes_of : ∀ v : SVal, v.Clean rg wx → Writes rg wx v
  | .bool b, _ => writes_bool b
  | .num _, h => writes_num (by simpa [SVal.Clean] using h)
  | .char c, _ => writes_char c
  | .str t, _ => writes_str t
  | .bytes b, _ => writes_bytes b
  | .none, _ => writes_none
  | .some v, h => writes_some (writes_of v (by simpa [SVal.Clean] using h))
  | .unit, _ => writes_unit
  | .unitStruct n, _ => writes_unitStruct
  | .unitVariant n v, _ => writes_unitVariant n v
  | .newtypeStruct _ v, h => writes_newtypeStruct (writes_of v (by simpa [SVal.Clean] using h))
  | .newtypeVariant _ _ v, h => by
    simp only [SVal.Clean] at h
    exact writes_newtypeVariant h.1 (writes_of v h.2)
  | .seq _ vs, h => writes_seq (writes_all vs (by simpa [SVal.Clean] using h))
  | .tuple vs, h => writes_tuple (writes_all vs (by simpa [SVal.Clean] using h))
  | .tupleStruct _ vs, h => writes_tupleStruct (writes_all vs (by simpa [SVal.Clean] using h))
  | .tupleVariant _ _ vs, h => writes_tupleVariant (writes_all vs (by simpa [SVal.Clean] using h))
  | .map _ kvs, h => writes_map (writes_entries kvs (by simpa [SVal.Clean] using h))
  | .struct _ fs, h => by
    simp only [SVal.Clean] at h
    exact writes_struct h.1 (writes_fields fs h.2)
  | .structVariant _ _ fs, h => writes_structVariant (writes_fields fs (by simpa [SVal.Clean] using h))
  | .raw _, h => by simp [SVal.Clean] at h
theorem writes_all : ∀ vs : List SVal, CleanAll rg wx vs → ∀ v ∈ vs, Writes rg wx v
  | [], _ => by simp
  | v :: vs, h => by
    simp only [CleanAll] at h
    have h1 := writes_of v h.1
    have h2 := writes_all vs h.2
    intro u hu
    rcases List.mem_cons.mp hu with rfl | hu
    · exact h1
    · exact h2 u hu
theorem writes_entries : ∀ kvs : List (SVal × SVal), CleanEntries rg wx kvs → ∀ v ∈ kvs, Writes rg wx v.1 ∧ Writes rg wx v.2
  | [], _ => by simp
  | (k, v) :: kvs, h => by
    simp only [CleanEntries] at h
    have h1 := writes_of k h.1.1
    have h1' := writes_of v h.1.2
    have h2 := writes_entries kvs h.2
    intro u hu
    rcases List.mem_cons.mp hu with rfl | hu
    · exact ⟨h1, h1'⟩
    · exact h2 u hu
theorem writes_fields : ∀ fs : List (Text × SVal), CleanFields rg wx fs → ∀ v ∈ fs, Writes rg wx v.2
  | [], _ => by simp
  | (k, v) :: fs, h => by
    simp only [CleanFields] at h
    have h1 := writes_of v h.1
    have h2 := writes_fields fs h.2
    intro u hu
    rcases List.mem_cons.mp hu with rfl | hu
    · exact h1
    · exact h2 u hu
end

end Cases

end Ron
