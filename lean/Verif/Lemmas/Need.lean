import Verif.Spec.Need
import Verif.Lemmas.Docs
/-! Serialization with and without a recursion limit. -/

set_option linter.unusedSimpArgs false
set_option linter.unusedSectionVars false

namespace Ron

/-- With recursion limit `n` the action does what it does without, and leaves the limit `n + g`, if `k ≤ n`; otherwise it
exceeds the limit, unless it fails anyway. -/
def Uses {α : Type} (cr : Bool) (k g : Nat) (f : W α) : Prop :=
  ∀ s n, s.limit = some n → s.compactRanges = cr →
    (∃ a s', f s = .ok a s' ∧ f { s with limit := none } = .ok a { s' with limit := none } ∧ k ≤ n ∧ s'.limit = some (n + g) ∧
      s'.compactRanges = cr) ∨
    (∃ e s' t', f s = .err e s' ∧ f { s with limit := none } = .err e t') ∨
    (∃ s', f s = .err .exceededRecursionLimit s' ∧ n < k)

section
variable {cr : Bool}

theorem Uses.ext {α : Type} {k g k' g' : Nat} {f : W α} (h : Uses cr k g f) (e : k = k') (e' : g = g') : Uses cr k' g' f := e ▸ e' ▸ h

theorem Uses.pure {α : Type} (a : α) : Uses cr 0 0 (Pure.pure a : W α) := fun s n h hc =>
  .inl ⟨a, s, rfl, rfl, Nat.zero_le _, h, hc⟩

theorem Uses.bindP {α β : Type} {k g k' g' : Nat} {f : W α} {h : α → W β} {Q : α → Prop} (hf : Uses cr k g f)
    (hp : ∀ s a s', f s = .ok a s' → Q a) (hg : ∀ a, Q a → Uses cr k' g' (h a)) : Uses cr (max k (k' - g)) (g + g') (f >>= h) := by
  intro s n hn hc
  rcases hf s n hn hc with ⟨a, s1, e1, e2, hk, hl, hc1⟩ | ⟨e, s1, t1, e1, e2⟩ | ⟨s1, e1, hk⟩
  · rcases hg a (hp _ _ _ e1) s1 _ hl hc1 with ⟨b, s2, e3, e4, hk', hl', hc2⟩ | ⟨e, s2, t2, e3, e4⟩ | ⟨s2, e3, hk'⟩
    · refine .inl ⟨b, s2, ?_, ?_, by omega, by rw [hl', Nat.add_assoc], hc2⟩
      · rw [wbind_apply, e1]; exact e3
      · rw [wbind_apply, e2]; exact e4
    · refine .inr (.inl ⟨e, s2, t2, ?_, ?_⟩)
      · rw [wbind_apply, e1]; exact e3
      · rw [wbind_apply, e2]; exact e4
    · refine .inr (.inr ⟨s2, ?_, by omega⟩)
      rw [wbind_apply, e1]; exact e3
  · refine .inr (.inl ⟨e, s1, t1, ?_, ?_⟩)
    · rw [wbind_apply, e1]
    · rw [wbind_apply, e2]
  · refine .inr (.inr ⟨s1, ?_, by omega⟩)
    rw [wbind_apply, e1]

theorem Uses.bind {α β : Type} {k g k' g' : Nat} {f : W α} {h : α → W β} (hf : Uses cr k g f)
    (hg : ∀ a, Uses cr k' g' (h a)) : Uses cr (max k (k' - g)) (g + g') (f >>= h) :=
  hf.bindP (Q := fun _ => True) (fun _ _ _ _ => trivial) fun a _ => hg a

/-- A first action that does not use the budget. -/
theorem Uses.free {α β : Type} {k' g' : Nat} {f : W α} {h : α → W β} (hf : Uses cr 0 0 f)
    (hg : ∀ a, Uses cr k' g' (h a)) : Uses cr k' g' (f >>= h) :=
  (hf.bind hg).ext (by omega) (by omega)
theorem Uses.freeP {α β : Type} {k' g' : Nat} {f : W α} {h : α → W β} {Q : α → Prop} (hf : Uses cr 0 0 f)
    (hp : ∀ s a s', f s = .ok a s' → Q a) (hg : ∀ a, Q a → Uses cr k' g' (h a)) : Uses cr k' g' (f >>= h) :=
  (hf.bindP hp hg).ext (by omega) (by omega)
/-- A last action that does not use the budget. -/
theorem Uses.done {α β : Type} {k g : Nat} {f : W α} {h : α → W β} (hf : Uses cr k g f)
    (hg : ∀ a, Uses cr 0 0 (h a)) : Uses cr k g (f >>= h) :=
  (hf.bind hg).ext (by omega) (by omega)

theorem Uses.ite {α : Type} {b : Prop} [Decidable b] {k g : Nat} {f f' : W α} (hf : Uses cr k g f) (hg : Uses cr k g f') :
    Uses cr k g (if b then f else f') := by split <;> assumption

theorem Uses.congr {α : Type} {k g : Nat} {f f' : W α} (h : ∀ s : Ser, s.compactRanges = cr → f s = f' s) (hf : Uses cr k g f') :
    Uses cr k g f := by
  intro s n hn hc
  have h1 := h s hc
  have h2 := h { s with limit := none } hc
  rw [h1, h2]
  exact hf s n hn hc

theorem Uses.getC {α : Type} {k g : Nat} {h : Ser → W α} (hb : ∀ s l, h { s with limit := l } = h s)
    (hg : ∀ s : Ser, s.compactRanges = cr → Uses cr k g (h s)) : Uses cr k g (wget >>= h) := by
  intro s n hn hc
  have e : (wget >>= h) { s with limit := none } = h s { s with limit := none } := by
    rw [wbind_apply, wget_apply]
    show h { s with limit := none } { s with limit := none } = _
    rw [hb]
  rw [e]
  exact hg s hc s n hn hc

theorem Uses.get {α : Type} {k g : Nat} {h : Ser → W α} (hb : ∀ s l, h { s with limit := l } = h s) (hg : ∀ s, Uses cr k g (h s)) :
    Uses cr k g (wget >>= h) := .getC hb fun s _ => hg s

theorem Uses.modC {f : Ser → Ser} (hf : ∀ s l, f { s with limit := l } = { f s with limit := l })
    (hc : ∀ s, s.compactRanges = cr → (f s).compactRanges = cr) : Uses cr 0 0 (wmod f) := by
  intro s n hn h
  refine .inl ⟨(), f s, rfl, ?_, Nat.zero_le _, ?_, hc s h⟩
  · rw [wmod_apply, hf]
  · have := hf s s.limit
    have e : f s = { f s with limit := s.limit } := this
    rw [e]; exact hn

/-- An action that neither uses nor changes the budget. -/
theorem Uses.silent {α : Type} {f : W α} (h : Silent f) (hc : ∀ s a s', f s = .ok a s' → s'.compactRanges = s.compactRanges) :
    Uses cr 0 0 f := by
  intro s n hn hcr
  have e1 : f s = (f s).put s.w (some n) := by have := h s s.w (some n); rwa [← hn] at this ⊢
  have e2 : f { s with limit := none } = (f s).put s.w none := h s s.w none
  rw [e2]
  cases hf : f s with
  | ok a s' =>
    rw [hf] at e1
    simp only [WRes.put, WRes.ok.injEq, true_and] at e1
    refine .inl ⟨a, s', rfl, ?_, Nat.zero_le _, ?_, ?_⟩
    · simp only [WRes.put]
      rw [e1]
    · rw [e1]; rfl
    · rw [hc s a s' hf, hcr]
  | err e s' => exact .inr (.inl ⟨e, s', _, rfl, rfl⟩)

theorem Uses.write (t : Text) : Uses cr 0 0 (Ron.write t) := by
  intro s n hn hc
  unfold Ron.write
  cases h : s.w.fault s.w.out t with
  | none => exact .inl ⟨(), _, rfl, rfl, Nat.zero_le _, hn, hc⟩
  | some n => exact .inr (.inl ⟨_, _, _, rfl, rfl⟩)

theorem Uses.drop {α : Type} {k g : Nat} {f : W α} (h : Uses cr k g f) : Uses cr k (g + 1) (dropCompound f) := by
  intro s n hn hc
  unfold dropCompound
  rcases h s n hn hc with ⟨a, s1, e1, e2, hk, hl, hc1⟩ | ⟨e, s1, t1, e1, e2⟩ | ⟨s1, e1, hk⟩
  · rw [e1, e2]
    exact .inl ⟨a, _, rfl, rfl, hk, by simp [hl]; omega, hc1⟩
  · rw [e1, e2]
    exact .inr (.inl ⟨e, _, _, rfl, rfl⟩)
  · rw [e1]
    exact .inr (.inr ⟨_, rfl, hk⟩)

/-- A guarded action. -/
theorem Uses.guardR {α : Type} {k g : Nat} {f : W α} (h : Uses cr k g f) : Uses cr (k + 1) g (guardR f) := by
  intro s n hn hc
  have eg : Ron.guardR f = (guardEnter >>= fun _ => dropCompound f) := rfl
  rw [eg, wbind_apply, wbind_apply]
  unfold dropCompound
  have e0 : guardEnter { s with limit := none } = .ok () { s with limit := none } := rfl
  rw [e0]
  cases n with
  | zero =>
    have : guardEnter s = .err .exceededRecursionLimit s := by simp [guardEnter, hn]
    rw [this]
    exact .inr (.inr ⟨s, rfl, by omega⟩)
  | succ n =>
    have : guardEnter s = .ok () { s with limit := some n } := by simp [guardEnter, hn]
    rw [this]
    simp only
    rcases h { s with limit := some n } n rfl hc with ⟨a, s1, e1, e2, hk, hl, hc1⟩ | ⟨e, s1, t1, e1, e2⟩ | ⟨s1, e1, hk⟩
    · rw [e1]
      simp only at e2
      rw [e2]
      exact .inl ⟨a, _, rfl, rfl, by omega, by simp [hl]; omega, hc1⟩
    · rw [e1]
      simp only at e2
      rw [e2]
      exact .inr (.inl ⟨e, _, _, rfl, rfl⟩)
    · rw [e1]
      exact .inr (.inr ⟨_, rfl, by omega⟩)

theorem Uses.guardQ {α : Type} {k g : Nat} {f : W α} (h : Uses cr k g f) : Uses cr (k + 1) g (guardQ f) := by
  intro s n hn hc
  unfold Ron.guardQ
  rw [wbind_apply, wbind_apply]
  have e0 : guardEnter { s with limit := none } = .ok () { s with limit := none } := rfl
  rw [e0]
  cases n with
  | zero =>
    have : guardEnter s = .err .exceededRecursionLimit s := by simp [guardEnter, hn]
    rw [this]
    exact .inr (.inr ⟨s, rfl, by omega⟩)
  | succ n =>
    have : guardEnter s = .ok () { s with limit := some n } := by simp [guardEnter, hn]
    rw [this]
    simp only
    rw [wbind_apply, wbind_apply]
    rcases h { s with limit := some n } n rfl hc with ⟨a, s1, e1, e2, hk, hl, hc1⟩ | ⟨e, s1, t1, e1, e2⟩ | ⟨s1, e1, hk⟩
    · rw [e1]
      simp only at e2
      rw [e2]
      exact .inl ⟨a, _, rfl, rfl, by omega, by simp [hl]; omega, hc1⟩
    · rw [e1]
      simp only at e2
      rw [e2]
      exact .inr (.inl ⟨e, _, _, rfl, rfl⟩)
    · rw [e1]
      exact .inr (.inr ⟨_, rfl, by omega⟩)

theorem uses_walk (cr : Bool) : WalkB1 @(fun α => @Uses α cr 0 0) where
  pure := .pure
  fail e := fun s n h hc => .inr (.inl ⟨e, s, _, rfl, rfl⟩)
  bind hf hg := .free hf hg
  get h hg := .get (fun s l => h.get s s.w l) hg
  mod {f} hb hk := by
    refine .silent (fun s w l => ?_) fun s a s' h => ?_
    · obtain ⟨m, hm⟩ := withMeta_self s.pretty
      have := hb s w l m
      rw [hm] at this
      rw [wmod_apply, wmod_apply, this]
      obtain ⟨k1, k2, k3, k4⟩ := hk s
      simp only [WRes.put, ← k3]
    · rw [wmod_apply] at h
      cases h
      simp [Ser.compactRanges, (hk s).2.2.1]
  write := .write
  startIndent := by
    refine .getC (fun _ _ => rfl) fun s hc => ?_
    split
    · exact .pure _
    · rename_i c i hp
      have hcc : c.compactRanges = cr := by simpa [Ser.compactRanges, hp] using hc
      exact .free (.modC (fun _ _ => rfl) fun s _ => by simp [Ser.compactRanges, hcc]) fun _ => .ite (.write _) (.pure _)
  endIndent := by
    refine .getC (fun _ _ => rfl) fun s hc => ?_
    split
    · exact .pure _
    · rename_i c i hp
      have hcc : c.compactRanges = cr := by simpa [Ser.compactRanges, hp] using hc
      simp only [ite_seq]
      refine .free (.ite ?_ (.pure _)) fun _ => .modC (fun _ _ => rfl) fun s _ => by simp [Ser.compactRanges, hcc]
      generalize List.replicate (i - 1) c.indentor = l
      induction l with
      | nil => exact .pure _
      | cons t l ih => exact .free (.write t) fun _ => ih

/-! ### Fields -/

theorem Uses.takeMeta (k : Text) : Uses cr 0 0 (takeMeta k) := by
  refine .silent (fun s w l => ?_) fun s a s' h => ?_
  · unfold Ron.takeMeta
    dsimp only
    repeat' split
    all_goals rfl
  · unfold Ron.takeMeta at h
    repeat' split at h
    all_goals
      simp only [WRes.ok.injEq] at h
      obtain ⟨-, rfl⟩ := h
      simp_all [Ser.compactRanges]

theorem Uses.restoreMeta (k : Text) (r : Option MetaField) : Uses cr 0 0 (restoreMeta k r) := by
  refine .modC (fun s l => ?_) fun s h => ?_
  · obtain ⟨w', p, e, x, y, z, i⟩ := s
    cases p with
    | none => rfl
    | some p => rfl
  · obtain ⟨w', p, e, x, y, z, i⟩ := s
    cases p with
    | none => exact h
    | some p => exact h

variable [Env]

theorem Uses.fieldPlain {n g : Nat} (comp : Comp) (k : Text) {f : W Unit} (h : Uses cr n g f) :
    Uses cr (n + 1) g (fieldPlain comp k f) := by
  have K := uses_walk cr
  refine .free (.takeMeta _) fun _ => .get (fun _ _ => rfl) fun s => ?_
  simp only [ite_seq, ite_seq2]
  refine .free (K.ite (K.between _) (K.pure _)) fun _ => .free (K.ite ?_ (K.pure _)) fun _ => .free (K.ident _) fun _ =>
    .free (K.write _) fun _ => .free (K.colonSep _) fun _ => .done h.guardQ fun _ => .free (.restoreMeta _ _) fun _ => K.pure _
  unfold Ron.fieldLead
  refine .free K.indent fun _ => ?_
  split
  · split
    · exact K.docLines _
    · exact K.pure _
  · exact K.pure _

theorem Uses.replay (comp : Comp) (b : Option (Text × Number)) :
    Uses cr (needFields cr ((b.map fun b => (b.1, SVal.num b.2)).toList)) 0 (replayField comp b) := by
  cases b with
  | none => exact .pure _
  | some b => exact (Uses.fieldPlain comp b.1 ((uses_walk cr).serNumber b.2)).ext (by simp [needFields, SVal.need]) rfl

theorem Uses.rangeFallback (comp : Comp) (r : RangeC) :
    Uses cr (max (needFields cr ((r.first.map fun b => (b.1, SVal.num b.2)).toList))
      (needFields cr ((r.second.map fun b => (b.1, SVal.num b.2)).toList))) 0 (rangeFallback comp r) := by
  have K := uses_walk cr
  refine .free (K.write _) fun _ => .get (fun _ _ => rfl) fun _ => ?_
  simp only [ite_seq3]
  refine .free (K.ite (K.bind (K.mod (by blind) fun _ => ⟨rfl, rfl, rfl, rfl⟩) fun _ => K.startIndent) (K.pure _)) fun _ => ?_
  exact (Uses.bind (.replay _ _) fun _ => .replay _ _).ext (by omega) rfl

/-- What the serialization of the data uses. -/
abbrev UsesV (cr : Bool) (v : SVal) : Prop := Uses cr (v.need cr) (v.compounds cr) (ser v)

theorem uses_serSeq : ∀ (vs : List SVal), (∀ v ∈ vs, UsesV cr v) → ∀ comp,
    Uses cr (needAll cr vs) (compoundsAll cr vs) (serSeq comp vs)
  | [], _, comp => by unfold serSeq; exact .pure _
  | v :: vs, h, comp => by
    unfold serSeq needAll compoundsAll
    have K := uses_walk cr
    refine .bind ?_ fun _ => uses_serSeq vs (fun u hu => h u (List.mem_cons_of_mem _ hu)) _
    refine .get (fun _ _ => rfl) fun _ => ?_
    simp only [ite_seq, ite_seq2]
    exact .free (K.ite (K.between _) (K.pure _)) fun _ => .free (K.ite K.indent (K.pure _)) fun _ => .free (K.elemIndex _ _) fun _ =>
      .done (h v (by simp)).guardQ fun _ => .pure _

theorem uses_serTuple : ∀ (vs : List SVal), (∀ v ∈ vs, UsesV cr v) → ∀ comp,
    Uses cr (needAll cr vs) (compoundsAll cr vs) (serTuple comp vs)
  | [], _, comp => by unfold serTuple; exact .pure _
  | v :: vs, h, comp => by
    unfold serTuple needAll compoundsAll
    have K := uses_walk cr
    refine .bind ?_ fun _ => uses_serTuple vs (fun u hu => h u (List.mem_cons_of_mem _ hu)) _
    refine .get (fun _ _ => rfl) fun _ => ?_
    simp only [ite_seq, ite_seq2]
    exact .free (K.ite (K.between _) (K.pure _)) fun _ => .free (K.ite K.indent (K.pure _)) fun _ =>
      .done (h v (by simp)).guardQ fun _ => .pure _

theorem uses_serMap : ∀ (kvs : List (SVal × SVal)), (∀ e ∈ kvs, UsesV cr e.1 ∧ UsesV cr e.2) → ∀ comp,
    Uses cr (needEntries cr kvs) (compoundsEntries cr kvs) (serMap comp kvs)
  | [], _, comp => by unfold serMap; exact .pure _
  | (k, v) :: kvs, h, comp => by
    unfold serMap needEntries compoundsEntries
    have K := uses_walk cr
    obtain ⟨h1, h2⟩ := h (k, v) (by simp)
    have he : Uses cr (max (k.need cr + 1) (v.need cr + 1 - k.compounds cr)) (k.compounds cr + v.compounds cr)
        (mapEntry comp (ser k) (ser v)) := by
      refine .get (fun _ _ => rfl) fun _ => ?_
      simp only [ite_seq, ite_seq2]
      exact .free (K.ite (K.between _) (K.pure _)) fun _ => .free (K.ite K.indent (K.pure _)) fun _ =>
        .bind h1.guardR fun _ => .free (K.write _) fun _ => .free (K.colonSep _) fun _ =>
        .done h2.guardQ fun _ => .pure _
    exact (Uses.bind he fun _ => uses_serMap kvs (fun u hu => h u (List.mem_cons_of_mem _ hu)) _).ext (by omega) (by omega)

theorem uses_serFields : ∀ (fs : List (Text × SVal)), (∀ e ∈ fs, UsesV cr e.2) → ∀ comp : Comp, comp.Full →
    Uses cr (needFields cr fs) (compoundsFields cr fs) (serFields comp fs)
  | [], _, comp, _ => by unfold serFields; exact .pure _
  | (k, v) :: fs, h, comp, hc => by
    unfold serFields needFields compoundsFields
    rw [structField_full hc]
    exact .bindP (.fieldPlain _ _ (h (k, v) (by simp))) (fun _ _ _ e => fieldPlain_full hc e) fun _ hc' =>
      uses_serFields fs (fun u hu => h u (List.mem_cons_of_mem _ hu)) _ hc'

/-- A field of a struct that is not going to be printed as a range. -/
theorem uses_toFull {comp : Comp} {r : RangeC} (k : Text) {v : SVal} (hv : UsesV cr v) {fs : List (Text × SVal)}
    (h : ∀ e ∈ fs, UsesV cr e.2) :
    Uses cr (max (max (needFields cr ((r.first.map fun b => (b.1, SVal.num b.2)).toList))
      (needFields cr ((r.second.map fun b => (b.1, SVal.num b.2)).toList))) (needFields cr ((k, v) :: fs)))
      (compoundsFields cr ((k, v) :: fs))
      (rangeFallback comp r >>= fun comp => fieldPlain comp k (ser v) >>= fun comp => serFields comp fs >>= structEnd) := by
  refine ((Uses.rangeFallback comp r).bindP (Q := Comp.Full) (fun _ _ _ e => rangeFallback_full e) fun _ hc =>
      Uses.bindP (Q := Comp.Full) (.fieldPlain _ _ hv) (fun _ _ _ e => fieldPlain_full hc e) fun _ hc =>
      .done (uses_serFields fs h _ hc) fun _ => (uses_walk cr).structEnd _).ext ?_ ?_
  · simp [needFields]
  · simp [compoundsFields]

/-- A struct in the syntax of ranges. -/
theorem uses_range {name : Text} {kind : RangeKind} (fs : List (Text × SVal)) (h : ∀ e ∈ fs, UsesV cr e.2)
    (hk : rangeKindOf name fs.length = some kind) :
    Uses cr (if numericRange name fs then 0 else needFields cr fs) (if numericRange name fs then 0 else compoundsFields cr fs)
      (do
        let comp ← serFields { range := some { kind := kind } } fs
        structEnd comp) := by
  rcases rangeKindOf_one hk with ⟨hl, hn⟩ | ⟨hl, hn⟩
  · obtain ⟨k, v, k', v', rfl⟩ : ∃ k v k' v', fs = [(k, v), (k', v')] := by
      match fs, hl with
      | [(k, v), (k', v')], _ => exact ⟨k, v, k', v', rfl⟩
    have h1 := h (k, v) (by simp)
    have h2 := h (k', v') (by simp)
    rw [serFields, structField]
    cases hv : v.asNumber with
    | none =>
      have hnr : numericRange name [(k, v), (k', v')] = false := by
        unfold numericRange
        split <;> simp_all [SVal.asNumber]
      rw [hnr]
      simp only [Bool.false_eq_true, ↓reduceIte, wbind_assoc]
      refine Uses.ext (uses_toFull k h1 (by simpa using h2)) (?_ : _ = _) rfl
      simp [needFields]
    | some n =>
      obtain rfl := asNumber_inv hv
      by_cases hk1 : k = c!"start"
      · have e1 : k = RangeC.expectedKey { kind := kind } := by
          rcases hn with ⟨rfl, -⟩ | ⟨rfl, -⟩ <;> exact hk1
        simp only [Bool.false_eq_true, ↓reduceIte, wbind_assoc, ← e1, ne_eq, not_true_eq_false, decide_false, Option.isSome, Bool.false_and,
          Bool.or_false, Option.isNone, wpure_bind]
        rw [serFields, structField]
        cases hv' : v'.asNumber with
        | none =>
          have hnr : numericRange name [(k, .num n), (k', v')] = false := by
            unfold numericRange
            split <;> simp_all [SVal.asNumber]
          rw [hnr]
          simp only [Bool.false_eq_true, ↓reduceIte, wbind_assoc]
          exact (uses_toFull k' h2 (fs := []) (by simp)).ext (by simp [needFields, SVal.need, SVal.compounds])
            (by simp [compoundsFields, SVal.compounds])
        | some n' =>
          obtain rfl := asNumber_inv hv'
          have e3 : RangeC.maxFields { kind := kind, first := some (k, n) } = 2 := by
            rcases hn with ⟨rfl, -⟩ | ⟨rfl, -⟩ <;> rfl
          by_cases hk2 : k' = c!"end"
          · have e2 : k' = RangeC.expectedKey { kind := kind, first := some (k, n) } := by
              rcases hn with ⟨rfl, -⟩ | ⟨rfl, -⟩ <;> exact hk2
            have hnr : numericRange name [(k, .num n), (k', .num n')] = true := by
              rcases hn with ⟨-, rfl⟩ | ⟨-, rfl⟩ <;> simp [numericRange, hk1, hk2]
            rw [hnr]
            simp only [e3, Bool.false_eq_true, ↓reduceIte, wbind_assoc, ← e2, ne_eq, not_true_eq_false, decide_false, Option.isSome, Bool.true_and,
              Bool.or_false, Option.isNone, wpure_bind, serFields]
            exact (uses_walk cr).structEnd _
          · have e2 : ¬ k' = RangeC.expectedKey { kind := kind, first := some (k, n) } := by
              rcases hn with ⟨rfl, -⟩ | ⟨rfl, -⟩ <;> exact hk2
            have hnr : numericRange name [(k, .num n), (k', .num n')] = false := by
              simp [numericRange, hk2]
            rw [hnr]
            simp only [ne_eq, e2, not_false_eq_true, decide_true, Bool.true_or, Bool.false_eq_true, ↓reduceIte, wbind_assoc]
            exact (uses_toFull k' h2 (fs := []) (by simp)).ext (by simp [needFields, SVal.need, SVal.compounds])
              (by simp [compoundsFields, SVal.compounds])
      · have e1 : ¬ k = RangeC.expectedKey { kind := kind } := by
          rcases hn with ⟨rfl, -⟩ | ⟨rfl, -⟩ <;> exact hk1
        have hnr : numericRange name [(k, .num n), (k', v')] = false := by
          unfold numericRange
          split <;> simp_all
        rw [hnr]
        simp only [ne_eq, e1, not_false_eq_true, decide_true, Bool.true_or, Bool.false_eq_true, ↓reduceIte, wbind_assoc]
        refine Uses.ext (uses_toFull k h1 (by simpa using h2)) (?_ : _ = _) rfl
        simp [needFields]
  · obtain ⟨k, v, rfl⟩ : ∃ k v, fs = [(k, v)] := by
      match fs, hl with
      | [(k, v)], _ => exact ⟨k, v, rfl⟩
    have h1 := h (k, v) (by simp)
    rw [serFields, structField]
    cases hv : v.asNumber with
    | none =>
      have hnr : numericRange name [(k, v)] = false := by
        unfold numericRange
        split <;> simp_all [SVal.asNumber]
      rw [hnr]
      simp only [Bool.false_eq_true, ↓reduceIte, wbind_assoc]
      refine Uses.ext (uses_toFull k h1 (by simp)) (?_ : _ = _) rfl
      simp [needFields]
    | some n =>
      obtain rfl := asNumber_inv hv
      by_cases hk1 : k = RangeC.expectedKey { kind := kind }
      · have hnr : numericRange name [(k, .num n)] = true := by
          rcases hn with ⟨rfl, rfl⟩ | ⟨rfl, rfl⟩ | ⟨rfl, rfl⟩ <;> subst hk1 <;> rfl
        rw [hnr]
        simp only [Bool.false_eq_true, ↓reduceIte, wbind_assoc, ← hk1, ne_eq, not_true_eq_false, decide_false, Option.isSome, Bool.false_and,
          Bool.or_false, Option.isNone, wpure_bind, serFields]
        exact (uses_walk cr).structEnd _
      · have hnr : numericRange name [(k, .num n)] = false := by
          rcases hn with ⟨rfl, rfl⟩ | ⟨rfl, rfl⟩ | ⟨rfl, rfl⟩ <;> simpa [numericRange, RangeC.expectedKey] using hk1
        rw [hnr]
        simp only [ne_eq, hk1, not_false_eq_true, decide_true, Bool.true_or, Bool.false_eq_true, ↓reduceIte, wbind_assoc]
        refine Uses.ext (uses_toFull k h1 (by simp)) (?_ : _ = _) rfl
        simp [needFields]

mutual
theorem ser_uses (cr : Bool) : ∀ v : SVal, UsesV cr v
  | .bool _ => by unfold UsesV ser; exact (uses_walk cr).write _
  | .num _ => by unfold UsesV ser; exact (uses_walk cr).serNumber _
  | .char _ => by unfold UsesV ser; exact (uses_walk cr).serChar _
  | .str _ => by unfold UsesV ser; exact (uses_walk cr).serStr _
  | .bytes _ => by unfold UsesV ser; exact (uses_walk cr).serBytes _
  | .none => by unfold UsesV ser; exact (uses_walk cr).serNone
  | .some v => by
    have K := uses_walk cr
    have ih := ser_uses cr v
    unfold UsesV ser SVal.need SVal.compounds
    refine .get (fun _ _ => rfl) fun _ => .ite ?_ ?_
    · exact .free (K.mod (by blind) fun _ => ⟨rfl, rfl, rfl, rfl⟩) fun _ => .done ih.guardQ fun _ => K.mod (by blind) fun _ => ⟨rfl, rfl, rfl, rfl⟩
    · exact .free (K.mod (by blind) fun _ => ⟨rfl, rfl, rfl, rfl⟩) fun _ => .free (K.write _) fun _ => .done ih.guardQ fun _ =>
        .free (K.write _) fun _ => K.mod (by blind) fun _ => ⟨rfl, rfl, rfl, rfl⟩
  | .unit => by unfold UsesV ser; exact (uses_walk cr).serUnit
  | .unitStruct _ => by unfold UsesV ser; exact (uses_walk cr).serUnitStruct _
  | .unitVariant _ _ => by
    have K := uses_walk cr
    unfold UsesV ser; exact K.bind (K.validate _) fun _ => K.ident _
  | .newtypeStruct name v => by
    have K := uses_walk cr
    have ih := ser_uses cr v
    unfold UsesV ser SVal.need SVal.compounds serNewtypeStruct
    simp only [ite_seq2]
    refine .get (fun _ _ => rfl) fun _ => .ite ?_ ?_
    · exact .free (K.mod (by blind) fun _ => ⟨rfl, rfl, rfl, rfl⟩) fun _ => .free (K.validate _) fun _ => ih.guardR
    · exact .free (K.ite (K.ident _) (K.validate _)) fun _ => .free (K.mod (by blind) fun _ => ⟨rfl, rfl, rfl, rfl⟩) fun _ =>
        .free (K.write _) fun _ => .done ih.guardQ fun _ => K.write _
  | .newtypeVariant name variant v => by
    have K := uses_walk cr
    have ih := ser_uses cr v
    unfold UsesV ser SVal.need SVal.compounds
    exact .free (K.validate _) fun _ => .free (K.ident _) fun _ => .free (K.write _) fun _ =>
      .free (K.mod (by blind) fun _ => ⟨rfl, rfl, rfl, rfl⟩) fun _ => .done ih.guardQ fun _ =>
      .free (K.mod (by blind) fun _ => ⟨rfl, rfl, rfl, rfl⟩) fun _ => K.write _
  | .seq _ vs => by
    have K := uses_walk cr
    unfold UsesV ser SVal.need SVal.compounds
    exact .free (K.seqOpen _) fun comp => .drop (.done (uses_serSeq vs (all_uses cr vs) _) fun _ => K.seqEnd _)
  | .tuple vs => by
    have K := uses_walk cr
    unfold UsesV ser SVal.need SVal.compounds
    exact .free (K.tupleOpen _) fun comp => .drop (.done (uses_serTuple vs (all_uses cr vs) _) fun _ => K.tupleEnd _)
  | .tupleStruct _ vs => by
    have K := uses_walk cr
    unfold UsesV ser SVal.need SVal.compounds
    exact .free (K.structName _) fun _ => .free (K.tupleOpen _) fun comp =>
      .drop (.done (uses_serTuple vs (all_uses cr vs) _) fun _ => K.tupleEnd _)
  | .tupleVariant _ _ vs => by
    have K := uses_walk cr
    unfold UsesV ser SVal.need SVal.compounds
    exact .free (K.tupleVariantOpen _ _ _) fun comp => .drop (.done (uses_serTuple vs (all_uses cr vs) _) fun _ => K.tupleEnd _)
  | .map _ kvs => by
    have K := uses_walk cr
    unfold UsesV ser SVal.need SVal.compounds
    exact .free (K.mapOpen _) fun comp => .drop (.done (uses_serMap kvs (entries_uses cr kvs) _) fun _ => K.mapEnd _)
  | .struct name fs => by
    have K := uses_walk cr
    have ih := fields_uses cr fs
    unfold UsesV ser SVal.need SVal.compounds
    by_cases hr : cr = true ∧ ∃ kind, rangeKindOf name fs.length = some kind
    · obtain ⟨h1, kind, h2⟩ := hr
      have := Uses.free (cr := cr) (K.mod (f := fun s => { s with nv := false, isd := 0 }) (by blind) fun _ => ⟨rfl, rfl, rfl, rfl⟩)
        fun _ => .drop (uses_range fs ih h2)
      refine Uses.congr ?_ (this.ext ?_ ?_)
      · intro s hs
        rw [wbind_apply, structOpen, wbind_apply, wget_apply]
        simp only [hs, h1, h2]
        rfl
      · simp [h1]
      · simp only [h1, Bool.true_and]; split <;> rfl
    · refine Uses.congr (f' := (do
            let c ← structOpenPlain name fs.length
            dropCompound (do
              let c ← serFields c fs
              structEnd c))) ?_ ?_
      · intro s hs
        rw [wbind_apply, structOpen, wbind_apply, wget_apply]
        simp only [hs]
        cases h1 : cr
        · rfl
        · cases h2 : rangeKindOf name fs.length
          · rfl
          · exact absurd ⟨h1, _, h2⟩ hr
      · have hd : ¬ (cr && numericRange name fs) = true := by
          intro h
          rw [Bool.and_eq_true] at h
          exact hr ⟨h.1, numericRange_kind h.2⟩
        rw [if_neg hd, if_neg hd]
        exact Uses.freeP (Q := Comp.Full) (K.structOpenPlain _ _) (fun _ _ _ e => structOpenPlain_full e) fun comp hc =>
          .drop (.done (uses_serFields fs ih _ hc) fun _ => K.structEnd _)
  | .structVariant _ _ fs => by
    have K := uses_walk cr
    unfold UsesV ser SVal.need SVal.compounds
    exact Uses.freeP (Q := Comp.Full) (K.structVariantOpen _ _ _) (fun _ _ _ e => structVariantOpen_full e) fun comp hc =>
      .drop (.done (uses_serFields fs (fields_uses cr fs) _ hc) fun _ => K.structEnd _)
  | .raw _ => by
    have K := uses_walk cr
    unfold UsesV ser SVal.need SVal.compounds
    exact .get (fun _ _ => rfl) fun _ => .free (K.mod (by blind) fun _ => ⟨rfl, rfl, rfl, rfl⟩) fun _ => .free (K.somes _) fun _ =>
      .done (Uses.guardR (K.write _)) fun _ => K.closes _
theorem all_uses (cr : Bool) : ∀ vs : List SVal, ∀ v ∈ vs, UsesV cr v
  | [] => by intro _ h; cases h
  | v :: vs => List.forall_mem_cons.mpr ⟨ser_uses cr v, all_uses cr vs⟩
theorem entries_uses (cr : Bool) : ∀ kvs : List (SVal × SVal), ∀ e ∈ kvs, UsesV cr e.1 ∧ UsesV cr e.2
  | [] => by intro _ h; cases h
  | (k, v) :: kvs => List.forall_mem_cons.mpr ⟨⟨ser_uses cr k, ser_uses cr v⟩, entries_uses cr kvs⟩
theorem fields_uses (cr : Bool) : ∀ fs : List (Text × SVal), ∀ e ∈ fs, UsesV cr e.2
  | [] => by intro _ h; cases h
  | (k, v) :: fs => List.forall_mem_cons.mpr ⟨ser_uses cr v, fields_uses cr fs⟩
end

end

/-! ### Bounds -/

mutual
theorem need_le (cr : Bool) : ∀ v : SVal, v.need cr ≤ v.nesting
  | .some v => by have := need_le cr v; simp only [SVal.need, SVal.nesting]; omega
  | .newtypeStruct _ v => by have := need_le cr v; simp only [SVal.need, SVal.nesting]; omega
  | .newtypeVariant _ _ v => by have := need_le cr v; simp only [SVal.need, SVal.nesting]; omega
  | .seq _ vs => by simp only [SVal.need, SVal.nesting]; exact needAll_le cr vs
  | .tuple vs => by simp only [SVal.need, SVal.nesting]; exact needAll_le cr vs
  | .tupleStruct _ vs => by simp only [SVal.need, SVal.nesting]; exact needAll_le cr vs
  | .tupleVariant _ _ vs => by simp only [SVal.need, SVal.nesting]; exact needAll_le cr vs
  | .map _ kvs => by simp only [SVal.need, SVal.nesting]; exact needEntries_le cr kvs
  | .struct _ fs => by have := needFields_le cr fs; simp only [SVal.need, SVal.nesting]; split <;> omega
  | .structVariant _ _ fs => by simp only [SVal.need, SVal.nesting]; exact needFields_le cr fs
  | .raw _ => Nat.le_refl 1
  | .bool _ | .num _ | .char _ | .str _ | .bytes _ | .none | .unit | .unitStruct _ | .unitVariant _ _ => Nat.le_refl 0
theorem needAll_le (cr : Bool) : ∀ vs : List SVal, needAll cr vs ≤ nestingAll vs
  | [] => Nat.le_refl 0
  | v :: vs => by have := need_le cr v; have := needAll_le cr vs; simp only [needAll, nestingAll]; omega
theorem needEntries_le (cr : Bool) : ∀ kvs : List (SVal × SVal), needEntries cr kvs ≤ nestingEntries kvs
  | [] => Nat.le_refl 0
  | (k, v) :: kvs => by
    have := need_le cr k; have := need_le cr v; have := needEntries_le cr kvs; simp only [needEntries, nestingEntries]; omega
theorem needFields_le (cr : Bool) : ∀ fs : List (Text × SVal), needFields cr fs ≤ nestingFields fs
  | [] => Nat.le_refl 0
  | (_, v) :: fs => by have := need_le cr v; have := needFields_le cr fs; simp only [needFields, nestingFields]; omega
end

mutual
theorem front_le (cr : Bool) : ∀ v : SVal, v.front cr ≤ v.need cr
  | .some v => by have := front_le cr v; simp only [SVal.need, SVal.front]; omega
  | .newtypeStruct _ v => by have := front_le cr v; simp only [SVal.need, SVal.front]; omega
  | .newtypeVariant _ _ v => by have := front_le cr v; simp only [SVal.need, SVal.front]; omega
  | .seq _ vs => by simp only [SVal.need, SVal.front]; exact frontAll_le cr vs
  | .tuple vs => by simp only [SVal.need, SVal.front]; exact frontAll_le cr vs
  | .tupleStruct _ vs => by simp only [SVal.need, SVal.front]; exact frontAll_le cr vs
  | .tupleVariant _ _ vs => by simp only [SVal.need, SVal.front]; exact frontAll_le cr vs
  | .map _ kvs => by simp only [SVal.need, SVal.front]; exact frontEntries_le cr kvs
  | .struct _ fs => by have := frontFields_le cr fs; simp only [SVal.need, SVal.front]; split <;> omega
  | .structVariant _ _ fs => by simp only [SVal.need, SVal.front]; exact frontFields_le cr fs
  | .raw _ => Nat.le_refl 1
  | .bool _ | .num _ | .char _ | .str _ | .bytes _ | .none | .unit | .unitStruct _ | .unitVariant _ _ => Nat.le_refl 0
theorem frontAll_le (cr : Bool) : ∀ vs : List SVal, frontAll cr vs ≤ needAll cr vs
  | [] => Nat.le_refl 0
  | v :: vs => by have := front_le cr v; have := frontAll_le cr vs; simp only [needAll, frontAll]; split <;> omega
theorem frontEntries_le (cr : Bool) : ∀ kvs : List (SVal × SVal), frontEntries cr kvs ≤ needEntries cr kvs
  | [] => Nat.le_refl 0
  | (k, v) :: kvs => by
    have := front_le cr k; have := front_le cr v; have := frontEntries_le cr kvs
    simp only [needEntries, frontEntries]
    split
    · split <;> omega
    · omega
theorem frontFields_le (cr : Bool) : ∀ fs : List (Text × SVal), frontFields cr fs ≤ needFields cr fs
  | [] => Nat.le_refl 0
  | (_, v) :: fs => by have := front_le cr v; have := frontFields_le cr fs; simp only [needFields, frontFields]; split <;> omega
end

end Ron
