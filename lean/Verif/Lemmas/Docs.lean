import Verif.Lemmas.SerRange
import Verif.Spec.Docs
import Verif.Lemmas.Walk
import Verif.Lemmas.SerRend
import Verif.Lemmas.SerOk
/-! Field metadata only adds documentation lines. -/

set_option linter.unusedSimpArgs false
set_option linter.unusedSectionVars false

namespace Ron

/-- Two serializers at the same point, the first one with metadata `m`, which has written the lines `ls` in addition. -/
structure Twin (c : PrettyConfig) (m : Option MetaField) (ls : List Text) (s t : Ser) : Prop where
  quiet : s.Quiet
  conf : ∃ i, s.pretty = some ({ c with pathMeta := m }, i)
  same : ∃ o, Commented c.indentor ls o s.w.out ∧ t = { s with w := { s.w with out := o }, pretty := withMeta none s.pretty }

/-- Both runs end in the same way. -/
def Both {α : Type} (c : PrettyConfig) (m : Option MetaField) (ls : List Text) : WRes α → WRes α → Prop
  | .ok a s, .ok b t => a = b ∧ Twin c m ls s t
  | .err e _, .err e' _ => e = e'
  | _, _ => False

/-- The action does the same with and without metadata, apart from the documentation lines `d`. -/
def Sim {α : Type} (c : PrettyConfig) (m : Option MetaField) (d : List Text) (f : W α) : Prop :=
  ∀ ls s t, Twin c m ls s t → Both c m (ls ++ d) (f s) (f t)

section
variable {c : PrettyConfig} {m : Option MetaField}

theorem Both.ok_inv {α : Type} {ls : List Text} {r r' : WRes α} (h : Both c m ls r r') :
    (∃ a s t, r = .ok a s ∧ r' = .ok a t ∧ Twin c m ls s t) ∨ ∃ e s t, r = .err e s ∧ r' = .err e t := by
  cases r <;> cases r'
  · obtain ⟨rfl, h⟩ := h; exact .inl ⟨_, _, _, rfl, rfl, h⟩
  · cases h
  · cases h
  · cases h; exact .inr ⟨_, _, _, rfl, rfl⟩

theorem Both.next {α β : Type} {m2 : Option MetaField} {ls ls' : List Text} {f1 f2 : W α} {g1 g2 : α → W β} {s t : Ser}
    (h : Both c m ls (f1 s) (f2 t)) (hg : ∀ a s' t', Twin c m ls s' t' → Both c m2 ls' (g1 a s') (g2 a t')) :
    Both c m2 ls' ((f1 >>= g1) s) ((f2 >>= g2) t) := by
  rcases h.ok_inv with ⟨a, s1, t1, e1, e2, h1⟩ | ⟨e, s1, t1, e1, e2⟩
  · rw [wbind_apply, wbind_apply, e1, e2]
    exact hg _ _ _ h1
  · rw [wbind_apply, wbind_apply, e1, e2]
    rfl

theorem Sim.pure {α : Type} (a : α) : Sim c m [] (Pure.pure a : W α) := fun ls s t h => by
  rw [List.append_nil]; exact ⟨rfl, h⟩

theorem Sim.bind {α β : Type} {d d' : List Text} {f : W α} {g : α → W β} (hf : Sim c m d f) (hg : ∀ a, Sim c m d' (g a)) :
    Sim c m (d ++ d') (f >>= g) := by
  intro ls s t h
  rcases (hf ls s t h).ok_inv with ⟨a, s1, t1, e1, e2, h1⟩ | ⟨e, s1, t1, e1, e2⟩
  · rw [wbind_apply, wbind_apply, e1, e2, ← List.append_assoc]
    exact hg a _ _ _ h1
  · rw [wbind_apply, wbind_apply, e1, e2]
    rfl

theorem Sim.bindP {α β : Type} {d d' : List Text} {f : W α} {g : α → W β} {Q : α → Prop} (hf : Sim c m d f)
    (hp : ∀ s a s', f s = .ok a s' → Q a) (hg : ∀ a, Q a → Sim c m d' (g a)) : Sim c m (d ++ d') (f >>= g) := by
  intro ls s t h
  rcases (hf ls s t h).ok_inv with ⟨a, s1, t1, e1, e2, h1⟩ | ⟨e, s1, t1, e1, e2⟩
  · rw [wbind_apply, wbind_apply, e1, e2, ← List.append_assoc]
    exact hg a (hp _ _ _ e1) _ _ _ h1
  · rw [wbind_apply, wbind_apply, e1, e2]
    rfl

theorem Sim.ext {α : Type} {d d' : List Text} {f : W α} (h : Sim c m d f) (e : d = d') : Sim c m d' f := e ▸ h

theorem Sim.congr {α : Type} {d : List Text} {f f' : W α}
    (h : ∀ s : Ser, (∃ m' i, s.pretty = some ({ c with pathMeta := m' }, i)) → f s = f' s) (hf : Sim c m d f') : Sim c m d f := by
  intro ls s t ht
  have hs : f s = f' s := h s ⟨m, ht.conf⟩
  have htt : f t = f' t := by
    refine h t ⟨none, ?_⟩
    obtain ⟨i, hi⟩ := ht.conf
    obtain ⟨o, -, rfl⟩ := ht.same
    exact ⟨i, by simp [withMeta, hi]⟩
  rw [hs, htt]
  exact hf ls s t ht

theorem Sim.ite {α : Type} {b : Prop} [Decidable b] {d : List Text} {f g : W α} (hf : Sim c m d f) (hg : Sim c m d g) :
    Sim c m d (if b then f else g) := by split <;> assumption

theorem Sim.get {α : Type} {d : List Text} {g : Ser → W α} (h : Blind g) (hg : ∀ s, Sim c m d (g s)) : Sim c m d (wget >>= g) := by
  intro ls s t ht
  rw [wbind_apply, wbind_apply, wget_apply, wget_apply]
  show Both c m (ls ++ d) (g s s) (g t t)
  have e : g t = g s := by
    obtain ⟨o, -, rfl⟩ := ht.same
    exact h s _ s.limit none
  rw [e]
  exact hg s ls s t ht

/-- As `get`, keeping in mind that the settings are those of the configuration. -/
theorem Sim.getC {α : Type} {d : List Text} {g : Ser → W α} (h : Blind g)
    (hg : ∀ s, (∃ m' i, s.pretty = some ({ c with pathMeta := m' }, i)) → Sim c m d (g s)) : Sim c m d (wget >>= g) := by
  intro ls s t ht
  rw [wbind_apply, wbind_apply, wget_apply, wget_apply]
  show Both c m (ls ++ d) (g s s) (g t t)
  have e : g t = g s := by
    obtain ⟨o, -, rfl⟩ := ht.same
    exact h s _ s.limit none
  rw [e]
  exact hg s ⟨m, ht.conf⟩ ls s t ht

theorem Sim.write (t : Text) : Sim c m [] (Ron.write t) := by
  intro ls s u h
  obtain ⟨o, ho, rfl⟩ := h.same
  rw [List.append_nil, write_quiet h.quiet, write_quiet (s := { s with w := { s.w with out := o }, pretty := withMeta none s.pretty }) h.quiet]
  exact ⟨rfl, h.quiet, h.conf, o ++ t, ho.same t, rfl⟩

theorem Twin.limit {ls : List Text} {s t : Ser} (l : Option Nat) (h : Twin c m ls s t) :
    Twin c m ls { s with limit := l } { t with limit := l } := by
  obtain ⟨o, ho, rfl⟩ := h.same
  exact ⟨h.quiet, h.conf, o, ho, rfl⟩
theorem Twin.limits {ls : List Text} {s t : Ser} (h : Twin c m ls s t) : t.limit = s.limit := by
  obtain ⟨o, ho, rfl⟩ := h.same
  rfl

theorem Sim.drop {α : Type} {d : List Text} {f : W α} (h : Sim c m d f) : Sim c m d (dropCompound f) := by
  intro ls s t ht
  unfold dropCompound
  rcases (h ls s t ht).ok_inv with ⟨a, s1, t1, e1, e2, h1⟩ | ⟨e, s1, t1, e1, e2⟩
  · rw [e1, e2]
    simp only [h1.limits]
    exact ⟨rfl, h1.limit _⟩
  · rw [e1, e2]
    rfl

theorem Sim.enter : Sim c m [] guardEnter := by
  intro ls s t h
  unfold guardEnter
  rw [h.limits, List.append_nil]
  cases s.limit with
  | none => exact ⟨rfl, h⟩
  | some n => cases n with
    | zero => rfl
    | succ n => exact ⟨rfl, h.limit _⟩

theorem Sim.leave : Sim c m [] guardLeave := by
  intro ls s t h
  unfold guardLeave
  rw [wmod_apply, wmod_apply, h.limits, List.append_nil]
  exact ⟨rfl, h.limit _⟩

theorem Sim.guardQ {α : Type} {d : List Text} {f : W α} (h : Sim c m d f) : Sim c m d (guardQ f) :=
  (Sim.bind .enter fun _ => .bind h fun _ => .bind .leave fun _ => .pure _).ext (by simp)
theorem Sim.guardR {α : Type} {d : List Text} {f : W α} (h : Sim c m d f) : Sim c m d (guardR f) :=
  (Sim.bind .enter fun _ => h.drop).ext (by simp)

theorem sim_walk0 (c : PrettyConfig) (m : Option MetaField) : Walk0 @(fun α => @Sim α c m []) where
  pure := .pure
  fail e := fun ls s t h => rfl
  bind hf hg := hf.bind hg
  get := .get
  mod {f} hb hk := by
    intro ls s t h
    rw [List.append_nil, wmod_apply, wmod_apply]
    refine ⟨rfl, ?_⟩
    obtain ⟨o, ho, rfl⟩ := h.same
    have e := hb s { s.w with out := o } s.limit none
    obtain ⟨k1, k2, k3, k4⟩ := hk s
    refine ⟨?_, ?_, o, ?_, ?_⟩
    · unfold Ser.Quiet; rw [k1]; exact h.quiet
    · rw [k3]; exact h.conf
    · rw [k1]; exact ho
    · have e' : f { s with w := { s.w with out := o }, pretty := withMeta none s.pretty } =
          { f s with w := { s.w with out := o }, limit := s.limit, pretty := withMeta none s.pretty } := e
      rw [e', k1, k3, ← k2]
  write := .write
  guardQ := .guardQ
  guardR := .guardR

theorem Sim.startIndent : Sim c m [] startIndent := by
  intro ls s t h
  obtain ⟨i, hi⟩ := h.conf
  obtain ⟨o, ho, rfl⟩ := h.same
  unfold Ron.startIndent
  simp only [wbind_apply, wget_apply, hi, withMeta, Option.map_some, wmod_apply]
  have hT : Twin c m ls { s with pretty := some ({ c with pathMeta := m }, i + 1) }
      { s with w := { s.w with out := o }, pretty := some ({ c with pathMeta := none }, i + 1) } :=
    ⟨h.quiet, ⟨i + 1, rfl⟩, o, ho, rfl⟩
  exact (sim_walk0 c m).ite ((sim_walk0 c m).write _) ((sim_walk0 c m).pure ()) _ _ _ hT

theorem Sim.endIndent : Sim c m [] endIndent := by
  intro ls s t h
  obtain ⟨i, hi⟩ := h.conf
  have ht : t.pretty = some ({ c with pathMeta := none }, i) := by
    obtain ⟨o, ho, rfl⟩ := h.same
    simp [withMeta, hi]
  have he : t.isEmpty = s.isEmpty := by
    obtain ⟨o, ho, rfl⟩ := h.same
    rfl
  unfold Ron.endIndent
  simp only [ite_seq]
  rw [wbind_apply, wget_apply, wbind_apply, wget_apply]
  simp only [hi, ht, he]
  rw [wbind_apply, wbind_apply]
  have key := (sim_walk0 c m).ite (c := (decide (i ≤ c.depthLimit) && !s.isEmpty.getD false) = true)
    ((sim_walk0 c m).writeAll (List.replicate (i - 1) c.indentor)) ((sim_walk0 c m).pure ()) ls s t h
  rw [List.append_nil] at key ⊢
  rcases key.ok_inv with ⟨a, s1, t1, e1, e2, h1⟩ | ⟨e, s1, t1, e1, e2⟩
  · rw [e1, e2]
    obtain ⟨o, ho, rfl⟩ := h1.same
    exact ⟨rfl, h1.quiet, ⟨i - 1, rfl⟩, o, ho, rfl⟩
  · rw [e1, e2]
    rfl

theorem sim_walk1 (c : PrettyConfig) (m : Option MetaField) : Walk1 @(fun α => @Sim α c m []) where
  toWalk0 := sim_walk0 c m
  startIndent := .startIndent
  endIndent := .endIndent
  drop := .drop

/-! ### Fields -/

theorem Sim.docLines : ∀ (ls : List Text), (∀ l ∈ ls, '\n' ∉ l) → ∀ ms s t, Twin c m ms s t →
    ∃ s', docLines ls s = .ok () s' ∧ Twin c m (ms ++ ls) s' t
  | [], _, ms, s, t, h => ⟨s, rfl, by simpa using h⟩
  | l :: ls, hl, ms, s, t, h => by
    obtain ⟨i, hi⟩ := h.conf
    have hind : ∃ k, ∀ s : Ser, s.Quiet → s.pretty = some ({ c with pathMeta := m }, i) →
        indent s = .ok () (s.put (List.replicate k c.indentor).flatten) := by
      by_cases hd : i ≤ c.depthLimit
      · refine ⟨i, fun s hq hp => ?_⟩
        unfold indent
        rw [wbind_apply, wget_apply]
        simp only [hp, hd, if_true]
        exact writeAll_quiet hq _
      · refine ⟨0, fun s hq hp => ?_⟩
        unfold indent
        rw [wbind_apply, wget_apply]
        simp only [hp, hd, if_false]
        simp
    obtain ⟨k, hk⟩ := hind
    obtain ⟨o, ho, rfl⟩ := h.same
    have q := h.quiet
    have e : Ron.docLines (l :: ls) s = Ron.docLines ls (s.put (c!"/// " ++ (l ++ (c!"\n" ++ (List.replicate k c.indentor).flatten)))) := by
      simp only [Ron.docLines]
      rw [wbind_apply, write_quiet q]
      simp only
      rw [wbind_apply, write_quiet (s := s.put c!"/// ") q]
      simp only
      rw [wbind_apply, write_quiet (s := (s.put c!"/// ").put l) q]
      simp only
      rw [wbind_apply, hk (((s.put c!"/// ").put l).put c!"\n") q hi]
      simp only [Ser.put_put, List.append_assoc]
    rw [e]
    have := Sim.docLines ls (fun x hx => hl x (List.mem_cons_of_mem _ hx)) (ms ++ [l])
      (s.put (c!"/// " ++ (l ++ (c!"\n" ++ (List.replicate k c.indentor).flatten)))) _
      ⟨q, ⟨i, hi⟩, o, ho.doc l k (hl l (by simp)), rfl⟩
    rw [List.append_assoc] at this
    exact this

/-- What is left of the metadata while a field is written. -/
def restoreOf (m : Option MetaField) (k : Text) : Option MetaField :=
  match m with
  | some f => match f.fields with
    | some fs => some (.mk f.doc (some (fun k' => if k' = k then none else fs k')))
    | none => some f
  | none => none

theorem takeMeta_eq (k : Text) {s : Ser} {i : Nat} (hi : s.pretty = some ({ c with pathMeta := m }, i)) :
    takeMeta k s = .ok (restoreOf m k) { s with pretty := some ({ c with pathMeta := childMeta m k }, i) } := by
  unfold takeMeta
  simp only [hi]
  cases m with
  | none => simp [childMeta, restoreOf, ← hi]
  | some f =>
    simp only
    cases hf : f.fields with
    | none => simp [childMeta, restoreOf, hf]
    | some fs => simp [childMeta, restoreOf, hf]

theorem restoreMeta_eq (k : Text) {s : Ser} {i : Nat} (hi : s.pretty = some ({ c with pathMeta := childMeta m k }, i)) :
    restoreMeta k (restoreOf m k) s = .ok () { s with pretty := some ({ c with pathMeta := m }, i) } := by
  obtain ⟨r, s', e1, e2, e3, e4, e5, e6⟩ := takeMeta_good k { s with pretty := some ({ c with pathMeta := m }, i) }
  rw [takeMeta_eq k rfl] at e1
  simp only [WRes.ok.injEq] at e1
  obtain ⟨rfl, rfl⟩ := e1
  exact e6 s hi

/-- The state in which the value of a field is written. -/
theorem Twin.child {ls : List Text} {s t : Ser} (h : Twin c m ls s t) (k : Text) : ∃ r s', takeMeta k s = .ok r s' ∧
    takeMeta k t = .ok none t ∧ Twin c (childMeta m k) ls s' t ∧
    ∀ ms s2 t2, Twin c (childMeta m k) ms s2 t2 → ∃ s3, restoreMeta k r s2 = .ok () s3 ∧ restoreMeta k none t2 = .ok () t2 ∧ Twin c m ms s3 t2 := by
  obtain ⟨i, hi⟩ := h.conf
  have h2 : ∀ ms s2 t2, Twin c (childMeta m k) ms s2 t2 → restoreMeta k none t2 = .ok () t2 := by
    intro ms s2 t2 h2
    obtain ⟨j, hj⟩ := h2.conf
    obtain ⟨o, ho, rfl⟩ := h2.same
    simp only [restoreMeta, wmod_apply, hj, withMeta, Option.map_some]
  refine ⟨_, _, takeMeta_eq k hi, ?_, ?_, fun ms s2 t2 h3 => ?_⟩
  · obtain ⟨o, ho, rfl⟩ := h.same
    simp only [takeMeta, hi, withMeta, Option.map_some]
  · obtain ⟨o, ho, rfl⟩ := h.same
    exact ⟨h.quiet, ⟨i, rfl⟩, o, ho, by simp [withMeta, hi]⟩
  · obtain ⟨j, hj⟩ := h3.conf
    refine ⟨_, restoreMeta_eq k hj, h2 _ _ _ h3, ?_⟩
    obtain ⟨o, ho, rfl⟩ := h3.same
    exact ⟨h3.quiet, ⟨j, rfl⟩, o, ho, by simp [withMeta, hj]⟩

variable [Env]

theorem Sim.fieldPlain {d : List Text} (comp : Comp) (k : Text) {f : W Unit} (h : Sim c (childMeta m k) d f) :
    Sim c m ((if c.compactStructs then [] else docOf (childMeta m k)) ++ d) (fieldPlain comp k f) := by
  intro ls s t ht
  obtain ⟨r, s', e1, e2, h1, h2⟩ := ht.child k
  unfold Ron.fieldPlain
  simp only [ite_seq, ite_seq2]
  rw [wbind_apply, wbind_apply, e1, e2]
  simp only
  rw [wbind_apply, wbind_apply, wget_apply, wget_apply]
  simp only
  generalize hm : childMeta m k = m' at *
  obtain ⟨i, hi⟩ := h1.conf
  have hti : t.pretty = some ({ c with pathMeta := none }, i) := by
    obtain ⟨o, ho, rfl⟩ := h1.same
    simp [withMeta, hi]
  have K := sim_walk0 c m'
  have cs : s'.compactStructs = c.compactStructs := by simp [Ser.compactStructs, hi]
  have ct : t.compactStructs = c.compactStructs := by simp [Ser.compactStructs, hti]
  have colS : Ron.colonSep s'.pretty = Ron.colonSep t.pretty := by simp [Ron.colonSep, hi, hti]
  rw [cs, ct, colS]
  -- the separator
  have k1 : Sim c m' [] (if comp.rest = true then betweenSep c.compactStructs else Pure.pure () : W Unit) := K.ite (K.between _) (K.pure _)
  have k1 := k1 ls s' t h1
  rw [List.append_nil] at k1
  refine k1.next fun _ s3 t3 h3 => ?_
  -- the documentation
  have k2 : Both c m' (ls ++ (if c.compactStructs then [] else docOf m'))
      ((if (!c.compactStructs) = true then Ron.fieldLead s'.pretty else Pure.pure () : W Unit) s3)
      ((if (!c.compactStructs) = true then Ron.fieldLead t.pretty else Pure.pure () : W Unit) t3) := by
    cases hc : c.compactStructs with
    | true => simp only [Bool.not_true, Bool.false_eq_true, if_false, if_true, List.append_nil]; exact ⟨rfl, h3⟩
    | false =>
      simp only [Bool.not_false, if_true, Bool.false_eq_true, if_false]
      unfold Ron.fieldLead
      have k := K.indent ls s3 t3 h3
      rw [List.append_nil] at k
      refine k.next fun _ s4 t4 h4 => ?_
      simp only [hi, hti]
      cases m' with
      | none => simp only [docOf, List.append_nil]; exact ⟨rfl, h4⟩
      | some g =>
        simp only [docOf]
        obtain ⟨s5, e5, h5⟩ := Sim.docLines (splitLines g.doc []) (splitLines_noNewline _ _ (by simp)) ls s4 t4 h4
        rw [e5]
        exact ⟨rfl, h5⟩
  refine k2.next fun _ s4 t4 h4 => ?_
  have k3 := K.ident k _ _ _ h4
  rw [List.append_nil] at k3
  refine k3.next fun _ s5 t5 h5 => ?_
  have k4 := K.write c!":" _ _ _ h5
  rw [List.append_nil] at k4
  refine k4.next fun _ s6 t6 h6 => ?_
  have k5 := K.colonSep t.pretty _ _ _ h6
  rw [List.append_nil] at k5
  refine k5.next fun _ s7 t7 h7 => ?_
  have k6 := h.guardQ _ _ _ h7
  refine k6.next fun _ s8 t8 h8 => ?_
  obtain ⟨s9, e9, e10, h9⟩ := h2 _ _ _ h8
  rw [wbind_apply, wbind_apply, e9, e10]
  rw [List.append_assoc] at h9
  exact ⟨rfl, h9⟩

theorem Sim.replay (comp : Comp) (b : Option (Text × Number)) :
    Sim c m (match b with | some (k, _) => (if c.compactStructs then [] else docOf (childMeta m k)) | none => []) (replayField comp b) := by
  cases b with
  | none => exact .pure _
  | some b => exact (Sim.fieldPlain comp b.1 ((sim_walk0 c _).serNumber b.2)).ext (by simp)

/-- The struct is written in full, or it is about to be. -/
def Comp.Full (comp : Comp) : Prop := comp.range = none ∨ ∃ r, comp.range = some r ∧ r.fallback = true

theorem Sim.rangeFallback (comp : Comp) (r : RangeC) :
    Sim c m ((match r.first with | some (k, _) => (if c.compactStructs then [] else docOf (childMeta m k)) | none => []) ++
      (match r.second with | some (k, _) => (if c.compactStructs then [] else docOf (childMeta m k)) | none => [])) (rangeFallback comp r) := by
  have K := sim_walk1 c m
  have : Sim c m ([] ++ ([] ++ ((match r.first with | some (k, _) => (if c.compactStructs then [] else docOf (childMeta m k)) | none => []) ++
      (match r.second with | some (k, _) => (if c.compactStructs then [] else docOf (childMeta m k)) | none => [])))) (Ron.rangeFallback comp r) := by
    refine .bind (K.write _) fun _ => .get (by blind) fun _ => ?_
    simp only [ite_seq3]
    exact .bind (K.ite (K.bind (K.mod (by blind) fun _ => ⟨rfl, rfl, rfl, rfl⟩) fun _ => K.startIndent) (K.pure _)) fun _ =>
      .bind (.replay _ _) fun _ => .replay _ _
  exact this.ext (by simp)

theorem rangeFallback_full {c c' : Comp} {r : RangeC} {s s' : Ser} (h : rangeFallback c r s = .ok c' s') : c'.Full := by
  unfold Ron.rangeFallback at h
  simp only [ite_seq3] at h
  obtain ⟨_, _, -, h⟩ := wbind_ok h
  obtain ⟨_, _, -, h⟩ := wbind_ok h
  obtain ⟨_, _, -, h⟩ := wbind_ok h
  obtain ⟨c1, _, h1, h⟩ := wbind_ok h
  have e1 := replayField_comp h1
  have e2 := replayField_comp h
  exact .inr ⟨_, e2.trans e1, rfl⟩

theorem fieldPlain_full {c c' : Comp} {k : Text} {f : W Unit} {s s' : Ser} (hc : c.Full) (h : fieldPlain c k f s = .ok c' s') : c'.Full := by
  rw [fieldPlain_comp h]; exact hc

theorem structField_full {comp : Comp} (h : comp.Full) (k : Text) (x : Option Number) (f : W Unit) :
    structField comp k x f = fieldPlain comp k f := by
  rcases h with h | ⟨r, h, h'⟩
  · simp [structField, h]
  · simp [structField, h, h']

theorem structVariantOpen_full {l : Nat} {name v : Text} {s s' : Ser} {c : Comp} (h : structVariantOpen name v l s = .ok c s') :
    c.Full := by
  unfold structVariantOpen at h
  obtain ⟨_, _, -, h⟩ := wbind_ok h
  obtain ⟨_, _, -, h⟩ := wbind_ok h
  obtain ⟨_, _, -, h⟩ := wbind_ok h
  obtain ⟨_, _, -, h⟩ := wbind_ok h
  obtain ⟨_, _, -, h⟩ := wbind_ok h
  rw [← (wpure_ok h).1]
  exact .inl rfl

theorem structOpenPlain_full {l : Nat} {name : Text} {s s' : Ser} {c : Comp} (h : structOpenPlain name l s = .ok c s') :
    c.Full := by
  exact .inl (structOpenPlain_comp h)

/-- The action on the data `v` adds the documentation of `v`. -/
abbrev SimV (c : PrettyConfig) (v : SVal) : Prop := ∀ m, Sim c m (docsOf c.compactStructs c.compactRanges m v) (ser v)

theorem sim_serSeq : ∀ (vs : List SVal), (∀ v ∈ vs, SimV c v) → ∀ comp,
    Sim c m (docsAll c.compactStructs c.compactRanges m vs) (serSeq comp vs)
  | [], _, comp => by unfold serSeq docsAll; exact .pure _
  | v :: vs, h, comp => by
    unfold serSeq docsAll
    refine .bind ?_ fun _ => sim_serSeq vs (fun u hu => h u (List.mem_cons_of_mem _ hu)) _
    have K := sim_walk0 c m
    have : Sim c m ([] ++ ([] ++ ([] ++ (docsOf c.compactStructs c.compactRanges m v ++ [])))) (seqElement comp (ser v)) := by
      refine .get (by blind) fun _ => ?_
      simp only [ite_seq, ite_seq2]
      exact .bind (K.ite (K.between _) (K.pure _)) fun _ => .bind (K.ite K.indent (K.pure _)) fun _ => .bind (K.elemIndex _ _) fun _ =>
        .bind (h v (by simp) m).guardQ fun _ => .pure _
    exact this.ext (by simp)

theorem sim_serTuple : ∀ (vs : List SVal), (∀ v ∈ vs, SimV c v) → ∀ comp,
    Sim c m (docsAll c.compactStructs c.compactRanges m vs) (serTuple comp vs)
  | [], _, comp => by unfold serTuple docsAll; exact .pure _
  | v :: vs, h, comp => by
    unfold serTuple docsAll
    refine .bind ?_ fun _ => sim_serTuple vs (fun u hu => h u (List.mem_cons_of_mem _ hu)) _
    have K := sim_walk0 c m
    have : Sim c m ([] ++ ([] ++ (docsOf c.compactStructs c.compactRanges m v ++ []))) (tupleElement comp (ser v)) := by
      refine .get (by blind) fun _ => ?_
      simp only [ite_seq, ite_seq2]
      exact .bind (K.ite (K.between _) (K.pure _)) fun _ => .bind (K.ite K.indent (K.pure _)) fun _ =>
        .bind (h v (by simp) m).guardQ fun _ => .pure _
    exact this.ext (by simp)

theorem sim_serMap : ∀ (kvs : List (SVal × SVal)), (∀ e ∈ kvs, SimV c e.1 ∧ SimV c e.2) → ∀ comp,
    Sim c m (docsEntries c.compactStructs c.compactRanges m kvs) (serMap comp kvs)
  | [], _, comp => by unfold serMap docsEntries; exact .pure _
  | (k, v) :: kvs, h, comp => by
    unfold serMap docsEntries
    rw [← List.append_assoc]
    refine .bind ?_ fun _ => sim_serMap kvs (fun u hu => h u (List.mem_cons_of_mem _ hu)) _
    have K := sim_walk0 c m
    obtain ⟨h1, h2⟩ := h (k, v) (by simp)
    have : Sim c m ([] ++ ([] ++ (docsOf c.compactStructs c.compactRanges m k ++ ([] ++ ([] ++
        (docsOf c.compactStructs c.compactRanges m v ++ [])))))) (mapEntry comp (ser k) (ser v)) := by
      refine .get (by blind) fun _ => ?_
      simp only [ite_seq, ite_seq2]
      exact .bind (K.ite (K.between _) (K.pure _)) fun _ => .bind (K.ite K.indent (K.pure _)) fun _ =>
        .bind (h1 m).guardR fun _ => .bind (K.write _) fun _ => .bind (K.colonSep _) fun _ =>
        .bind (h2 m).guardQ fun _ => .pure _
    exact this.ext (by simp)

theorem sim_serFields : ∀ (fs : List (Text × SVal)), (∀ e ∈ fs, SimV c e.2) → ∀ comp : Comp, comp.Full →
    Sim c m (docsFields c.compactStructs c.compactRanges m fs) (serFields comp fs)
  | [], _, comp, _ => by unfold serFields docsFields; exact .pure _
  | (k, v) :: fs, h, comp, hc => by
    unfold serFields docsFields
    rw [← List.append_assoc, structField_full hc]
    exact .bindP (.fieldPlain _ _ (h (k, v) (by simp) _)) (fun _ _ _ e => fieldPlain_full hc e) fun _ hc' =>
      sim_serFields fs (fun u hu => h u (List.mem_cons_of_mem _ hu)) _ hc'

/-- The documentation of a buffered field. -/
def heldDocs (c : PrettyConfig) (m : Option MetaField) : Option (Text × Number) → List Text
  | some (k, _) => if c.compactStructs then [] else docOf (childMeta m k)
  | none => []

/-- A field of a struct that is not going to be printed as a range. -/
theorem sim_toFull {comp : Comp} {r : RangeC} (k : Text) {v : SVal} (hv : SimV c v) {fs : List (Text × SVal)}
    (h : ∀ e ∈ fs, SimV c e.2) :
    Sim c m (heldDocs c m r.first ++ heldDocs c m r.second ++ docsFields c.compactStructs c.compactRanges m ((k, v) :: fs))
      (rangeFallback comp r >>= fun comp => fieldPlain comp k (ser v) >>= fun comp => serFields comp fs >>= structEnd) := by
  have : Sim c m (((match r.first with | some (k, _) => (if c.compactStructs then [] else docOf (childMeta m k)) | none => []) ++
      (match r.second with | some (k, _) => (if c.compactStructs then [] else docOf (childMeta m k)) | none => [])) ++
      (((if c.compactStructs then [] else docOf (childMeta m k)) ++ docsOf c.compactStructs c.compactRanges (childMeta m k) v) ++
      (docsFields c.compactStructs c.compactRanges m fs ++ [])))
      (rangeFallback comp r >>= fun comp => fieldPlain comp k (ser v) >>= fun comp => serFields comp fs >>= structEnd) :=
    .bindP (Q := Comp.Full) (.rangeFallback _ _) (fun _ _ _ e => rangeFallback_full e) fun _ hc =>
      .bindP (Q := Comp.Full) (.fieldPlain _ _ (hv _)) (fun _ _ _ e => fieldPlain_full hc e) fun _ hc =>
      .bind (sim_serFields fs h _ hc) fun _ => (sim_walk1 c m).structEnd _
  refine this.ext ?_
  cases r.first <;> cases r.second <;> simp [docsFields, heldDocs]

/-- A struct in the syntax of ranges. -/
theorem sim_range {name : Text} {kind : RangeKind} (fs : List (Text × SVal)) (h : ∀ e ∈ fs, SimV c e.2)
    (hk : rangeKindOf name fs.length = some kind) :
    Sim c m (if numericRange name fs then [] else docsFields c.compactStructs c.compactRanges m fs)
      (do
        let comp ← serFields { range := some { kind := kind } } fs
        structEnd comp) := by
  rcases rangeKindOf_one hk with ⟨hl, hn⟩ | ⟨hl, hn⟩
  · obtain ⟨k, v, k', v', rfl⟩ : ∃ k v k' v', fs = [(k, v), (k', v')] := by
      match fs, hl with
      | [(k, v), (k', v')], _ => exact ⟨k, v, k', v', rfl⟩
    have h1 := h (k, v) (by simp)
    have h2 := h (k', v') (by simp)
    rw [serFields, structField]
    cases hv : v.asNumber with
    | none =>
      have hnr : numericRange name [(k, v), (k', v')] = false := by
        unfold numericRange
        split <;> simp_all [SVal.asNumber]
      rw [hnr]
      simp only [Bool.false_eq_true, ↓reduceIte, wbind_assoc]
      exact sim_toFull k h1 (by simpa using h2)
    | some n =>
      obtain rfl := asNumber_inv hv
      by_cases hk1 : k = c!"start"
      · have e1 : k = RangeC.expectedKey { kind := kind } := by
          rcases hn with ⟨rfl, -⟩ | ⟨rfl, -⟩ <;> exact hk1
        simp only [Bool.false_eq_true, ↓reduceIte, wbind_assoc, ← e1, ne_eq, not_true_eq_false, decide_false, Option.isSome, Bool.false_and,
          Bool.or_false, Option.isNone, wpure_bind]
        rw [serFields, structField]
        cases hv' : v'.asNumber with
        | none =>
          have hnr : numericRange name [(k, .num n), (k', v')] = false := by
            unfold numericRange
            split <;> simp_all [SVal.asNumber]
          rw [hnr]
          simp only [Bool.false_eq_true, ↓reduceIte, wbind_assoc]
          exact (sim_toFull k' h2 (fs := []) (by simp)).ext (by simp [docsFields, docsOf, heldDocs])
        | some n' =>
          obtain rfl := asNumber_inv hv'
          have e3 : RangeC.maxFields { kind := kind, first := some (k, n) } = 2 := by
            rcases hn with ⟨rfl, -⟩ | ⟨rfl, -⟩ <;> rfl
          by_cases hk2 : k' = c!"end"
          · have e2 : k' = RangeC.expectedKey { kind := kind, first := some (k, n) } := by
              rcases hn with ⟨rfl, -⟩ | ⟨rfl, -⟩ <;> exact hk2
            have hnr : numericRange name [(k, .num n), (k', .num n')] = true := by
              rcases hn with ⟨-, rfl⟩ | ⟨-, rfl⟩ <;> simp [numericRange, hk1, hk2]
            rw [hnr]
            simp only [e3, Bool.false_eq_true, ↓reduceIte, wbind_assoc, ← e2, ne_eq, not_true_eq_false, decide_false, Option.isSome, Bool.true_and,
              Bool.or_false, Option.isNone, wpure_bind, serFields]
            exact (sim_walk1 c m).structEnd _
          · have e2 : ¬ k' = RangeC.expectedKey { kind := kind, first := some (k, n) } := by
              rcases hn with ⟨rfl, -⟩ | ⟨rfl, -⟩ <;> exact hk2
            have hnr : numericRange name [(k, .num n), (k', .num n')] = false := by
              simp [numericRange, hk2]
            rw [hnr]
            simp only [ne_eq, e2, not_false_eq_true, decide_true, Bool.true_or, Bool.false_eq_true, ↓reduceIte, wbind_assoc]
            exact (sim_toFull k' h2 (fs := []) (by simp)).ext (by simp [docsFields, docsOf, heldDocs])
      · have e1 : ¬ k = RangeC.expectedKey { kind := kind } := by
          rcases hn with ⟨rfl, -⟩ | ⟨rfl, -⟩ <;> exact hk1
        have hnr : numericRange name [(k, .num n), (k', v')] = false := by
          unfold numericRange
          split <;> simp_all
        rw [hnr]
        simp only [ne_eq, e1, not_false_eq_true, decide_true, Bool.true_or, Bool.false_eq_true, ↓reduceIte, wbind_assoc]
        exact sim_toFull k h1 (by simpa using h2)
  · obtain ⟨k, v, rfl⟩ : ∃ k v, fs = [(k, v)] := by
      match fs, hl with
      | [(k, v)], _ => exact ⟨k, v, rfl⟩
    have h1 := h (k, v) (by simp)
    rw [serFields, structField]
    cases hv : v.asNumber with
    | none =>
      have hnr : numericRange name [(k, v)] = false := by
        unfold numericRange
        split <;> simp_all [SVal.asNumber]
      rw [hnr]
      simp only [Bool.false_eq_true, ↓reduceIte, wbind_assoc]
      exact sim_toFull k h1 (by simp)
    | some n =>
      obtain rfl := asNumber_inv hv
      by_cases hk1 : k = RangeC.expectedKey { kind := kind }
      · have hnr : numericRange name [(k, .num n)] = true := by
          rcases hn with ⟨rfl, rfl⟩ | ⟨rfl, rfl⟩ | ⟨rfl, rfl⟩ <;> subst hk1 <;> rfl
        rw [hnr]
        simp only [Bool.false_eq_true, ↓reduceIte, wbind_assoc, ← hk1, ne_eq, not_true_eq_false, decide_false, Option.isSome, Bool.false_and,
          Bool.or_false, Option.isNone, wpure_bind, serFields]
        exact (sim_walk1 c m).structEnd _
      · have hnr : numericRange name [(k, .num n)] = false := by
          rcases hn with ⟨rfl, rfl⟩ | ⟨rfl, rfl⟩ | ⟨rfl, rfl⟩ <;> simpa [numericRange, RangeC.expectedKey] using hk1
        rw [hnr]
        simp only [ne_eq, hk1, not_false_eq_true, decide_true, Bool.true_or, Bool.false_eq_true, ↓reduceIte, wbind_assoc]
        exact sim_toFull k h1 (by simp)

mutual
theorem ser_sim (c : PrettyConfig) : ∀ v : SVal, SimV c v
  | .bool _ => fun m => by unfold ser docsOf; exact (sim_walk0 c m).write _
  | .num _ => fun m => by unfold ser docsOf; exact (sim_walk0 c m).serNumber _
  | .char _ => fun m => by unfold ser docsOf; exact (sim_walk0 c m).serChar _
  | .str _ => fun m => by unfold ser docsOf; exact (sim_walk0 c m).serStr _
  | .bytes _ => fun m => by unfold ser docsOf; exact (sim_walk0 c m).serBytes _
  | .none => fun m => by unfold ser docsOf; exact (sim_walk0 c m).serNone
  | .some v => fun m => by
    have K := sim_walk0 c m
    have ih := ser_sim c v m
    unfold ser docsOf
    refine Sim.get (d := docsOf c.compactStructs c.compactRanges m v) (by blind) fun _ => Sim.ite ?_ ?_
    · refine Sim.ext (Sim.bind (K.mod (by blind) fun _ => ⟨rfl, rfl, rfl, rfl⟩) fun _ => .bind ih.guardQ fun _ => K.mod (by blind) fun _ => ⟨rfl, rfl, rfl, rfl⟩) (?_ : _ = _); simp
    · refine Sim.ext (Sim.bind (K.mod (by blind) fun _ => ⟨rfl, rfl, rfl, rfl⟩) fun _ => .bind (K.write _) fun _ => .bind ih.guardQ fun _ =>
        .bind (K.write _) fun _ => K.mod (by blind) fun _ => ⟨rfl, rfl, rfl, rfl⟩) (?_ : _ = _); simp
  | .unit => fun m => by unfold ser docsOf; exact (sim_walk0 c m).serUnit
  | .unitStruct _ => fun m => by unfold ser docsOf; exact (sim_walk0 c m).serUnitStruct _
  | .unitVariant _ _ => fun m => by
    have K := sim_walk0 c m
    unfold ser docsOf; exact K.bind (K.validate _) fun _ => K.ident _
  | .newtypeStruct name v => fun m => by
    have K := sim_walk0 c m
    have ih := ser_sim c v m
    unfold ser docsOf
    unfold serNewtypeStruct
    simp only [ite_seq2]
    refine Sim.get (d := docsOf c.compactStructs c.compactRanges m v) (by blind) fun _ => Sim.ite ?_ ?_
    · refine Sim.ext (Sim.bind (K.mod (by blind) fun _ => ⟨rfl, rfl, rfl, rfl⟩) fun _ => .bind (K.validate _) fun _ => ih.guardR) (?_ : _ = _); simp
    · refine Sim.ext (Sim.bind (K.ite (K.ident _) (K.validate _)) fun _ => .bind (K.mod (by blind) fun _ => ⟨rfl, rfl, rfl, rfl⟩) fun _ =>
        .bind (K.write _) fun _ => .bind ih.guardQ fun _ => K.write _) (?_ : _ = _); simp
  | .newtypeVariant name variant v => fun m => by
    have K := sim_walk0 c m
    have ih := ser_sim c v m
    unfold ser docsOf
    refine Sim.ext (Sim.bind (K.validate _) fun _ => .bind (K.ident _) fun _ => .bind (K.write _) fun _ =>
      .bind (K.mod (by blind) fun _ => ⟨rfl, rfl, rfl, rfl⟩) fun _ => .bind ih.guardQ fun _ =>
      .bind (K.mod (by blind) fun _ => ⟨rfl, rfl, rfl, rfl⟩) fun _ => K.write _) (?_ : _ = _); simp
  | .seq _ vs => fun m => by
    have K := sim_walk1 c m
    unfold ser docsOf
    refine Sim.ext (Sim.bind (K.seqOpen _) fun comp => .drop (.bind (sim_serSeq vs (all_sim c vs) _) fun _ => K.seqEnd _)) (?_ : _ = _); simp
  | .tuple vs => fun m => by
    have K := sim_walk1 c m
    unfold ser docsOf
    refine Sim.ext (Sim.bind (K.tupleOpen _) fun comp => .drop (.bind (sim_serTuple vs (all_sim c vs) _) fun _ => K.tupleEnd _)) (?_ : _ = _); simp
  | .tupleStruct _ vs => fun m => by
    have K := sim_walk1 c m
    unfold ser docsOf
    refine Sim.ext (Sim.bind (K.structName _) fun _ => .bind (K.tupleOpen _) fun comp =>
      .drop (.bind (sim_serTuple vs (all_sim c vs) _) fun _ => K.tupleEnd _)) (?_ : _ = _); simp
  | .tupleVariant _ _ vs => fun m => by
    have K := sim_walk1 c m
    unfold ser docsOf
    refine Sim.ext (Sim.bind (K.tupleVariantOpen _ _ _) fun comp => .drop (.bind (sim_serTuple vs (all_sim c vs) _) fun _ => K.tupleEnd _)) (?_ : _ = _); simp
  | .map _ kvs => fun m => by
    have K := sim_walk1 c m
    unfold ser docsOf
    refine Sim.ext (Sim.bind (K.mapOpen _) fun comp => .drop (.bind (sim_serMap kvs (entries_sim c kvs) _) fun _ => K.mapEnd _)) (?_ : _ = _); simp
  | .struct name fs => fun m => by
    have K := sim_walk1 c m
    have ih := fields_sim c fs
    unfold ser docsOf
    by_cases hr : c.compactRanges = true ∧ ∃ kind, rangeKindOf name fs.length = some kind
    · obtain ⟨h1, kind, h2⟩ := hr
      have : Sim c m ([] ++ if numericRange name fs then [] else docsFields c.compactStructs c.compactRanges m fs)
          (do
            wmod fun s => { s with nv := false, isd := 0 }
            dropCompound (do
              let c ← serFields { range := some { kind := kind } } fs
              structEnd c)) :=
        .bind (K.mod (by blind) fun _ => ⟨rfl, rfl, rfl, rfl⟩) fun _ => .drop (sim_range fs ih h2)
      refine Sim.congr ?_ (this.ext ?_)
      · intro s hs
        have : s.compactRanges = true := by
          obtain ⟨m', i, hs⟩ := hs
          simp [Ser.compactRanges, hs, h1]
        rw [wbind_apply, structOpen, wbind_apply, wget_apply]
        simp only [this, h2]
        rfl
      · simp [h1]
    · refine Sim.congr (f' := (do
            let c ← structOpenPlain name fs.length
            dropCompound (do
              let c ← serFields c fs
              structEnd c))) ?_ ?_
      · intro s hs
        have hc : s.compactRanges = c.compactRanges := by
          obtain ⟨m', i, hs⟩ := hs
          simp [Ser.compactRanges, hs]
        rw [wbind_apply, structOpen, wbind_apply, wget_apply]
        simp only [hc]
        cases h1 : c.compactRanges
        · rfl
        · cases h2 : rangeKindOf name fs.length
          · rfl
          · exact absurd ⟨h1, _, h2⟩ hr
      · have hd : (if (c.compactRanges && numericRange name fs) = true then [] else docsFields c.compactStructs c.compactRanges m fs) =
            docsFields c.compactStructs c.compactRanges m fs := by
          rw [if_neg]
          intro h
          rw [Bool.and_eq_true] at h
          exact hr ⟨h.1, numericRange_kind h.2⟩
        rw [hd]
        refine Sim.ext (Sim.bindP (Q := Comp.Full) (K.structOpenPlain _ _) (fun _ _ _ e => structOpenPlain_full e) fun comp hc =>
          .drop (.bind (sim_serFields fs ih _ hc) fun _ => K.structEnd _)) (?_ : _ = _); simp
  | .structVariant _ _ fs => fun m => by
    have K := sim_walk1 c m
    unfold ser docsOf
    refine Sim.ext (Sim.bindP (Q := Comp.Full) (K.structVariantOpen _ _ _) (fun _ _ _ e => structVariantOpen_full e) fun comp hc =>
      .drop (.bind (sim_serFields fs (fields_sim c fs) _ hc) fun _ => K.structEnd _)) (?_ : _ = _); simp
  | .raw _ => fun m => by unfold ser docsOf; exact (sim_walk0 c m).serRaw _
theorem all_sim (c : PrettyConfig) : ∀ vs : List SVal, ∀ v ∈ vs, SimV c v
  | [] => by intro _ h; cases h
  | v :: vs => List.forall_mem_cons.mpr ⟨ser_sim c v, all_sim c vs⟩
theorem entries_sim (c : PrettyConfig) : ∀ kvs : List (SVal × SVal), ∀ e ∈ kvs, SimV c e.1 ∧ SimV c e.2
  | [] => by intro _ h; cases h
  | (k, v) :: kvs => List.forall_mem_cons.mpr ⟨⟨ser_sim c k, ser_sim c v⟩, entries_sim c kvs⟩
theorem fields_sim (c : PrettyConfig) : ∀ fs : List (Text × SVal), ∀ e ∈ fs, SimV c e.2
  | [] => by intro _ h; cases h
  | (k, v) :: fs => List.forall_mem_cons.mpr ⟨ser_sim c v, fields_sim c fs⟩
end

end

end Ron
