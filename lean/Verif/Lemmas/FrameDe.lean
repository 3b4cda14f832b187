import Verif.Lemmas.DeWalk
/-!
The deserializer does not look at the text before the cursor either, except for raw values (which return it).
-/

set_option linter.unusedSimpArgs false

namespace Ron

section
variable {α β : Type} {R : α → β → Prop}

theorem Eqv.down {s s' : St} (h : Eqv SL s s') : Eqv SL { s with limit := s.limit.map (· - 1) } { s' with limit := s'.limit.map (· - 1) } :=
  ⟨h.rest, h.nv, ⟨by show Option.map _ _ = Option.map _ _; rw [h.limit], h.exts⟩, h.lastIdent⟩
theorem Eqv.up {s s' : St} (h : Eqv SL s s') : Eqv SL { s with limit := s.limit.map (· + 1) } { s' with limit := s'.limit.map (· + 1) } :=
  ⟨h.rest, h.nv, ⟨by show Option.map _ _ = Option.map _ _; rw [h.limit], h.exts⟩, h.lastIdent⟩

theorem Rel.guardQ {f : P α} {f' : P β} (h : Rel SL R f f') : Rel SL R (deGuardQ f) (deGuardQ f') := by
  intro s s' hs
  have hf := h _ _ hs.down
  unfold deGuardQ
  have hl := hs.limit
  generalize e : s.limit = l at hl
  subst hl
  rw [e] at hf
  revert hf
  cases s'.limit with
  | none =>
    simp only
    cases f { s with limit := Option.map (· - 1) none } <;> cases f' { s' with limit := Option.map (· - 1) none } <;> intro hf
    · exact ⟨hf.1, hf.2.up⟩
    · exact hf.elim
    · exact hf.elim
    · exact hf
  | some n =>
    cases n with
    | zero => exact fun _ => ⟨rfl, hs⟩
    | succ n =>
      simp only
      cases f { s with limit := Option.map (· - 1) (some (n + 1)) } <;> cases f' { s' with limit := Option.map (· - 1) (some (n + 1)) } <;> intro hf
      · exact ⟨hf.1, hf.2.up⟩
      · exact hf.elim
      · exact hf.elim
      · exact hf

theorem Rel.guardR {f : P α} {f' : P β} (h : Rel SL R f f') : Rel SL R (deGuardR f) (deGuardR f') := by
  intro s s' hs
  have hf := h _ _ hs.down
  unfold deGuardR
  have hl := hs.limit
  generalize e : s.limit = l at hl
  subst hl
  rw [e] at hf
  revert hf
  cases s'.limit with
  | none =>
    simp only
    cases f { s with limit := Option.map (· - 1) none } <;> cases f' { s' with limit := Option.map (· - 1) none } <;> intro hf
    · exact ⟨hf.1, hf.2.up⟩
    · exact hf.elim
    · exact hf.elim
    · exact ⟨hf.1, hf.2.up⟩
  | some n =>
    cases n with
    | zero => exact fun _ => ⟨rfl, hs⟩
    | succ n =>
      simp only
      cases f { s with limit := Option.map (· - 1) (some (n + 1)) } <;> cases f' { s' with limit := Option.map (· - 1) (some (n + 1)) } <;> intro hf
      · exact ⟨hf.1, hf.2.up⟩
      · exact hf.elim
      · exact hf.elim
      · exact ⟨hf.1, hf.2.up⟩
macro_rules | `(tactic| fr_step) => `(tactic| with_reducible refine Rel.guardQ ?_)
macro_rules | `(tactic| fr_step) => `(tactic| with_reducible refine Rel.guardR ?_)
end

theorem Fr.setNv (b : Bool) : Fr SL (setNv b) := Rel.modSt fun _ _ h => ⟨h.rest, rfl, ⟨h.limit, h.exts⟩, h.lastIdent⟩
macro_rules | `(tactic| fr_step) => `(tactic| with_reducible exact Fr.setNv _)
theorem Fr.setUnwrap : Fr SL (modSt fun s => { s with nv := s.exts.unwrapVariantNewtypes }) :=
  Rel.modSt fun _ _ h => ⟨h.rest, by simp [h.exts], ⟨h.limit, h.exts⟩, h.lastIdent⟩
macro_rules | `(tactic| fr_step) => `(tactic| with_reducible exact Fr.setUnwrap)
theorem Fr.setIdent (i : Text) : Fr SL (modSt fun s => { s with lastIdent := some i }) :=
  Rel.modSt fun _ _ h => ⟨h.rest, h.nv, ⟨h.limit, h.exts⟩, rfl⟩
macro_rules | `(tactic| fr_step) => `(tactic| with_reducible exact Fr.setIdent _)

/-- Not looking at the text before the cursor, as a property of programs. -/
instance : DeWalk @(fun α => @Fr α SL) where
  flat h := h SL
  bindOk {α β f g} hf hg := by
    intro s s' h
    have := hf s s' h
    show RelR SL Eq (P.bind f g s) (P.bind f g s')
    unfold P.bind
    generalize e : f s = r at this
    revert this
    cases r <;> cases f s' <;> intro hf
    · obtain ⟨rfl, ht⟩ := hf
      exact hg _ ⟨_, _, e⟩ _ _ ht
    · exact hf.elim
    · exact hf.elim
    · exact hf
  getSt hg h := Rel.getSt fun s s' e => by rw [hg s s' e.rest e.exts e.nv e.lastIdent]; exact h s'
  mapErr _ h := Rel.mapErr h
  guardQ h := Rel.guardQ h
  guardR h := Rel.guardR h
  setNv b := Rel.modSt fun s s' h => ⟨h.rest, rfl, ⟨h.limit, h.exts⟩, h.lastIdent⟩
  setUnwrap := Rel.modSt fun s s' h => ⟨h.rest, by simp [h.exts], ⟨h.limit, h.exts⟩, h.lastIdent⟩
  setIdent i := Rel.modSt fun s s' h => ⟨h.rest, h.nv, ⟨h.limit, h.exts⟩, rfl⟩
  setExts g := Rel.modSt fun s s' h => ⟨h.rest, h.nv, ⟨h.limit, by simp [h.exts]⟩, h.lastIdent⟩

variable [Env] {α : Type}

theorem Fr.deValue : Fr SL deValue := DW.deValue (Φ := @(fun α => @Fr α SL)) trivial
theorem Fr.deIgnored : Fr SL deIgnored := DW.deIgnored (Φ := @(fun α => @Fr α SL)) trivial
/-- Reading typed data does not depend on what precedes it. -/
theorem Fr.deTy {D : Nat → Ty} (hD : ∀ i, (D i).NoRaw) (f : Nat) (t : Ty) (ht : t.NoRaw) : Fr SL (deTy D f t) :=
  DW.deTy (Φ := @(fun α => @Fr α SL)) (fun h => h.elim) (fun i => Ty.RawIf.within _ (hD i)) f t (Ty.RawIf.within _ ht)
theorem Fr.attributes (f : Nat) : Fr SL (attributes f) := DW.attributes (Φ := @(fun α => @Fr α SL)) f
theorem Fr.deEnd : Fr SL deEnd := DW.deEnd (Φ := @(fun α => @Fr α SL))

/-- The same value or the same error. -/
def Same {α : Type} : Res α → Res α → Prop
  | .ok a s, .ok b s' => a = b ∧ Eqv SL s s'
  | .err e _, .err e' _ => e = e'
  | _, _ => False

omit [Env] in
theorem RelR.same {r r' : Res α} (h : RelR SL Eq r r') : Same r r' := by
  cases r <;> cases r' <;> first | exact h | exact h.1
omit [Env] in
theorem Same.bind {β : Type} {f f' : P α} {g g' : α → P β} {s s' : St} (hf : Same (f s) (f' s')) (hg : ∀ a, Rel SL Eq (g a) (g' a)) :
    Same ((f >>= g) s) ((f' >>= g') s') := by
  show Same (P.bind f g s) (P.bind f' g' s')
  unfold P.bind
  revert hf
  cases f s <;> cases f' s' <;> intro hf
  · obtain ⟨rfl, hf⟩ := hf
    exact (hg _ _ _ hf).same
  · exact hf.elim
  · exact hf.elim
  · exact hf

omit [Env] in
/-- Skipping layout forgets how much of it there was. -/
theorem skipWs_more {s s' : St} {l : Text} (hl : Layout l) (hr : s.rest = l ++ s'.rest) (he : s.exts = s'.exts) (hn : s.nv = s'.nv)
    (hm : s.limit = s'.limit) (hi : s.lastIdent = s'.lastIdent) : Same (skipWs s) (skipWs s') := by
  have k : ∀ {t t' : St}, Keeps s t → Keeps s' t' → t.rest = t'.rest → Eqv SL t t' := fun h h' hr =>
    ⟨hr, h.nv.trans (hn.trans h'.nv.symm), ⟨h.limit.trans (hm.trans h'.limit.symm), h.exts.trans (he.trans h'.exts.symm)⟩,
      h.lastIdent.trans (hi.trans h'.lastIdent.symm)⟩
  rcases skipWs_cases s' with ⟨l', r, e, hl', hr', s1, h1, h2, h3⟩ | ⟨l', u, e, hl', hu, s1, h1, h2, h3, -⟩ | ⟨l', u, e', e, hl', hu, ⟨s1, h1⟩⟩
  · obtain ⟨s2, g1, g2, g3⟩ := skipWs_ok (s := s) (l := l ++ l') (r := r) (by rw [hr, e, List.append_assoc]) (hl.append hl') hr'
    rw [g1, h1]
    exact ⟨rfl, k g3 h3 (g2.trans h2.symm)⟩
  · obtain ⟨s2, g1, g2, g3, -⟩ := skipWs_openLine (s := s) (l := l ++ l') (u := u) (by rw [hr, e, List.append_assoc]) (hl.append hl') hu
    rw [g1, h1]
    exact ⟨rfl, k g3 h3 (g2.trans h2.symm)⟩
  · obtain ⟨s2, g1⟩ := skipWs_error (s := s) (l := l ++ l') (u := u) (by rw [hr, e, List.append_assoc]) (hl.append hl') hu
    rw [g1, h1]
    exact rfl

/-- Opening a document forgets the layout before it. -/
theorem readDoc_more {o : Options} {f : P α} (hf : Fr SL f) {l t : Text} (hl : Layout l) :
    Same (readDoc o f (St.init (l ++ t))) (readDoc o f (St.init t)) := by
  refine Same.bind (f := deNew o) (f' := deNew o) ?_ fun _ => Rel.bindEq hf fun _ => Rel.bindEq Fr.deEnd fun _ => Rel.pure rfl
  let s0 : St := { St.init (l ++ t) with limit := o.recursionLimit }
  let s1 : St := { St.init t with limit := o.recursionLimit }
  have hm : Fr SL (modSt fun s => { s with exts := s.exts.union o.defaultExtensions }) :=
    Rel.modSt fun s s' h => ⟨h.rest, h.nv, ⟨h.limit, by simp [h.exts]⟩, h.lastIdent⟩
  refine Same.bind (f := parserNew) (f' := parserNew) (s := s0) (s' := s1) ?_ fun _ => hm
  refine Same.bind (f := skipWs) (f' := skipWs) (s := s0) (s' := s1) (skipWs_more hl rfl rfl rfl rfl rfl) fun _ => ?_
  refine Rel.getSt fun s s' h => ?_
  rw [h.rest]
  exact Fr.attributes _

end Ron
