import Verif.Spec.Compact
import Verif.Lemmas.SerRend
/-!
# Without a pretty configuration the serializer writes the compact form
-/
set_option linter.unusedSimpArgs false

namespace Ron

variable [Env]

theorem needsRaw_iff {n : Text} : needsRaw n = false ↔ PlainName n ∧ n ∉ reservedNames := by
  refine ⟨needsRaw_plain, fun ⟨⟨c, cs, e, h1, h2⟩, h3⟩ => ?_⟩
  subst e
  unfold needsRaw
  simp only [Bool.or_eq_false_iff, Bool.not_eq_false', List.all_eq_true]
  exact ⟨⟨h1, h2⟩, by simpa using h3⟩

theorem identText_compact (n : Text) : identText n = compactName n := by
  unfold identText compactName
  by_cases h : needsRaw n = false
  · rw [if_pos (needsRaw_iff.mp h), h]; rfl
  · rw [if_neg (fun h' => h (needsRaw_iff.mpr h')), if_pos (by simpa using h)]

/-- What serialization without a pretty configuration does. -/
structure Terse (s s' : Ser) (w : Text) : Prop where
  step : Step s s' w
  nv : s.nv = false → s'.nv = false
  isd : s.isd = 0 → s'.isd = 0

/-- A serializer without a pretty configuration. -/
structure Dry (x : Exts) (s : Ser) : Prop where
  quiet : s.Quiet
  pretty : s.pretty = none
  exts : s.extensions = x

omit [Env] in
theorem Dry.step {x : Exts} {s s' : Ser} (h : Dry x s) (hc : s'.core = s.core) : Dry x s' := by
  refine ⟨(core_fault hc).trans h.quiet, ?_, (core_extensions hc).trans h.exts⟩
  rcases core_pretty hc with ⟨-, h2⟩ | ⟨c, i, m, i', h1, -⟩
  · exact h2
  · rw [h.pretty] at h1; cases h1

omit [Env] in
theorem Dry.names {x : Exts} {s : Ser} (h : Dry x s) : s.structNames = x.explicitStructNames := by
  simp [Ser.structNames, h.pretty, h.exts]

/-- The state inside a compound: nothing pending. -/
structure Rest (x : Exts) (s : Ser) : Prop where
  dry : Dry x s
  nv : s.nv = false
  isd : s.isd = 0

omit [Env] in
theorem Terse.put (s : Ser) (w : Text) : Terse s (s.put w) w := ⟨.put s w, id, id⟩
omit [Env] in
theorem Terse.trans {a b c : Ser} {w u : Text} (h : Terse a b w) (g : Terse b c u) : Terse a c (w ++ u) :=
  ⟨h.step.trans g.step, fun e => g.nv (h.nv e), fun e => g.isd (h.isd e)⟩
omit [Env] in
theorem Rest.terse {x : Exts} {s s' : Ser} {w : Text} (h : Rest x s) (t : Terse s s' w) : Rest x s' :=
  ⟨h.dry.step t.step.core, t.nv h.nv, t.isd h.isd⟩

/-- Serializing `v` writes its compact form. -/
def Compacts (v : SVal) : Prop :=
  ∀ x s s', Dry x s → ser v s = .ok () s' → Terse s s' (compact x s.nv s.isd v)

theorem Compacts.guardQ {v : SVal} (h : Compacts v) {x : Exts} {s s' : Ser} (hd : Dry x s) (e : Ron.guardQ (ser v) s = .ok () s') :
    Terse s s' (compact x s.nv s.isd v) := by
  obtain ⟨m, m', s2, h2, rfl⟩ := guardQ_inv e
  have := h x _ s2 (hd.step (s' := { s with limit := m }) rfl) h2
  exact ⟨⟨this.step.out, this.step.core⟩, this.nv, this.isd⟩

theorem Compacts.guardR {v : SVal} (h : Compacts v) {x : Exts} {s s' : Ser} (hd : Dry x s) (e : Ron.guardR (ser v) s = .ok () s') :
    Terse s s' (compact x s.nv s.isd v) := by
  obtain ⟨m, m', s2, h2, rfl⟩ := guardR_inv e
  have := h x _ s2 (hd.step (s' := { s with limit := m }) rfl) h2
  exact ⟨⟨this.step.out, this.step.core⟩, this.nv, this.isd⟩

/-! ### Elements -/

/-- A comma unless it is the first. -/
def sep (rest : Bool) : Text := if rest then [','] else []

omit [Env] in
theorem dry_sep {x : Exts} {s : Ser} (h : Dry x s) (rest b : Bool) :
    (if rest then betweenSep b else pure ()) s = .ok () (s.put (sep rest)) := by
  cases rest with
  | false => simp [sep]
  | true =>
    unfold betweenSep
    simp only [↓reduceIte, wbind_apply, write_quiet h.quiet, wget_apply, Ser.put_pretty, h.pretty, wpure_apply, sep]

omit [Env] in
theorem dry_indent {x : Exts} {s : Ser} (h : Dry x s) : indent s = .ok () s := by
  unfold indent
  simp only [wbind_apply, wget_apply, h.pretty, wpure_apply]

omit [Env] in
theorem dry_indentIf {x : Exts} {s : Ser} (h : Dry x s) (b : Bool) : (if b then indent else pure ()) s = .ok () s := by
  cases b
  · simp
  · simpa using dry_indent h

theorem seqElement_compact {v : SVal} (h : Compacts v) {x : Exts} {c c' : Comp} {s s' : Ser} (hr : Rest x s)
    (e : seqElement c (ser v) s = .ok c' s') :
    c' = { c with rest := true } ∧ Terse s s' (sep c.rest ++ compact x false 0 v) := by
  have g1 := hr.terse (.put s (sep c.rest))
  unfold seqElement at e
  simp only [ite_seq] at e
  simp only [wbind_apply, wget_apply, dry_sep hr.dry, dry_indentIf g1.dry, hr.dry.pretty, elemIndex, wpure_apply] at e
  split at e
  · next u s2 hg =>
    obtain ⟨rfl, rfl⟩ := wpure_ok e
    have h3 := h.guardQ g1.dry hg
    rw [g1.nv, g1.isd] at h3
    exact ⟨rfl, (Terse.put _ _).trans h3⟩
  · cases e

theorem tupleElement_compact {v : SVal} (h : Compacts v) {x : Exts} {c c' : Comp} {s s' : Ser} (hr : Rest x s)
    (e : tupleElement c (ser v) s = .ok c' s') :
    c' = { c with rest := true } ∧ Terse s s' (sep c.rest ++ compact x false 0 v) := by
  have g1 := hr.terse (.put s (sep c.rest))
  unfold tupleElement at e
  simp only [ite_seq] at e
  simp only [wbind_apply, wget_apply, dry_sep hr.dry, dry_indentIf g1.dry] at e
  split at e
  · next u s2 hg =>
    obtain ⟨rfl, rfl⟩ := wpure_ok e
    have h3 := h.guardQ g1.dry hg
    rw [g1.nv, g1.isd] at h3
    exact ⟨rfl, (Terse.put _ _).trans h3⟩
  · cases e

theorem mapEntry_compact {k v : SVal} (hk : Compacts k) (hv : Compacts v) {x : Exts} {c c' : Comp} {s s' : Ser} (hr : Rest x s)
    (e : mapEntry c (ser k) (ser v) s = .ok c' s') :
    c' = { c with rest := true } ∧ Terse s s' (sep c.rest ++ (compact x false 0 k ++ ':' :: compact x false 0 v)) := by
  have g1 := hr.terse (.put s (sep c.rest))
  unfold mapEntry at e
  simp only [ite_seq] at e
  simp only [wbind_apply, wget_apply, dry_sep hr.dry, dry_indentIf g1.dry] at e
  split at e
  · next u s2 hg =>
    have h3 := hk.guardR g1.dry hg
    rw [g1.nv, g1.isd] at h3
    have g2 := g1.terse h3
    simp only [write_quiet g2.dry.quiet, hr.dry.pretty, colonSep, wpure_apply] at e
    have g3 := g2.terse (.put s2 c!":")
    split at e
    · next u s4 hg4 =>
      obtain ⟨rfl, rfl⟩ := wpure_ok e
      have h5 := hv.guardQ g3.dry hg4
      rw [g3.nv, g3.isd] at h5
      refine ⟨rfl, ?_⟩
      simpa using (Terse.put _ _).trans (h3.trans ((Terse.put s2 c!":").trans h5))
    · cases e
  · cases e

theorem fieldPlain_compact {key : Text} {v : SVal} (h : Compacts v) {x : Exts} {c c' : Comp} {s s' : Ser} (hr : Rest x s)
    (e : fieldPlain c key (ser v) s = .ok c' s') :
    c' = { c with rest := true } ∧ Terse s s' (sep c.rest ++ (compactName key ++ ':' :: compact x false 0 v)) := by
  have g1 := hr.terse (.put s (sep c.rest))
  have hm : takeMeta key s = .ok none s := by unfold takeMeta; rw [hr.dry.pretty]
  have hl : ∀ s1 : Ser, Dry x s1 → ∀ b : Bool, (if b then fieldLead none else pure () : W Unit) s1 = .ok () s1 := by
    intro s1 hs b
    cases b
    · simp
    · simp only [↓reduceIte, fieldLead, wbind_apply, dry_indent hs, wpure_apply]
  unfold fieldPlain at e
  simp only [ite_seq] at e
  simp only [wbind_apply, wget_apply, hm, dry_sep hr.dry, hr.dry.pretty, hl _ g1.dry] at e
  split at e
  · next u s2 hg =>
    obtain ⟨-, -, rfl⟩ := writeIdentifier_inv g1.dry.quiet hg
    have g2 := g1.terse (.put _ (identText key))
    have g3 := g2.terse (.put _ c!":")
    simp only [write_quiet g2.dry.quiet, colonSep, wpure_apply] at e
    split at e
    · next u s4 hg4 =>
      have h5 := h.guardQ g3.dry hg4
      rw [g3.nv, g3.isd] at h5
      have g4 := g3.terse h5
      have hrm : ∀ r, restoreMeta key r s4 = .ok () s4 := by
        intro r; unfold restoreMeta; simp only [wmod_apply, g4.dry.pretty]
      simp only [hrm] at e
      obtain ⟨rfl, rfl⟩ := wpure_ok e
      refine ⟨rfl, ?_⟩
      rw [← identText_compact]
      simpa using (Terse.put _ _).trans ((Terse.put _ _).trans ((Terse.put _ c!":").trans h5))
    · cases e
  · cases e

/-! ### Loops -/

/-- The text of the remaining items. -/
def tailItems : Bool → List Text → Text
  | _, [] => []
  | r, t :: ts => sep r ++ (t ++ tailItems true ts)

omit [Env] in
theorem tailItems_commas (ts : List Text) : tailItems false ts = commas ts := by
  have key : ∀ ts : List Text, ts ≠ [] → tailItems true ts = ',' :: commas ts := by
    intro ts
    induction ts with
    | nil => simp
    | cons t ts ih =>
      intro _
      cases ts with
      | nil => simp [tailItems, commas, sep]
      | cons u us =>
        have := ih (by simp)
        rw [tailItems, this]
        simp [sep, commas]
  cases ts with
  | nil => rfl
  | cons t ts =>
    cases ts with
    | nil => simp [tailItems, commas, sep]
    | cons u us => rw [tailItems, key _ (by simp)]; simp [sep, commas]

omit [Env] in
theorem foldW_compact {α : Type} {step : Comp → α → W Comp} {text : α → Text} {x : Exts} {vs : List α}
    (hstep : ∀ v ∈ vs, ∀ c s c' s', Rest x s → c.range = none → step c v s = .ok c' s' →
      c' = { c with rest := true, idx := c'.idx } ∧ Terse s s' (sep c.rest ++ text v)) :
    ∀ c s c' s', Rest x s → c.range = none → foldW step c vs s = .ok c' s' →
      c'.nv = c.nv ∧ c'.range = none ∧ Terse s s' (tailItems c.rest (vs.map text)) := by
  induction vs with
  | nil =>
    intro c s c' s' hr hc h
    obtain ⟨rfl, rfl⟩ := wpure_ok h
    exact ⟨rfl, hc, .refl _, id, id⟩
  | cons v vs ih =>
    intro c s c' s' hr hc h
    obtain ⟨c1, s1, h1, h⟩ := wbind_ok h
    obtain ⟨e1, t1⟩ := hstep v (by simp) c s c1 s1 hr hc h1
    obtain ⟨i1, i2, t2⟩ := ih (fun v hv => hstep v (by simp [hv])) c1 s1 c' s' (hr.terse t1) (by rw [e1]; exact hc) h
    refine ⟨by rw [i1, e1], i2, ?_⟩
    have : c1.rest = true := by rw [e1]
    rw [this] at t2
    simpa [tailItems] using t1.trans t2

/-! ### The end -/

omit [Env] in
theorem dry_trailing {x : Exts} {s : Ser} (h : Dry x s) (r b : Bool) : trailingComma r b s = .ok () s := by
  unfold trailingComma
  simp only [wbind_apply, wget_apply, h.pretty]
  cases r <;> rfl

omit [Env] in
theorem dry_endIndent {x : Exts} {s : Ser} (h : Dry x s) (b : Bool) : (if b then endIndent else pure ()) s = .ok () s := by
  cases b
  · simp
  · unfold endIndent
    simp only [↓reduceIte, wbind_apply, wget_apply, h.pretty, wpure_apply]

omit [Env] in
theorem dry_close {x : Exts} {s : Ser} (h : Dry x s) (b : Bool) (t : Text) :
    (if !b then write t else pure ()) s = .ok () (s.put (if b then [] else t)) := by
  cases b
  · simpa using write_quiet h.quiet t
  · simp

omit [Env] in
theorem seqEnd_compact {x : Exts} {s : Ser} (h : Dry x s) (c : Comp) : seqEnd c s = .ok () (s.put c!"]") := by
  unfold seqEnd
  simp only [ite_seq]
  simp only [wbind_apply, wget_apply, dry_trailing h, dry_endIndent h, write_quiet h.quiet]

omit [Env] in
theorem mapEnd_compact {x : Exts} {s : Ser} (h : Dry x s) (c : Comp) : mapEnd c s = .ok () (s.put c!"}") := by
  unfold mapEnd
  simp only [ite_seq]
  simp only [wbind_apply, wget_apply, dry_trailing h, dry_endIndent h, write_quiet h.quiet]

omit [Env] in
theorem tupleEnd_compact {x : Exts} {s : Ser} (h : Dry x s) (c : Comp) : tupleEnd c s = .ok () (s.put (if c.nv then [] else c!")")) := by
  unfold tupleEnd
  simp only [ite_seq]
  simp only [wbind_apply, wget_apply, dry_trailing h, dry_endIndent h, dry_close h]

theorem structEnd_compact {x : Exts} {s : Ser} (h : Dry x s) {c : Comp} (hc : c.range = none) :
    structEnd c s = .ok () (s.put (if c.nv then [] else c!")")) := by
  unfold structEnd
  simp only [hc, ite_seq]
  simp only [wbind_apply, wget_apply, dry_trailing h, dry_endIndent h, dry_close h]

/-! ### The beginning -/

omit [Env] in
theorem dry_startIndent {x : Exts} {s : Ser} (h : Dry x s) : startIndent s = .ok () s := by
  unfold startIndent
  simp only [wbind_apply, wget_apply, h.pretty, wpure_apply]

/-- The state after the opening of a compound. -/
structure Begun (x : Exts) (s s' : Ser) (w : Text) : Prop where
  rest : Rest x s'
  step : Step s s' w

omit [Env] in
theorem seqOpen_compact {x : Exts} {s : Ser} (h : Dry x s) (len : Option Nat) : ∃ s', seqOpen len s = .ok {} s' ∧ Begun x s s' c!"[" := by
  have h1 : Dry x { s with nv := false, isd := 0 } := h.step rfl
  have h2 : Dry x (({ s with nv := false, isd := 0 } : Ser).put c!"[") := h1.step rfl
  unfold seqOpen
  simp only [wbind_apply, wget_apply, wmod_apply, write_quiet h1.quiet, Ser.compactArrays, h2.pretty, Bool.not_false, ↓reduceIte]
  cases len with
  | none =>
    simp only [wpure_apply, dry_startIndent h2]
    exact ⟨_, rfl, ⟨h2, rfl, rfl⟩, rfl, rfl⟩
  | some n =>
    have h3 : Dry x { (({ s with nv := false, isd := 0 } : Ser).put c!"[") with isEmpty := some (n == 0) } := h2.step rfl
    simp only [wmod_apply, wpure_apply, dry_startIndent h3]
    exact ⟨_, rfl, ⟨h3, rfl, rfl⟩, rfl, rfl⟩

omit [Env] in
theorem mapOpen_compact {x : Exts} {s : Ser} (h : Dry x s) (len : Option Nat) : ∃ s', mapOpen len s = .ok {} s' ∧ Begun x s s' c!"{" := by
  have h1 : Dry x { s with nv := false, isd := 0 } := h.step rfl
  have h2 : Dry x (({ s with nv := false, isd := 0 } : Ser).put c!"{") := h1.step rfl
  unfold mapOpen
  simp only [wbind_apply, wget_apply, wmod_apply, write_quiet h1.quiet, Ser.compactMaps, h2.pretty, Bool.not_false, ↓reduceIte]
  cases len with
  | none =>
    simp only [wpure_apply, dry_startIndent h2]
    exact ⟨_, rfl, ⟨h2, rfl, rfl⟩, rfl, rfl⟩
  | some n =>
    have h3 : Dry x { (({ s with nv := false, isd := 0 } : Ser).put c!"{") with isEmpty := some (n == 0) } := h2.step rfl
    simp only [wmod_apply, wpure_apply, dry_startIndent h3]
    exact ⟨_, rfl, ⟨h3, rfl, rfl⟩, rfl, rfl⟩

omit [Env] in
theorem tupleIndent_compact {x : Exts} {s : Ser} (h : Dry x s) (n : Nat) : tupleIndent n s = .ok () s := by
  unfold tupleIndent
  simp only [wbind_apply, wget_apply, Ser.separateTupleMembers, h.pretty, Bool.false_eq_true, ↓reduceIte, wpure_apply]

omit [Env] in
theorem structIndent_compact {x : Exts} {s : Ser} (h : Dry x s) (n : Nat) : structIndent n s = .ok () { s with isEmpty := some (n == 0) } := by
  have h3 : Dry x { s with isEmpty := some (n == 0) } := h.step rfl
  have hc : s.compactStructs = false := by simp [Ser.compactStructs, h.pretty]
  unfold structIndent
  simp only [wbind_apply, wget_apply, hc, Bool.not_false, ↓reduceIte, wmod_apply, dry_startIndent h3]

omit [Env] in
theorem tupleOpen_compact {x : Exts} {s : Ser} (h : Dry x s) (n : Nat) :
    ∃ s', tupleOpen n s = .ok { nv := s.nv } s' ∧ Begun x s s' (if s.nv then [] else c!"(") := by
  have h1 : Dry x { s with nv := false, isd := 0 } := h.step rfl
  have h2 : Dry x (({ s with nv := false, isd := 0 } : Ser).put (if s.nv then [] else c!"(")) := h1.step rfl
  refine ⟨_, ?_, ⟨h2, rfl, rfl⟩, rfl, rfl⟩
  unfold tupleOpen
  simp only [ite_seq]
  simp only [wbind_apply, wget_apply, wmod_apply, dry_close h1, tupleIndent_compact h2, wpure_apply]

theorem tupleVariantOpen_compact {x : Exts} {s s' : Ser} {c : Comp} {name variant : Text} {n : Nat} (h : Dry x s)
    (e : tupleVariantOpen name variant n s = .ok c s') : c = {} ∧ Begun x s s' (compactName variant ++ c!"(") := by
  have h1 : Dry x { s with nv := false, isd := 0 } := h.step rfl
  unfold tupleVariantOpen at e
  simp only [wbind_apply, wmod_apply] at e
  split at e
  · next u s2 hg =>
    obtain ⟨-, rfl⟩ := validateIdentifier_inv hg
    split at e
    · next u s3 hg3 =>
      obtain ⟨-, -, rfl⟩ := writeIdentifier_inv h1.quiet hg3
      have h2 : Dry x (({ s with nv := false, isd := 0 } : Ser).put (identText variant)) := h1.step rfl
      have h3 : Dry x ((({ s with nv := false, isd := 0 } : Ser).put (identText variant)).put c!"(") := h1.step rfl
      simp only [write_quiet h2.quiet, tupleIndent_compact h3] at e
      obtain ⟨rfl, rfl⟩ := wpure_ok e
      rw [← identText_compact]
      refine ⟨rfl, ⟨h3, rfl, rfl⟩, by simp, rfl⟩
    · cases e
  · cases e

theorem structVariantOpen_compact {x : Exts} {s s' : Ser} {c : Comp} {name variant : Text} {n : Nat} (h : Dry x s)
    (e : structVariantOpen name variant n s = .ok c s') : c = {} ∧ Begun x s s' (compactName variant ++ c!"(") := by
  have h1 : Dry x { s with nv := false, isd := 0 } := h.step rfl
  unfold structVariantOpen at e
  simp only [wbind_apply, wmod_apply] at e
  split at e
  · next u s2 hg =>
    obtain ⟨-, rfl⟩ := validateIdentifier_inv hg
    split at e
    · next u s3 hg3 =>
      obtain ⟨-, -, rfl⟩ := writeIdentifier_inv h1.quiet hg3
      have h2 : Dry x (({ s with nv := false, isd := 0 } : Ser).put (identText variant)) := h1.step rfl
      have h3 : Dry x ((({ s with nv := false, isd := 0 } : Ser).put (identText variant)).put c!"(") := h1.step rfl
      simp only [write_quiet h2.quiet, structIndent_compact h3] at e
      obtain ⟨rfl, rfl⟩ := wpure_ok e
      rw [← identText_compact]
      exact ⟨rfl, ⟨h3.step rfl, rfl, rfl⟩, by simp, rfl⟩
    · cases e
  · cases e

/-- The name before the parentheses. -/
noncomputable def optName (x : Exts) (name : Text) : Text := if x.explicitStructNames then compactName name else []

theorem name_compact {x : Exts} {s s' : Ser} {name : Text} (h : Dry x s)
    (e : (if s.structNames then writeIdentifier name else validateIdentifier name) s = .ok () s') : s' = s.put (optName x name) := by
  unfold optName
  rw [← h.names]
  split at e
  · next hn =>
    obtain ⟨-, -, rfl⟩ := writeIdentifier_inv h.quiet e
    rw [if_pos hn, identText_compact]
  · next hn =>
    obtain ⟨-, rfl⟩ := validateIdentifier_inv e
    rw [if_neg hn]; simp

theorem structName_compact {x : Exts} {s s' : Ser} {name : Text} (h : Dry x s) (e : structName name s = .ok () s') :
    s' = s.put (if s.nv then [] else optName x name) := by
  unfold structName at e
  simp only [wbind_apply, wget_apply] at e
  cases hn : s.nv with
  | false => simp only [hn, Bool.not_false, Bool.and_true] at e; simpa using name_compact h e
  | true =>
    simp only [hn, Bool.not_true, Bool.and_false, Bool.false_eq_true, ↓reduceIte] at e
    obtain ⟨-, rfl⟩ := validateIdentifier_inv e
    simp

theorem structOpen_compact {x : Exts} {s s' : Ser} {c : Comp} {name : Text} {n : Nat} (h : Dry x s)
    (e : structOpen name n s = .ok c s') : c = { nv := s.nv } ∧ Begun x s s' (if s.nv then [] else optName x name ++ c!"(") := by
  have h1 : Dry x { s with nv := false, isd := 0 } := h.step rfl
  unfold structOpen at e
  simp only [wbind_apply, wget_apply, Ser.compactRanges, h.pretty] at e
  unfold structOpenPlain at e
  simp only [wbind_apply, wget_apply, wmod_apply] at e
  cases hn : s.nv with
  | true =>
    simp only [hn, ↓reduceIte, wbind_apply] at e
    split at e
    · next u s2 hg =>
      obtain ⟨-, rfl⟩ := validateIdentifier_inv hg
      simp only [structIndent_compact h1] at e
      obtain ⟨rfl, rfl⟩ := wpure_ok e
      exact ⟨rfl, ⟨h1.step rfl, rfl, rfl⟩, by simp, rfl⟩
    · cases e
  | false =>
    simp only [hn, Bool.false_eq_true, ↓reduceIte] at e
    simp only [ite_seq2, wbind_apply] at e
    generalize hg : (if s.structNames = true then writeIdentifier name else validateIdentifier name) { s with nv := false, isd := 0 } = r at e
    cases r with
    | err => cases e
    | ok u s2 =>
      have := name_compact h1 hg
      subst this
      have h2 : Dry x (({ s with nv := false, isd := 0 } : Ser).put (optName x name)) := h1.step rfl
      have h3 : Dry x ((({ s with nv := false, isd := 0 } : Ser).put (optName x name)).put c!"(") := h1.step rfl
      simp only [write_quiet h2.quiet, structIndent_compact h3] at e
      obtain ⟨rfl, rfl⟩ := wpure_ok e
      exact ⟨rfl, ⟨h3.step rfl, rfl, rfl⟩, by simp, rfl⟩

/-! ### Data -/

omit [Env] in
theorem closers_flat (n : Nat) : (List.replicate n c!")").flatten = List.replicate n ')' := by
  induction n with
  | zero => rfl
  | succ n ih => simp [List.replicate_succ, ih]

omit [Env] in
theorem closeSomes_quiet {s : Ser} (h : s.Quiet) (n : Nat) : closeSomes n s = .ok () (s.put (List.replicate n ')')) := by
  unfold closeSomes
  rw [writeAll_quiet h, closers_flat]
omit [Env] in
theorem openSomes_quiet {s : Ser} (h : s.Quiet) (n : Nat) :
    openSomes n s = .ok () (s.put (List.replicate n c!"Some(").flatten) := writeAll_quiet h _

theorem compactAll_map (x : Exts) (vs : List SVal) : compactAll x vs = vs.map (compact x false 0) := by
  induction vs with
  | nil => simp [compactAll]
  | cons v vs ih => simp [compactAll, ih]
theorem compactEntries_map (x : Exts) (vs : List (SVal × SVal)) :
    compactEntries x vs = vs.map fun e => compact x false 0 e.1 ++ ':' :: compact x false 0 e.2 := by
  induction vs with
  | nil => simp [compactEntries]
  | cons v vs ih => obtain ⟨a, b⟩ := v; simp [compactEntries, ih]
theorem compactFields_map (x : Exts) (vs : List (Text × SVal)) :
    compactFields x vs = vs.map fun e => compactName e.1 ++ ':' :: compact x false 0 e.2 := by
  induction vs with
  | nil => simp [compactFields]
  | cons v vs ih => obtain ⟨a, b⟩ := v; simp [compactFields, ih]

theorem serSeq_compact {vs : List SVal} (h : ∀ v ∈ vs, Compacts v) {x : Exts} {s s' : Ser} {c : Comp} (hr : Rest x s)
    (e : serSeq {} vs s = .ok c s') : Terse s s' (commas (compactAll x vs)) := by
  rw [serSeq_fold] at e
  have := (foldW_compact (x := x) (text := compact x false 0) (fun v hv c s c' s' hr hc e => by
    obtain ⟨rfl, h2⟩ := seqElement_compact (h v hv) hr e; exact ⟨rfl, h2⟩) {} s c s' hr rfl e).2.2
  rw [compactAll_map, ← tailItems_commas]
  exact this

theorem serTuple_compact {vs : List SVal} (h : ∀ v ∈ vs, Compacts v) {x : Exts} {s s' : Ser} {b : Bool} {c : Comp} (hr : Rest x s)
    (e : serTuple { nv := b } vs s = .ok c s') : c.nv = b ∧ Terse s s' (commas (compactAll x vs)) := by
  rw [serTuple_fold] at e
  have := (foldW_compact (x := x) (text := compact x false 0) (fun v hv c s c' s' hr hc e => by
    obtain ⟨rfl, h2⟩ := tupleElement_compact (h v hv) hr e; exact ⟨rfl, h2⟩) { nv := b } s c s' hr rfl e)
  rw [compactAll_map, ← tailItems_commas]
  exact ⟨this.1, this.2.2⟩

theorem serMap_compact {vs : List (SVal × SVal)} (h : ∀ v ∈ vs, Compacts v.1 ∧ Compacts v.2) {x : Exts} {s s' : Ser} {c : Comp} (hr : Rest x s)
    (e : serMap {} vs s = .ok c s') : Terse s s' (commas (compactEntries x vs)) := by
  rw [serMap_fold] at e
  have := (foldW_compact (x := x) (text := fun e => compact x false 0 e.1 ++ ':' :: compact x false 0 e.2) (fun v hv c s c' s' hr hc e => by
    obtain ⟨rfl, h2⟩ := mapEntry_compact (h v hv).1 (h v hv).2 hr e; exact ⟨rfl, h2⟩) {} s c s' hr rfl e).2.2
  rw [compactEntries_map, ← tailItems_commas]
  exact this

theorem serFields_compact {vs : List (Text × SVal)} (h : ∀ v ∈ vs, Compacts v.2) {x : Exts} {s s' : Ser} {b : Bool} {c : Comp} (hr : Rest x s)
    (e : serFields { nv := b } vs s = .ok c s') : c.nv = b ∧ c.range = none ∧ Terse s s' (commas (compactFields x vs)) := by
  rw [serFields_fold] at e
  have := (foldW_compact (x := x) (text := fun e => compactName e.1 ++ ':' :: compact x false 0 e.2) (fun v hv c s c' s' hr hc e => by
    simp only [structField, hc] at e
    obtain ⟨rfl, h2⟩ := fieldPlain_compact (h v hv) hr e; exact ⟨rfl, h2⟩) { nv := b } s c s' hr rfl e)
  rw [compactFields_map, ← tailItems_commas]
  exact this

omit [Env] in
/-- A compound as a whole. -/
theorem compound_compact {x : Exts} {s s1 s' : Ser} {o w c : Text} {f : W Unit} (h1 : Begun x s s1 o)
    (h2 : ∀ s2, f s1 = .ok () s2 → ∃ s3, Terse s1 s3 w ∧ s2 = s3.put c) (e : dropCompound f s1 = .ok () s') : Terse s s' (o ++ (w ++ c)) := by
  obtain ⟨m, s2, h3, rfl⟩ := dropCompound_inv e
  obtain ⟨s3, h4, rfl⟩ := h2 s2 h3
  have := h1.step.trans (h4.step.trans (Step.put s3 c))
  exact ⟨⟨this.out, this.core⟩, fun _ => h4.nv h1.rest.nv, fun _ => h4.isd h1.rest.isd⟩

mutual
theorem ser_compact : ∀ v : SVal, Compacts v
  | .bool b => fun x s s' hd e => by
    simp only [ser, write_quiet hd.quiet, WRes.ok.injEq, true_and] at e
    subst e; simp only [compact]; exact .put _ _
  | .num n => fun x s s' hd e => by
    have hn : s.numberSuffixes = false := by simp [Ser.numberSuffixes, hd.pretty]
    simp only [ser, serNumber_quiet hd.quiet, WRes.ok.injEq, true_and, hn] at e
    subst e; simp only [compact]; exact .put _ _
  | .char c => fun x s s' hd e => by
    simp only [ser, serChar_quiet hd.quiet, WRes.ok.injEq, true_and] at e
    subst e; simp only [compact]; exact .put _ _
  | .str t => fun x s s' hd e => by
    have hn : s.escapeStrings = true := by simp [Ser.escapeStrings, hd.pretty]
    simp only [ser, serStr_quiet hd.quiet, WRes.ok.injEq, true_and, hn, strText, ↓reduceIte] at e
    subst e; simp only [compact]; exact .put _ _
  | .bytes b => fun x s s' hd e => by
    have hn : s.escapeStrings = true := by simp [Ser.escapeStrings, hd.pretty]
    simp only [ser, serBytes_quiet hd.quiet, WRes.ok.injEq, true_and, hn, bytesText] at e
    subst e; simp only [compact]; exact .put _ _
  | .none => fun x s s' hd e => by
    simp only [ser, serNone] at e
    rw [wbind_apply, wget_apply] at e
    simp only [wbind_apply, wmod_apply] at e
    have h1 : Dry x { s with isd := 0 } := hd.step rfl
    rw [openSomes_quiet h1.quiet] at e
    simp only [write_quiet (h1.quiet.put _), closeSomes_quiet ((h1.quiet.put _).put _)] at e
    cases e
    simp only [compact, inSomes]
    exact ⟨⟨by simp [Ser.put], rfl⟩, id, fun _ => rfl⟩
  | .some v => fun x s s' hd e => by
    have hv := ser_compact v
    simp only [ser, serSome] at e
    rw [wbind_apply, wget_apply] at e
    simp only [ite_W, hd.exts] at e
    simp only [compact]
    split at e
    · next hi =>
      rw [if_pos hi]
      simp only [wbind_apply, wmod_apply] at e
      split at e
      · next u s2 hg =>
        cases e
        have := hv.guardQ (hd.step (s' := { s with isd := s.isd + 1 }) rfl) hg
        exact ⟨⟨this.step.out, this.step.core⟩, this.nv, fun _ => rfl⟩
      · cases e
    · next hi =>
      rw [if_neg hi]
      simp only [wbind_apply, wmod_apply, hd.exts] at e
      have h1 : Dry x { s with nv := x.unwrapVariantNewtypes } := hd.step rfl
      simp only [write_quiet h1.quiet] at e
      split at e
      · next u s2 hg =>
        have := hv.guardQ (h1.step (s' := ({ s with nv := x.unwrapVariantNewtypes } : Ser).put c!"Some(") rfl) hg
        have h2 := h1.step (s' := ({ s with nv := x.unwrapVariantNewtypes } : Ser).put c!"Some(") rfl
        have h3 := h2.step this.step.core
        simp only [write_quiet h3.quiet] at e
        cases e
        have hst := (Step.put ({ s with nv := x.unwrapVariantNewtypes } : Ser) c!"Some(").trans (this.step.trans (Step.put s2 c!")"))
        exact ⟨⟨hst.out, hst.core⟩, fun _ => rfl, fun h => this.isd h⟩
      · cases e
  | .unit => fun x s s' hd e => by
    simp only [ser, serUnit, wbind_apply, wget_apply, dry_close hd, WRes.ok.injEq, true_and] at e
    subst e; simp only [compact]; exact .put _ _
  | .unitStruct n => fun x s s' hd e => by
    have hr : s.compactRanges = false := by simp [Ser.compactRanges, hd.pretty]
    simp only [ser, serUnitStruct, wbind_apply, wget_apply, hr, Bool.false_and, Bool.false_eq_true, ↓reduceIte, ite_W, hd.names] at e
    simp only [compact]
    cases hn : s.nv with
    | true =>
      simp only [hn, Bool.not_true, Bool.and_false, Bool.false_eq_true, ↓reduceIte] at e
      split at e
      · next u s2 hg =>
        obtain ⟨-, rfl⟩ := validateIdentifier_inv hg
        simp only [serUnit, wbind_apply, wget_apply, dry_close hd, WRes.ok.injEq, true_and, hn, ↓reduceIte] at e
        subst e; exact .put _ _
      · cases e
    | false =>
      simp only [hn, Bool.not_false, Bool.and_true] at e
      simp only [Bool.false_eq_true, ↓reduceIte]
      split at e
      · next hx =>
        obtain ⟨-, -, rfl⟩ := writeIdentifier_inv hd.quiet e
        rw [if_pos hx, ← identText_compact]
        exact .put _ _
      · next hx =>
        rw [if_neg hx]
        split at e
        · next u s2 hg =>
          obtain ⟨-, rfl⟩ := validateIdentifier_inv hg
          simp only [serUnit, wbind_apply, wget_apply, dry_close hd, WRes.ok.injEq, true_and, hn, Bool.false_eq_true, ↓reduceIte] at e
          subst e; exact .put _ _
        · cases e
  | .unitVariant n m => fun x s s' hd e => by
    simp only [ser, wbind_apply] at e
    simp only [compact]
    split at e
    · next u s2 hg =>
      obtain ⟨-, rfl⟩ := validateIdentifier_inv hg
      obtain ⟨-, -, rfl⟩ := writeIdentifier_inv hd.quiet e
      rw [← identText_compact]
      exact .put _ _
    · cases e
  | .newtypeStruct n v => fun x s s' hd e => by
    have hv := ser_compact v
    simp only [ser, serNewtypeStruct, ite_seq2] at e
    rw [wbind_apply, wget_apply] at e
    simp only [ite_W, hd.exts] at e
    simp only [compact]
    split at e
    · next hu =>
      rw [if_pos hu]
      simp only [wbind_apply, wmod_apply] at e
      split at e
      · next u s2 hg =>
        obtain ⟨-, rfl⟩ := validateIdentifier_inv hg
        have := hv.guardR (hd.step (s' := { s with nv := false }) rfl) e
        exact ⟨⟨this.step.out, this.step.core⟩, fun _ => this.nv rfl, this.isd⟩
      · cases e
    · next hu =>
      rw [if_neg hu]
      have hnv : s.nv = false := by simp at hu; exact hu.2
      obtain ⟨u, s2, hg, e⟩ := wbind_ok e
      have := name_compact hd hg
      subst this
      have h1 : Dry x ({ s.put (optName x n) with isd := 0 } : Ser) := hd.step rfl
      have h2 : Dry x (({ s.put (optName x n) with isd := 0 } : Ser).put c!"(") := hd.step rfl
      simp only [wbind_apply, wmod_apply, write_quiet h1.quiet] at e
      split at e
      · next u s3 hg =>
        have := hv.guardQ h2 hg
        have h3 := h2.step this.step.core
        simp only [write_quiet h3.quiet] at e
        cases e
        have hst := (Step.put s (optName x n)).trans ((Step.put (s.put (optName x n)) c!"(").trans
          ((Step.mk (s := ((s.put (optName x n)).put c!"(")) this.step.out this.step.core).trans (Step.put s3 c!")")))
        have hn' : (({ s.put (optName x n) with isd := 0 } : Ser).put c!"(").nv = false := hnv
        have hi' : (({ s.put (optName x n) with isd := 0 } : Ser).put c!"(").isd = 0 := rfl
        rw [hn', hi'] at hst
        refine ⟨⟨?_, hst.core⟩, fun _ => this.nv hnv, fun _ => this.isd rfl⟩
        simpa [optName] using hst.out
      · cases e
  | .newtypeVariant n m v => fun x s s' hd e => by
    have hv := ser_compact v
    simp only [ser, serNewtypeVariant, wbind_apply] at e
    simp only [compact]
    split at e
    · next u s2 hg =>
      obtain ⟨-, hs⟩ := validateIdentifier_inv hg
      rw [hs] at e
      split at e
      · next u3 s3 hg3 =>
        obtain ⟨-, -, rfl⟩ := writeIdentifier_inv hd.quiet hg3
        have h2 : Dry x (s.put (identText m)) := hd.step rfl
        have h3 : Dry x ((s.put (identText m)).put c!"(") := hd.step rfl
        simp only [write_quiet h2.quiet, wmod_apply, h3.exts] at e
        split at e
        · next u s4 hg4 =>
          have h4 : Dry x ({ (s.put (identText m)).put c!"(" with nv := x.unwrapVariantNewtypes, isd := 0 } : Ser) := hd.step rfl
          have := hv.guardQ h4 hg4
          have h5 : Dry x ({ s4 with nv := false } : Ser) := (h4.step this.step.core).step rfl
          simp only [write_quiet h5.quiet] at e
          cases e
          rw [← identText_compact]
          have hst := (Step.put s (identText m)).trans ((Step.put (s.put (identText m)) c!"(").trans
            ((Step.mk (s := ((s.put (identText m)).put c!"(")) this.step.out this.step.core).trans (Step.put s4 c!")")))
          refine ⟨⟨by simpa using hst.out, hst.core⟩, fun _ => rfl, fun _ => this.isd rfl⟩
        · cases e
      · cases e
    · cases e
  | .seq len vs => fun x s s' hd e => by
    have hv := compact_all vs
    simp only [ser] at e
    obtain ⟨c, s1, h1, e⟩ := wbind_ok e
    obtain ⟨s1', h1', hb⟩ := seqOpen_compact hd len
    rw [h1'] at h1
    cases h1
    simp only [compact]
    refine compound_compact hb (fun s2 h2 => ?_) e
    obtain ⟨c, s3, h3, h4⟩ := wbind_ok h2
    have ht := serSeq_compact hv hb.rest h3
    rw [seqEnd_compact (hb.rest.terse ht).dry] at h4
    cases h4
    exact ⟨s3, ht, rfl⟩
  | .tuple vs => fun x s s' hd e => by
    have hv := compact_all vs
    simp only [ser] at e
    obtain ⟨c, s1, h1, e⟩ := wbind_ok e
    obtain ⟨s1', h1', hb⟩ := tupleOpen_compact hd vs.length
    rw [h1'] at h1
    cases h1
    simp only [compact]
    have := compound_compact hb (w := commas (compactAll x vs)) (c := if s.nv then [] else c!")") (fun s2 h2 => by
      obtain ⟨c, s3, h3, h4⟩ := wbind_ok h2
      obtain ⟨hc, ht⟩ := serTuple_compact hv hb.rest h3
      rw [tupleEnd_compact (hb.rest.terse ht).dry, hc] at h4
      cases h4
      exact ⟨s3, ht, rfl⟩) e
    cases hn : s.nv <;> simpa [hn] using this
  | .tupleStruct n vs => fun x s s' hd e => by
    have hv := compact_all vs
    simp only [ser] at e
    obtain ⟨u, s0, h0, e⟩ := wbind_ok e
    have := structName_compact hd h0
    subst this
    have hd0 : Dry x (s.put (if s.nv = true then [] else optName x n)) := hd.step rfl
    obtain ⟨c, s1, h1, e⟩ := wbind_ok e
    obtain ⟨s1', h1', hb⟩ := tupleOpen_compact hd0 vs.length
    rw [h1'] at h1
    cases h1
    simp only [compact]
    have := compound_compact hb (w := commas (compactAll x vs)) (c := if s.nv then [] else c!")") (fun s2 h2 => by
      obtain ⟨c, s3, h3, h4⟩ := wbind_ok h2
      obtain ⟨hc, ht⟩ := serTuple_compact hv hb.rest h3
      rw [tupleEnd_compact (hb.rest.terse ht).dry, hc] at h4
      cases h4
      exact ⟨s3, ht, rfl⟩) e
    have := (Terse.put s (if s.nv = true then [] else optName x n)).trans this
    cases hn : s.nv <;> (simp only [Ser.put_nv, hn] at this; simpa [optName] using this)
  | .tupleVariant n m vs => fun x s s' hd e => by
    have hv := compact_all vs
    simp only [ser] at e
    obtain ⟨c, s1, h1, e⟩ := wbind_ok e
    obtain ⟨rfl, hb⟩ := tupleVariantOpen_compact hd h1
    simp only [compact]
    have := compound_compact hb (w := commas (compactAll x vs)) (c := c!")") (fun s2 h2 => by
      obtain ⟨c, s3, h3, h4⟩ := wbind_ok h2
      obtain ⟨hc, ht⟩ := serTuple_compact (b := false) hv hb.rest h3
      rw [tupleEnd_compact (hb.rest.terse ht).dry, hc] at h4
      cases h4
      exact ⟨s3, ht, rfl⟩) e
    simpa using this
  | .map len kvs => fun x s s' hd e => by
    have hv := compact_entries kvs
    simp only [ser] at e
    obtain ⟨c, s1, h1, e⟩ := wbind_ok e
    obtain ⟨s1', h1', hb⟩ := mapOpen_compact hd len
    rw [h1'] at h1
    cases h1
    simp only [compact]
    refine compound_compact hb (fun s2 h2 => ?_) e
    obtain ⟨c, s3, h3, h4⟩ := wbind_ok h2
    have ht := serMap_compact hv hb.rest h3
    rw [mapEnd_compact (hb.rest.terse ht).dry] at h4
    cases h4
    exact ⟨s3, ht, rfl⟩
  | .struct n fs => fun x s s' hd e => by
    have hv := compact_fields fs
    simp only [ser] at e
    obtain ⟨c, s1, h1, e⟩ := wbind_ok e
    obtain ⟨rfl, hb⟩ := structOpen_compact hd h1
    simp only [compact]
    have := compound_compact hb (w := commas (compactFields x fs)) (c := if s.nv then [] else c!")") (fun s2 h2 => by
      obtain ⟨c, s3, h3, h4⟩ := wbind_ok h2
      obtain ⟨hc, hr, ht⟩ := serFields_compact hv hb.rest h3
      rw [structEnd_compact (hb.rest.terse ht).dry hr, hc] at h4
      cases h4
      exact ⟨s3, ht, rfl⟩) e
    cases hn : s.nv <;> (simp only [hn] at this; simpa [optName] using this)
  | .structVariant n m fs => fun x s s' hd e => by
    have hv := compact_fields fs
    simp only [ser] at e
    obtain ⟨c, s1, h1, e⟩ := wbind_ok e
    obtain ⟨rfl, hb⟩ := structVariantOpen_compact hd h1
    simp only [compact]
    have := compound_compact hb (w := commas (compactFields x fs)) (c := c!")") (fun s2 h2 => by
      obtain ⟨c, s3, h3, h4⟩ := wbind_ok h2
      obtain ⟨hc, hr, ht⟩ := serFields_compact (b := false) hv hb.rest h3
      rw [structEnd_compact (hb.rest.terse ht).dry hr, hc] at h4
      cases h4
      exact ⟨s3, ht, rfl⟩) e
    simpa using this
  | .raw t => fun x s s' hd e => by
    simp only [ser, serRaw] at e
    rw [wbind_apply, wget_apply] at e
    simp only [wbind_apply, wmod_apply] at e
    have h1 : Dry x { s with isd := 0 } := hd.step rfl
    simp only [openSomes_quiet h1.quiet] at e
    split at e
    · next u s2 hg =>
      obtain ⟨m, m', s3, h3, rfl⟩ := guardR_inv hg
      have h2 : Dry x ({ ({ s with isd := 0 } : Ser).put (List.replicate s.isd c!"Some(").flatten with limit := m } : Ser) := hd.step rfl
      rw [write_quiet h2.quiet] at h3
      cases h3
      have h4 : Dry x ({ ({ ({ s with isd := 0 } : Ser).put (List.replicate s.isd c!"Some(").flatten with limit := m } : Ser).put t with limit := m' } : Ser) := hd.step rfl
      rw [closeSomes_quiet h4.quiet] at e
      cases e
      simp only [compact, inSomes]
      exact ⟨⟨by simp [Ser.put], rfl⟩, id, fun _ => rfl⟩
    · cases e
theorem compact_all : ∀ vs : List SVal, ∀ v ∈ vs, Compacts v
  | [], v, h => by simp at h
  | u :: us, v, h => by
    rcases List.mem_cons.mp h with h | h
    · exact h ▸ ser_compact u
    · exact compact_all us v h
theorem compact_entries : ∀ vs : List (SVal × SVal), ∀ v ∈ vs, Compacts v.1 ∧ Compacts v.2
  | [], v, h => by simp at h
  | (a, b) :: us, v, h => by
    rcases List.mem_cons.mp h with h | h
    · exact h ▸ ⟨ser_compact a, ser_compact b⟩
    · exact compact_entries us v h
theorem compact_fields : ∀ vs : List (Text × SVal), ∀ v ∈ vs, Compacts v.2
  | [], v, h => by simp at h
  | (a, b) :: us, v, h => by
    rcases List.mem_cons.mp h with h | h
    · exact h ▸ ser_compact b
    · exact compact_fields us v h
end

end Ron
