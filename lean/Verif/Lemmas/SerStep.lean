import Verif.Lemmas.Write
import Verif.Lemmas.Layout
import Verif.Spec.Rend
/-! What a serializer action that succeeds has written: layout, separators, compounds. -/

set_option linter.unusedSimpArgs false

namespace Ron

/-! ### Inversion -/

theorem wbind_ok {α β : Type} {f : W α} {g : α → W β} {s s'' : Ser} {b : β} (h : (f >>= g) s = .ok b s'') :
    ∃ a s', f s = .ok a s' ∧ g a s' = .ok b s'' := by
  simp only [wbind_apply] at h
  split at h
  · next a s' e => exact ⟨a, s', e, h⟩
  · cases h

theorem wpure_ok {α : Type} {a b : α} {s s' : Ser} (h : (pure a : W α) s = .ok b s') : a = b ∧ s = s' := by
  simpa using h

/-- A conditional action followed by another one. -/
theorem ite_seq {β : Type} (c : Prop) [Decidable c] (f : W Unit) (g : W β) :
    (if c then (f >>= fun _ => g) else g) = ((if c then f else pure ()) >>= fun _ => g) := by
  funext s
  by_cases h : c <;> simp [h]

theorem ite_seq3 {α β : Type} (c : Prop) [Decidable c] (f : W α) (h : α → W Unit) (g : W β) :
    (if c then (f >>= fun a => h a >>= fun _ => g) else g) = ((if c then (f >>= h) else pure ()) >>= fun _ => g) := by
  by_cases hc : c
  · simp only [if_pos hc]
    funext s
    simp only [wbind_apply]
    cases f s <;> rfl
  · simp only [if_neg hc]
    rfl

theorem ite_seq2 {β : Type} (c : Prop) [Decidable c] (f f' : W Unit) (g : W β) :
    (if c then (f >>= fun _ => g) else (f' >>= fun _ => g)) = ((if c then f else f') >>= fun _ => g) := by
  funext s
  by_cases h : c <;> simp [h]

/-- What stays the same during serialization: the writer's behaviour, the extensions, and the configuration apart from the
field metadata. -/
def Ser.core (s : Ser) : (Text → Text → Option Nat) × Exts × Option PrettyConfig :=
  (s.w.fault, s.defaultExtensions, s.pretty.map fun p => { p.1 with pathMeta := none })

/-- The action appended `w`. -/
structure Step (s s' : Ser) (w : Text) : Prop where
  out : s'.w.out = s.w.out ++ w
  core : s'.core = s.core

theorem Step.refl (s : Ser) : Step s s [] := ⟨by simp, rfl⟩
theorem Step.put (s : Ser) (w : Text) : Step s (s.put w) w := ⟨rfl, rfl⟩
theorem Step.trans {a b c : Ser} {w u : Text} (h : Step a b w) (g : Step b c u) : Step a c (w ++ u) :=
  ⟨by rw [g.out, h.out, List.append_assoc], g.core.trans h.core⟩
/-- Changing the fields that are not output. -/
theorem Step.mod {a b c : Ser} {w : Text} (h : Step a b w) (ho : c.w = b.w) (hd : c.defaultExtensions = b.defaultExtensions)
    (hp : c.pretty = b.pretty) : Step a c w :=
  ⟨by rw [ho]; exact h.out, by unfold Ser.core; rw [ho, hd, hp]; exact h.core⟩

theorem core_pretty {s s' : Ser} (h : s'.core = s.core) :
    (s.pretty = none ∧ s'.pretty = none) ∨
    ∃ c i m i', s.pretty = some (c, i) ∧ s'.pretty = some ({ c with pathMeta := m }, i') := by
  have h3 : s'.pretty.map (fun p => { p.1 with pathMeta := none }) = s.pretty.map fun p => { p.1 with pathMeta := none } := by
    have := congrArg (fun t => t.2.2) h
    exact this
  cases hp : s.pretty with
  | none =>
    rw [hp] at h3
    left
    cases hp' : s'.pretty with
    | none => simp
    | some p => rw [hp'] at h3; simp at h3
  | some p =>
    right
    rw [hp] at h3
    cases hp' : s'.pretty with
    | none => rw [hp'] at h3; simp at h3
    | some q =>
      rw [hp'] at h3
      simp only [Option.map_some, Option.some.injEq] at h3
      obtain ⟨c, i⟩ := p
      obtain ⟨c', i'⟩ := q
      refine ⟨c, i, c'.pathMeta, i', rfl, ?_⟩
      simp only [PrettyConfig.mk.injEq] at h3
      obtain ⟨h1, h2, h3, h4, h5, h6, h7, h8, h9, h10, h11, h12, h13, h14⟩ := h3
      cases c'
      simp_all

theorem core_dflt {s s' : Ser} (h : s'.core = s.core) : s'.defaultExtensions = s.defaultExtensions :=
  congrArg (fun t => t.2.1) h
theorem core_fault {s s' : Ser} (h : s'.core = s.core) : s'.w.fault = s.w.fault :=
  congrArg (fun t => t.1) h

theorem core_extensions {s s' : Ser} (h : s'.core = s.core) : s'.extensions = s.extensions := by
  have hd := core_dflt h
  rcases core_pretty h with ⟨h1, h2⟩ | ⟨c, i, m, i', h1, h2⟩ <;> simp [Ser.extensions, h1, h2, hd]
theorem core_numberSuffixes {s s' : Ser} (h : s'.core = s.core) : s'.numberSuffixes = s.numberSuffixes := by
  rcases core_pretty h with ⟨h1, h2⟩ | ⟨c, i, m, i', h1, h2⟩ <;> simp [Ser.numberSuffixes, h1, h2]
theorem core_compactRanges {s s' : Ser} (h : s'.core = s.core) : s'.compactRanges = s.compactRanges := by
  rcases core_pretty h with ⟨h1, h2⟩ | ⟨c, i, m, i', h1, h2⟩ <;> simp [Ser.compactRanges, h1, h2]
theorem core_compactArrays {s s' : Ser} (h : s'.core = s.core) : s'.compactArrays = s.compactArrays := by
  rcases core_pretty h with ⟨h1, h2⟩ | ⟨c, i, m, i', h1, h2⟩ <;> simp [Ser.compactArrays, h1, h2]
theorem core_compactMaps {s s' : Ser} (h : s'.core = s.core) : s'.compactMaps = s.compactMaps := by
  rcases core_pretty h with ⟨h1, h2⟩ | ⟨c, i, m, i', h1, h2⟩ <;> simp [Ser.compactMaps, h1, h2]
theorem core_compactStructs {s s' : Ser} (h : s'.core = s.core) : s'.compactStructs = s.compactStructs := by
  rcases core_pretty h with ⟨h1, h2⟩ | ⟨c, i, m, i', h1, h2⟩ <;> simp [Ser.compactStructs, h1, h2]
theorem core_separateTupleMembers {s s' : Ser} (h : s'.core = s.core) : s'.separateTupleMembers = s.separateTupleMembers := by
  rcases core_pretty h with ⟨h1, h2⟩ | ⟨c, i, m, i', h1, h2⟩ <;> simp [Ser.separateTupleMembers, h1, h2]
theorem core_structNames {s s' : Ser} (h : s'.core = s.core) : s'.structNames = s.structNames := by
  have he := core_extensions h
  rcases core_pretty h with ⟨h1, h2⟩ | ⟨c, i, m, i', h1, h2⟩ <;> simp [Ser.structNames, h1, h2, he]

/-- The writer works and the configuration is one that `Serializer::new` accepts. -/
structure Good (s : Ser) : Prop where
  quiet : s.Quiet
  newLine : ∀ c i, s.pretty = some (c, i) → c.newLine.all isWs = true
  indentor : ∀ c i, s.pretty = some (c, i) → c.indentor.all isWs = true
  separator : ∀ c i, s.pretty = some (c, i) → c.separator.all isWs = true

theorem Good.step {s s' : Ser} (h : Good s) (hc : s'.core = s.core) : Good s' := by
  have hq : s'.Quiet := (core_fault hc).trans h.quiet
  rcases core_pretty hc with ⟨h1, h2⟩ | ⟨c, i, m, i', h1, h2⟩
  · exact ⟨hq, by simp [h2], by simp [h2], by simp [h2]⟩
  · refine ⟨hq, ?_, ?_, ?_⟩ <;> intro c' j hj <;> rw [h2] at hj <;> simp only [Option.some.injEq, Prod.mk.injEq] at hj <;>
      obtain ⟨rfl, rfl⟩ := hj
    · exact h.newLine c i h1
    · exact h.indentor c i h1
    · exact h.separator c i h1

/-! ### Layout -/

theorem layout_ws {t : Text} (h : t.all isWs = true) : Layout t := by
  simpa using Layout.prepend (a := t) (l := []) (by simpa [List.all_eq_true] using h) .nil

theorem layout_replicate {t : Text} (h : t.all isWs = true) (n : Nat) : Layout (List.replicate n t).flatten := by
  induction n with
  | zero => exact .nil
  | succ n ih => rw [List.replicate_succ, List.flatten_cons]; exact (layout_ws h).append ih

theorem indent_good {s : Ser} (h : Good s) : ∃ l, Layout l ∧ indent s = .ok () (s.put l) := by
  unfold indent
  simp only [wbind_apply, wget_apply]
  cases hp : s.pretty with
  | none => exact ⟨[], .nil, by simp⟩
  | some p =>
    obtain ⟨c, i⟩ := p
    simp only [ite_W]
    split
    · exact ⟨_, layout_replicate (h.indentor c i hp) i, writeAll_quiet h.quiet _⟩
    · exact ⟨[], .nil, by simp⟩

/-- The indentation level changed by `f`. -/
def Ser.level (s : Ser) (f : Nat → Nat) : Ser := { s with pretty := s.pretty.map fun p => (p.1, f p.2) }

theorem level_core (s : Ser) (f : Nat → Nat) : (s.level f).core = s.core := by
  unfold Ser.level Ser.core
  cases s.pretty <;> rfl

theorem startIndent_good {s : Ser} (h : Good s) : ∃ l, Layout l ∧ startIndent s = .ok () ((s.put l).level (· + 1)) := by
  unfold startIndent
  simp only [wbind_apply, wget_apply]
  cases hp : s.pretty with
  | none => exact ⟨[], .nil, by cases s; simp_all [Ser.level]⟩
  | some p =>
    obtain ⟨c, i⟩ := p
    simp only [wbind_apply, wmod_apply, ite_W]
    have e : ({ s with pretty := some (c, i + 1) } : Ser) = s.level (· + 1) := by simp [Ser.level, hp]
    have hq : (s.level (· + 1)).Quiet := h.quiet
    rw [e]
    split
    · exact ⟨c.newLine, layout_ws (h.newLine c i hp), write_quiet hq _⟩
    · exact ⟨[], .nil, by simp⟩

theorem endIndent_good {s : Ser} (h : Good s) : ∃ l e, Layout l ∧
    endIndent s = .ok () { (s.put l).level (· - 1) with isEmpty := e } := by
  unfold endIndent
  simp only [wbind_apply, wget_apply]
  cases hp : s.pretty with
  | none => exact ⟨[], s.isEmpty, .nil, by cases s; simp_all [Ser.level, Ser.put]⟩
  | some p =>
    obtain ⟨c, i⟩ := p
    simp only [wbind_apply, wmod_apply, ite_W]
    split
    · refine ⟨_, none, layout_replicate (h.indentor c i hp) (i - 1), ?_⟩
      rw [writeAll_quiet h.quiet]
      simp [Ser.level, hp]
    · exact ⟨[], none, .nil, by simp [Ser.level, hp]⟩

theorem betweenSep_good {s : Ser} (h : Good s) (compact : Bool) :
    ∃ l, Layout l ∧ betweenSep compact s = .ok () (s.put (',' :: l)) := by
  unfold betweenSep
  simp only [wbind_apply, write_quiet h.quiet, wget_apply, Ser.put_pretty]
  cases hp : s.pretty with
  | none => exact ⟨[], .nil, by simp⟩
  | some p =>
    obtain ⟨c, i⟩ := p
    simp only [ite_W]
    split
    · refine ⟨_, layout_ws (h.newLine c i hp), ?_⟩
      rw [write_quiet (h.quiet.put _)]; simp
    · refine ⟨_, layout_ws (h.separator c i hp), ?_⟩
      rw [write_quiet (h.quiet.put _)]; simp

theorem trailingComma_good {s : Ser} (h : Good s) (rest compact : Bool) :
    ∃ t, Tail t ∧ (rest = false → t = []) ∧ trailingComma rest compact s = .ok () (s.put t) := by
  unfold trailingComma
  simp only [wbind_apply, wget_apply]
  cases rest with
  | false => exact ⟨[], .plain .nil, fun _ => rfl, by cases s.pretty <;> simp⟩
  | true =>
    cases hp : s.pretty with
    | none => exact ⟨[], .plain .nil, fun _ => rfl, by simp⟩
    | some p =>
      obtain ⟨c, i⟩ := p
      simp only [ite_W]
      split
      · refine ⟨',' :: c.newLine, .comma (b := []) .nil (layout_ws (h.newLine c i hp)), by simp, ?_⟩
        simp only [wbind_apply, write_quiet h.quiet]
        rw [write_quiet (h.quiet.put _)]; simp
      · exact ⟨[], .plain .nil, fun _ => rfl, by simp⟩

theorem Tail.layout {t l : Text} (ht : Tail t) (hl : Layout l) : Tail (t ++ l) := by
  cases ht with
  | plain hb => exact .plain (hb.append hl)
  | @comma b c hb hc =>
    rw [List.append_assoc, List.cons_append]
    exact .comma hb (hc.append hl)

/-! ### Guards -/

theorem guardEnter_inv {s s' : Ser} (h : guardEnter s = .ok () s') : ∃ m, s' = { s with limit := m } := by
  unfold guardEnter at h
  split at h
  · cases h; exact ⟨_, rfl⟩
  · cases h
  · cases h; exact ⟨_, rfl⟩

theorem guardQ_inv {α : Type} {f : W α} {s s' : Ser} {a : α} (h : guardQ f s = .ok a s') :
    ∃ m m' s2, f { s with limit := m } = .ok a s2 ∧ s' = { s2 with limit := m' } := by
  unfold guardQ at h
  obtain ⟨_, s1, h1, h⟩ := wbind_ok h
  obtain ⟨m, rfl⟩ := guardEnter_inv h1
  obtain ⟨a', s2, h2, h⟩ := wbind_ok h
  obtain ⟨_, s3, h3, h⟩ := wbind_ok h
  obtain ⟨rfl, rfl⟩ := wpure_ok h
  unfold guardLeave at h3
  simp only [wmod_apply, WRes.ok.injEq, true_and] at h3
  exact ⟨m, _, s2, h2, h3.symm⟩

theorem guardR_inv {α : Type} {f : W α} {s s' : Ser} {a : α} (h : guardR f s = .ok a s') :
    ∃ m m' s2, f { s with limit := m } = .ok a s2 ∧ s' = { s2 with limit := m' } := by
  unfold guardR at h
  obtain ⟨_, s1, h1, h⟩ := wbind_ok h
  obtain ⟨m, rfl⟩ := guardEnter_inv h1
  cases hf : f { s with limit := m } with
  | ok a' s2 =>
    rw [hf] at h
    simp only [WRes.ok.injEq] at h
    obtain ⟨rfl, rfl⟩ := h
    exact ⟨m, _, s2, hf, rfl⟩
  | err e s2 => rw [hf] at h; cases h

theorem dropCompound_inv {α : Type} {f : W α} {s s' : Ser} {a : α} (h : dropCompound f s = .ok a s') :
    ∃ m' s2, f s = .ok a s2 ∧ s' = { s2 with limit := m' } := by
  unfold dropCompound at h
  cases hf : f s with
  | ok a' s2 =>
    rw [hf] at h
    simp only [WRes.ok.injEq] at h
    obtain ⟨rfl, rfl⟩ := h
    exact ⟨_, s2, rfl, rfl⟩
  | err e s2 => rw [hf] at h; cases h

/-! ### Element loops -/

/-- A loop over elements. -/
def foldW {α : Type} (step : Comp → α → W Comp) : Comp → List α → W Comp
  | c, [] => pure c
  | c, v :: vs => do
    let c ← step c v
    foldW step c vs

/-- Inside a compound: nothing is pending. -/
structure Idle (s : Ser) : Prop where
  good : Good s
  nv : s.nv = false
  isd : s.isd = 0

/-- What one element writes. -/
structure Elem (rest : Bool) (R : Text → Prop) (s s' : Ser) : Prop where
  idle : Idle s'
  pretty : s'.pretty = s.pretty
  text : ∃ a t, Layout a ∧ R t ∧ Step s s' ((if rest then [','] else []) ++ (a ++ t))

theorem foldW_body {α : Type} {R : α → Text → Prop} {step : Comp → α → W Comp} {vs : List α} {s0 : Ser}
    (hstep : ∀ v ∈ vs, ∀ c s c' s', Idle s → s.core = s0.core → c.range = none → step c v s = .ok c' s' →
      c'.rest = true ∧ c'.nv = c.nv ∧ c'.range = c.range ∧ Elem c.rest (R v) s s') :
    ∀ c s c' s', Idle s → s.core = s0.core → c.range = none → foldW step c vs s = .ok c' s' →
      Idle s' ∧ s'.pretty = s.pretty ∧ c'.nv = c.nv ∧ c'.range = none ∧
      ((vs = [] ∧ c' = c ∧ s' = s) ∨
       (c'.rest = true ∧ ∃ a ts u, Layout a ∧ All2 R vs ts ∧ Body ts u ∧
         Step s s' ((if c.rest then [','] else []) ++ (a ++ u)))) := by
  induction vs with
  | nil =>
    intro c s c' s' hi _ hr h
    obtain ⟨rfl, rfl⟩ := wpure_ok h
    exact ⟨hi, rfl, rfl, hr, .inl ⟨rfl, rfl, rfl⟩⟩
  | cons v vs ih =>
    intro c s c' s' hi hk hcr h
    obtain ⟨c1, s1, h1, h⟩ := wbind_ok h
    obtain ⟨hr, hn, hg, he⟩ := hstep v (by simp) c s c1 s1 hi hk hcr h1
    obtain ⟨a, t, ha, ht, hst⟩ := he.text
    obtain ⟨hi', hp', hn', hg', hcase⟩ := ih (fun v hv => hstep v (by simp [hv])) c1 s1 c' s' he.idle (hst.core.trans hk) (hg.trans hcr) h
    refine ⟨hi', hp'.trans he.pretty, hn'.trans hn, hg', .inr ?_⟩
    rcases hcase with ⟨rfl, rfl, rfl⟩ | ⟨hr', a', ts, u, ha', hts, hu, hst'⟩
    · exact ⟨hr, a, [t], t, ha, ⟨ht, trivial⟩, .one, hst⟩
    · rw [hr] at hst'
      refine ⟨hr', a, t :: ts, t ++ ([] ++ ',' :: (a' ++ u)), ha, ⟨ht, hts⟩, .cons .nil ha' hu, ?_⟩
      simpa using hst.trans hst'

end Ron
