import Verif.Spec.Fit
import Verif.Lemmas.Write
import Verif.Lemmas.SerStep
/-! Serialization succeeds if names are identifiers, the nesting is within the limit and the writer does not fail. -/

set_option linter.unusedSimpArgs false

namespace Ron

variable [Env]

/-- The budget is at least `n`. -/
def Fits (s : Ser) (n : Nat) : Prop := ∀ m, s.limit = some m → n ≤ m

/-- The budget has not shrunk. -/
def LimLe (s s' : Ser) : Prop := ∀ m', s'.limit = some m' → ∃ m, s.limit = some m ∧ m ≤ m'

/-- The action succeeds on a quiet writer with budget `n`, and does not use up budget. -/
def Goes {α : Type} (n : Nat) (f : W α) : Prop :=
  ∀ s, s.Quiet → Fits s n → ∃ a s', f s = .ok a s' ∧ s'.Quiet ∧ LimLe s s'

omit [Env] in
theorem LimLe.refl (s : Ser) : LimLe s s := fun m h => ⟨m, h, Nat.le_refl _⟩
omit [Env] in
theorem LimLe.trans {a b c : Ser} (h : LimLe a b) (g : LimLe b c) : LimLe a c := by
  intro m hm
  obtain ⟨k, hk, h1⟩ := g m hm
  obtain ⟨j, hj, h2⟩ := h k hk
  exact ⟨j, hj, by omega⟩
omit [Env] in
theorem Fits.le {s s' : Ser} {n : Nat} (h : Fits s n) (g : LimLe s s') : Fits s' n := by
  intro m hm
  obtain ⟨k, hk, h1⟩ := g m hm
  have := h k hk
  omega

omit [Env] in
theorem Goes.mono {α : Type} {n m : Nat} {f : W α} (h : Goes n f) (hm : n ≤ m) : Goes m f :=
  fun s hq hf => h s hq fun k hk => Nat.le_trans hm (hf k hk)
omit [Env] in
theorem Goes.pure {α : Type} {n : Nat} (a : α) : Goes n (Pure.pure a : W α) := fun s hq _ => ⟨a, s, rfl, hq, .refl s⟩
omit [Env] in
theorem Goes.get {n : Nat} : Goes n wget := fun s hq _ => ⟨s, s, rfl, hq, .refl s⟩
omit [Env] in
theorem Goes.bind {α β : Type} {n : Nat} {f : W α} {g : α → W β} (hf : Goes n f) (hg : ∀ a, Goes n (g a)) :
    Goes n (f >>= g) := by
  intro s hq hfit
  obtain ⟨a, s1, h1, q1, l1⟩ := hf s hq hfit
  obtain ⟨b, s2, h2, q2, l2⟩ := hg a s1 q1 (hfit.le l1)
  exact ⟨b, s2, by simp only [wbind_apply, h1, h2], q2, l1.trans l2⟩
omit [Env] in
theorem Goes.ite {α : Type} {n : Nat} {c : Prop} [Decidable c] {f g : W α} (hf : Goes n f) (hg : Goes n g) :
    Goes n (if c then f else g) := by split <;> assumption
omit [Env] in
theorem Goes.write {n : Nat} (t : Text) : Goes n (write t) := fun s hq _ => ⟨(), _, write_quiet hq t, hq.put t, .refl s⟩
omit [Env] in
theorem Goes.mod {n : Nat} {f : Ser → Ser} (h : ∀ s, (f s).w = s.w ∧ (f s).limit = s.limit) : Goes n (wmod f) := by
  intro s hq _
  refine ⟨(), f s, rfl, ?_, ?_⟩
  · show (f s).w.fault = _; rw [(h s).1]; exact hq
  · intro m hm; exact ⟨m, by rw [← (h s).2]; exact hm, Nat.le_refl _⟩
omit [Env] in
theorem Goes.writeAll {n : Nat} (ts : List Text) : Goes n (writeAll ts) := by
  induction ts with
  | nil => exact .pure ()
  | cons t ts ih => exact .bind (.write t) fun _ => ih
omit [Env] in
theorem Goes.drop {α : Type} {n : Nat} {f : W α} (h : Goes n f) : Goes n (dropCompound f) := by
  intro s hq hf
  obtain ⟨a, s1, h1, q1, l1⟩ := h s hq hf
  refine ⟨a, { s1 with limit := s1.limit.map (· + 1) }, by unfold dropCompound; rw [h1], q1, ?_⟩
  intro m hm
  cases hl : s1.limit with
  | none => simp [hl] at hm
  | some k =>
    obtain ⟨j, hj, h2⟩ := l1 k hl
    simp [hl] at hm
    exact ⟨j, hj, by omega⟩

omit [Env] in
theorem guardEnter_fits {n : Nat} {s : Ser} (hf : Fits s (n + 1)) :
    guardEnter s = .ok () { s with limit := s.limit.map (· - 1) } ∧ Fits { s with limit := s.limit.map (· - 1) } n := by
  unfold guardEnter
  cases hl : s.limit with
  | none =>
    refine ⟨?_, ?_⟩
    · obtain ⟨w, p, d, e, nv, l, i⟩ := s
      simp only at hl
      subst hl; rfl
    · intro m hm; simp at hm
  | some m =>
    have := hf m hl
    cases m with
    | zero => omega
    | succ m =>
      refine ⟨by simp, ?_⟩
      intro k hk; simp at hk; omega

omit [Env] in
theorem guard_limLe {s s1 : Ser} {n : Nat} (hf : Fits s (n + 1)) (l1 : LimLe { s with limit := s.limit.map (· - 1) } s1) :
    LimLe s { s1 with limit := s1.limit.map (· + 1) } := by
  intro m hm
  cases h1 : s1.limit with
  | none => simp [h1] at hm
  | some k =>
    obtain ⟨j, hj, h2⟩ := l1 k h1
    simp [h1] at hm
    cases hl : s.limit with
    | none => simp [hl] at hj
    | some i =>
      simp [hl] at hj
      have := hf i hl
      exact ⟨i, rfl, by omega⟩

omit [Env] in
theorem Goes.guardQ {α : Type} {n : Nat} {f : W α} (h : Goes n f) : Goes (n + 1) (guardQ f) := by
  intro s hq hf
  obtain ⟨h1, f1⟩ := guardEnter_fits hf
  obtain ⟨a, s1, h2, q1, l1⟩ := h { s with limit := s.limit.map (· - 1) } hq f1
  refine ⟨a, { s1 with limit := s1.limit.map (· + 1) }, by unfold Ron.guardQ guardLeave; simp only [wbind_apply, h1, h2, wmod_apply, wpure_apply], q1, guard_limLe hf l1⟩
omit [Env] in
theorem Goes.guardR {α : Type} {n : Nat} {f : W α} (h : Goes n f) : Goes (n + 1) (guardR f) := by
  intro s hq hf
  obtain ⟨h1, f1⟩ := guardEnter_fits hf
  obtain ⟨a, s1, h2, q1, l1⟩ := h { s with limit := s.limit.map (· - 1) } hq f1
  refine ⟨a, { s1 with limit := s1.limit.map (· + 1) }, ?_, q1, guard_limLe hf l1⟩
  have e : Ron.guardR f = (guardEnter >>= fun _ => dropCompound f) := rfl
  simp only [e, wbind_apply, h1, dropCompound, h2]

/-! ### Pieces -/

theorem Goes.validate {n : Nat} {name : Text} (h : RawName name) : Goes n (validateIdentifier name) := by
  unfold validateIdentifier
  have h1 : name.isEmpty = false := by simp [h.1]
  have h2 : name.all isIdentRaw = true := by rw [List.all_eq_true]; exact h.2
  rw [h1, h2]
  exact .pure ()
theorem Goes.ident {n : Nat} {name : Text} (h : RawName name) : Goes n (writeIdentifier name) := by
  unfold writeIdentifier
  simp only [ite_seq, ite_seq2]
  exact .bind (.validate h) fun _ => .bind (.ite (.write _) (.pure _)) fun _ => .write _

omit [Env] in
theorem Goes.pretty {n : Nat} {α : Type} {o : Option (PrettyConfig × Nat)} {f : W α} {g : PrettyConfig → Nat → W α} (hf : Goes n f)
    (hg : ∀ c i, Goes n (g c i)) : Goes n (match o with | none => f | some (c, i) => g c i) := by
  cases o with
  | none => exact hf
  | some p => exact hg p.1 p.2

omit [Env] in
theorem Goes.startIndent {n : Nat} : Goes n startIndent :=
  .bind .get fun _ => .pretty (.pure _) fun _ _ => .bind (.mod fun _ => ⟨rfl, rfl⟩) fun _ => .ite (.write _) (.pure _)
omit [Env] in
theorem Goes.indent {n : Nat} : Goes n indent :=
  .bind .get fun _ => .pretty (.pure _) fun _ _ => .ite (.writeAll _) (.pure _)
omit [Env] in
theorem Goes.endIndent {n : Nat} : Goes n endIndent := by
  refine .bind .get fun s => .pretty (.pure _) fun c i => ?_
  simp only [ite_seq]
  exact .bind (.ite (.writeAll _) (.pure _)) fun _ => .mod fun _ => ⟨rfl, rfl⟩

omit [Env] in
theorem Goes.somes {n k : Nat} : Goes n (openSomes k) := .writeAll _
omit [Env] in
theorem Goes.closes {n k : Nat} : Goes n (closeSomes k) := .writeAll _
theorem Goes.between {n : Nat} {b : Bool} : Goes n (betweenSep b) :=
  .bind (.write _) fun _ => .bind .get fun _ => .pretty (.pure _) fun _ _ => .ite (.write _) (.write _)
theorem Goes.trailing {n : Nat} {r b : Bool} : Goes n (trailingComma r b) := by
  refine .bind .get fun s => ?_
  split
  · exact .ite (.bind (.write _) fun _ => .write _) (.pure _)
  · exact .pure _
omit [Env] in
theorem Goes.elemIndex {n : Nat} {p : Option (PrettyConfig × Nat)} {i : Nat} : Goes n (elemIndex p i) := by
  unfold Ron.elemIndex
  split
  · exact .ite (.bind (.write _) fun _ => .pure _) (.pure _)
  · exact .pure _
omit [Env] in
theorem Goes.colonSep {n : Nat} {p : Option (PrettyConfig × Nat)} : Goes n (colonSep p) := by
  unfold Ron.colonSep
  split
  · exact .write _
  · exact .pure _
omit [Env] in
theorem Goes.unless {n : Nat} {b : Bool} {f : W Unit} (h : Goes n f) : Goes n (if b then f else Pure.pure ()) :=
  .ite h (.pure _)

theorem Goes.serInt {n : Nat} {t : IntTy} {v : Int} : Goes n (serInt t v) :=
  .bind (.write _) fun _ => .bind .get fun _ => .unless (.write _)
theorem Goes.serF32 {n : Nat} {b : F32} : Goes n (serF32 b) := by
  unfold Ron.serF32
  simp only [ite_seq, ite_seq2]
  exact .bind (.unless (.write _)) fun _ => .bind (.write _) fun _ => .bind (.unless (.write _)) fun _ =>
    .bind .get fun _ => .unless (.write _)
theorem Goes.serF64 {n : Nat} {b : F64} : Goes n (serF64 b) := by
  unfold Ron.serF64
  simp only [ite_seq, ite_seq2]
  exact .bind (.unless (.write _)) fun _ => .bind (.write _) fun _ => .bind (.unless (.write _)) fun _ =>
    .bind .get fun _ => .unless (.write _)
theorem Goes.serNumber {n : Nat} {x : Number} : Goes n (serNumber x) := by
  cases x
  · exact .serInt
  · exact .serF32
  · exact .serF64
theorem Goes.serChar {n : Nat} {c : Char} : Goes n (serChar c) := by
  unfold Ron.serChar
  simp only [ite_seq, ite_seq2]
  exact .bind (.write _) fun _ => .bind (.unless (.write _)) fun _ => .bind (.write _) fun _ => .write _
theorem Goes.serRawStr {n : Nat} {p t : Text} : Goes n (serRawStr p t) :=
  .ite (.bind (.write _) fun _ => .bind (.write _) fun _ => .bind (.write _) fun _ => .bind (.write _) fun _ =>
    .bind (.write _) fun _ => .write _) (.bind (.write _) fun _ => .bind (.write _) fun _ => .write _)
theorem Goes.serStr {n : Nat} {t : Text} : Goes n (serStr t) :=
  .bind .get fun _ => .ite (.bind (.write _) fun _ => .bind (.writeAll _) fun _ => .write _) .serRawStr
theorem Goes.serBytes {n : Nat} {b : List UInt8} : Goes n (serBytes b) := by
  have he : Goes n (serEscapedBytes b) := .bind (.write _) fun _ => .bind (.writeAll _) fun _ => .write _
  refine .bind .get fun _ => .ite ?_ he
  cases utf8Dec b with
  | none => exact he
  | some t => exact .serRawStr

theorem Goes.serUnit {n : Nat} : Goes n serUnit := .bind .get fun _ => .unless (.write _)
theorem Goes.serNone {n : Nat} : Goes n serNone :=
  .bind .get fun _ => .bind (.mod fun _ => ⟨rfl, rfl⟩) fun _ => .bind .somes fun _ => .bind (.write _) fun _ => .closes
theorem Goes.serSome {n : Nat} {f : W Unit} (h : Goes n f) : Goes (n + 1) (serSome f) :=
  .bind .get fun _ => .ite
    (.bind (.mod fun _ => ⟨rfl, rfl⟩) fun _ => .bind h.guardQ fun _ => .mod fun _ => ⟨rfl, rfl⟩)
    (.bind (.mod fun _ => ⟨rfl, rfl⟩) fun _ => .bind (.write _) fun _ => .bind h.guardQ fun _ =>
      .bind (.write _) fun _ => .mod fun _ => ⟨rfl, rfl⟩)
theorem Goes.serUnitStruct {n : Nat} {name : Text} (h : RawName name) : Goes n (serUnitStruct name) :=
  .bind .get fun _ => .ite (.write _) (.ite (.ident h) (.bind (.validate h) fun _ => .serUnit))
theorem Goes.serRaw {n : Nat} {t : Text} : Goes (n + 1) (serRaw t) :=
  .bind .get fun _ => .bind (.mod fun _ => ⟨rfl, rfl⟩) fun _ => .bind .somes fun _ => .bind (Goes.guardR (.write _)) fun _ => .closes
theorem Goes.serNewtypeStruct {n : Nat} {name : Text} {f : W Unit} (hn : RawName name) (h : Goes n f) :
    Goes (n + 1) (serNewtypeStruct name f) := by
  refine .bind .get fun _ => .ite
    (.bind (.mod fun _ => ⟨rfl, rfl⟩) fun _ => .bind (.validate hn) fun _ => h.guardR) ?_
  simp only [ite_seq2]
  exact .bind (.ite (.ident hn) (.validate hn)) fun _ => .bind (.mod fun _ => ⟨rfl, rfl⟩) fun _ =>
    .bind (.write _) fun _ => .bind h.guardQ fun _ => .write _
theorem Goes.serNewtypeVariant {n : Nat} {name v : Text} {f : W Unit} (hn : RawName name) (hv : RawName v) (h : Goes n f) :
    Goes (n + 1) (serNewtypeVariant name v f) :=
  .bind (.validate hn) fun _ => .bind (.ident hv) fun _ => .bind (.write _) fun _ => .bind (.mod fun _ => ⟨rfl, rfl⟩) fun _ =>
    .bind h.guardQ fun _ => .bind (.mod fun _ => ⟨rfl, rfl⟩) fun _ => .write _

/-! ### Compounds -/

theorem Goes.seqElement {n : Nat} {c : Comp} {f : W Unit} (h : Goes n f) : Goes (n + 1) (seqElement c f) := by
  refine .bind .get fun _ => ?_
  simp only [ite_seq, ite_seq2]
  exact .bind (.ite .between (.pure _)) fun _ => .bind (.ite .indent (.pure _)) fun _ => .bind .elemIndex fun _ =>
    .bind h.guardQ fun _ => .pure _
theorem Goes.seqEnd {n : Nat} {c : Comp} : Goes n (seqEnd c) := by
  refine .bind .get fun _ => .bind .trailing fun _ => ?_
  simp only [ite_seq, ite_seq2]
  exact .bind (.ite .endIndent (.pure _)) fun _ => .write _
theorem Goes.tupleElement {n : Nat} {c : Comp} {f : W Unit} (h : Goes n f) : Goes (n + 1) (tupleElement c f) := by
  refine .bind .get fun _ => ?_
  simp only [ite_seq, ite_seq2]
  exact .bind (.ite .between (.pure _)) fun _ => .bind (.ite .indent (.pure _)) fun _ =>
    .bind h.guardQ fun _ => .pure _
theorem Goes.tupleEnd {n : Nat} {c : Comp} : Goes n (tupleEnd c) := by
  refine .bind .get fun _ => .bind .trailing fun _ => ?_
  simp only [ite_seq, ite_seq2]
  exact .bind (.ite .endIndent (.pure _)) fun _ => .ite (.write _) (.pure _)
theorem Goes.mapEntry {n : Nat} {c : Comp} {f g : W Unit} (h : Goes n f) (h' : Goes n g) : Goes (n + 1) (mapEntry c f g) := by
  refine .bind .get fun _ => ?_
  simp only [ite_seq, ite_seq2]
  exact .bind (.ite .between (.pure _)) fun _ => .bind (.ite .indent (.pure _)) fun _ =>
    .bind h.guardR fun _ => .bind (.write _) fun _ => .bind .colonSep fun _ => .bind h'.guardQ fun _ => .pure _
theorem Goes.mapEnd {n : Nat} {c : Comp} : Goes n (mapEnd c) := by
  refine .bind .get fun _ => .bind .trailing fun _ => ?_
  simp only [ite_seq, ite_seq2]
  exact .bind (.ite .endIndent (.pure _)) fun _ => .write _

theorem Goes.docLines {n : Nat} : ∀ ls, Goes n (docLines ls)
  | [] => .pure _
  | _ :: ls => .bind (.write _) fun _ => .bind (.write _) fun _ => .bind (.write _) fun _ => .bind .indent fun _ => Goes.docLines ls
theorem Goes.fieldLead {n : Nat} {p : Option (PrettyConfig × Nat)} : Goes n (fieldLead p) := by
  refine .bind .indent fun _ => ?_
  split
  · split
    · exact .docLines _
    · exact .pure _
  · exact .pure _
theorem Goes.takeMeta {n : Nat} {k : Text} : Goes n (takeMeta k) := by
  intro s hq _
  unfold Ron.takeMeta
  repeat' split
  all_goals exact ⟨_, _, rfl, hq, .refl s⟩
theorem Goes.restoreMeta {n : Nat} {k : Text} {r : Option MetaField} : Goes n (restoreMeta k r) := by
  refine .mod fun s => ?_
  split <;> exact ⟨rfl, rfl⟩
theorem Goes.fieldPlain {n : Nat} {c : Comp} {k : Text} {f : W Unit} (hk : RawName k) (h : Goes n f) :
    Goes (n + 1) (fieldPlain c k f) := by
  refine .bind .takeMeta fun _ => .bind .get fun _ => ?_
  simp only [ite_seq, ite_seq2]
  exact .bind (.ite .between (.pure _)) fun _ => .bind (.ite .fieldLead (.pure _)) fun _ => .bind (.ident hk) fun _ =>
    .bind (.write _) fun _ => .bind .colonSep fun _ => .bind h.guardQ fun _ => .bind .restoreMeta fun _ => .pure _

/-- Buffered bounds have names that can be written. -/
def Comp.Named (c : Comp) : Prop :=
  ∀ r, c.range = some r → (∀ k n, r.first = some (k, n) → RawName k) ∧ (∀ k n, r.second = some (k, n) → RawName k)

omit [Env] in
/-- As `bind`, with a condition on the result of the first part. -/
theorem Goes.bindP {α β : Type} {n : Nat} {f : W α} {g : α → W β} {Q : α → Prop} (hf : Goes n f)
    (hp : ∀ s a s', f s = .ok a s' → Q a) (hg : ∀ a, Q a → Goes n (g a)) : Goes n (f >>= g) := by
  intro s hq hfit
  obtain ⟨a, s1, h1, q1, l1⟩ := hf s hq hfit
  obtain ⟨b, s2, h2, q2, l2⟩ := hg a (hp _ _ _ h1) s1 q1 (hfit.le l1)
  exact ⟨b, s2, by simp only [wbind_apply, h1, h2], q2, l1.trans l2⟩

theorem fieldPlain_comp {c c' : Comp} {k : Text} {f : W Unit} {s s' : Ser} (h : fieldPlain c k f s = .ok c' s') :
    c' = { c with rest := true } := by
  unfold fieldPlain at h
  simp only [ite_seq, ite_seq2] at h
  obtain ⟨_, _, -, h⟩ := wbind_ok h
  obtain ⟨_, _, -, h⟩ := wbind_ok h
  obtain ⟨_, _, -, h⟩ := wbind_ok h
  obtain ⟨_, _, -, h⟩ := wbind_ok h
  obtain ⟨_, _, -, h⟩ := wbind_ok h
  obtain ⟨_, _, -, h⟩ := wbind_ok h
  obtain ⟨_, _, -, h⟩ := wbind_ok h
  obtain ⟨_, _, -, h⟩ := wbind_ok h
  obtain ⟨_, _, -, h⟩ := wbind_ok h
  exact (wpure_ok h).1.symm

theorem replayField_comp {c c' : Comp} {b : Option (Text × Number)} {s s' : Ser} (h : replayField c b s = .ok c' s') :
    c'.range = c.range := by
  cases b with
  | none => rw [← (wpure_ok h).1]
  | some b => rw [fieldPlain_comp h]

theorem Goes.replay {n : Nat} {c : Comp} {b : Option (Text × Number)} (h : ∀ k x, b = some (k, x) → RawName k) :
    Goes (n + 1) (replayField c b) := by
  cases b with
  | none => exact .pure _
  | some b => exact .fieldPlain (h b.1 b.2 rfl) .serNumber

theorem rangeFallback_comp {c c' : Comp} {r : RangeC} {s s' : Ser} (h : rangeFallback c r s = .ok c' s') : c'.Named := by
  unfold rangeFallback at h
  simp only [ite_seq3] at h
  obtain ⟨_, _, -, h⟩ := wbind_ok h
  obtain ⟨_, _, -, h⟩ := wbind_ok h
  obtain ⟨_, _, -, h⟩ := wbind_ok h
  obtain ⟨c1, _, h1, h⟩ := wbind_ok h
  have e1 := replayField_comp h1
  have e2 := replayField_comp h
  intro r' hr
  rw [e2, e1] at hr
  simp only [Option.some.injEq] at hr
  subst hr
  exact ⟨fun _ _ e => by simp at e, fun _ _ e => by simp at e⟩

theorem Goes.rangeFallback {n : Nat} {c : Comp} {r : RangeC} (h1 : ∀ k x, r.first = some (k, x) → RawName k)
    (h2 : ∀ k x, r.second = some (k, x) → RawName k) : Goes (n + 1) (rangeFallback c r) := by
  refine .bind (.write _) fun _ => .bind .get fun _ => ?_
  simp only [ite_seq3]
  exact .bind (.ite (.bind (.mod fun _ => ⟨rfl, rfl⟩) fun _ => .startIndent) (.pure _)) fun _ =>
    .bind (.replay h1) fun _ => .replay h2

theorem Goes.structField {n : Nat} {c : Comp} {k : Text} {x : Option Number} {f : W Unit} (hc : c.Named) (hk : RawName k)
    (h : Goes n f) : Goes (n + 1) (structField c k x f) := by
  unfold Ron.structField
  split
  · exact .fieldPlain hk h
  · rename_i r hr
    obtain ⟨h1, h2⟩ := hc r hr
    refine .ite (.fieldPlain hk h) ?_
    split
    · exact .ite (.bind (.rangeFallback h1 h2) fun _ => .fieldPlain hk h) (.ite (.pure _) (.pure _))
    · exact .bind (.rangeFallback h1 h2) fun _ => .fieldPlain hk h

theorem structField_comp {c c' : Comp} {k : Text} {x : Option Number} {f : W Unit} {s s' : Ser} (hc : c.Named) (hk : RawName k)
    (h : structField c k x f s = .ok c' s') : c'.Named := by
  have key : ∀ {c c' : Comp} {s s'}, c.Named → fieldPlain c k f s = .ok c' s' → c'.Named := by
    intro c c' s s' hc h
    rw [fieldPlain_comp h]; exact hc
  cases hr : c.range with
  | none =>
    simp only [structField, hr] at h
    exact key hc h
  | some r =>
    simp only [structField, hr] at h
    obtain ⟨h1, h2⟩ := hc r hr
    rw [ite_W] at h
    split at h
    · exact key hc h
    · cases x with
      | some n =>
        simp only at h
        rw [ite_W] at h
        split at h
        · obtain ⟨c1, s1, g1, g2⟩ := wbind_ok h
          exact key (rangeFallback_comp g1) g2
        · rw [ite_W] at h
          split at h
          · rw [← (wpure_ok h).1]
            intro r' e
            simp only [Option.some.injEq] at e
            subst e
            exact ⟨fun k' n' e => by simp at e; rw [← e.1]; exact hk, h2⟩
          · rw [← (wpure_ok h).1]
            intro r' e
            simp only [Option.some.injEq] at e
            subst e
            exact ⟨h1, fun k' n' e => by simp at e; rw [← e.1]; exact hk⟩
      | none =>
        obtain ⟨c1, s1, g1, g2⟩ := wbind_ok h
        exact key (rangeFallback_comp g1) g2

theorem Goes.rangeEnd {n : Nat} {r : RangeC} : Goes n (rangeEnd r) := by
  have hb : ∀ b, Goes n (serBound b) := by
    intro b
    cases b with
    | none => exact .pure _
    | some b => exact .serNumber
  unfold Ron.rangeEnd
  cases r.kind
  · exact .bind (hb _) fun _ => .bind (.write _) fun _ => hb _
  · exact .bind (hb _) fun _ => .bind (.write _) fun _ => hb _
  · exact .bind (hb _) fun _ => .write _
  · exact .bind (.write _) fun _ => hb _
  · exact .bind (.write _) fun _ => hb _
theorem Goes.structEnd {n : Nat} {c : Comp} : Goes n (structEnd c) := by
  have hp : Goes n (do
      let s ← wget
      trailingComma c.rest s.compactStructs
      if !s.compactStructs then Ron.endIndent else Pure.pure ()
      if !c.nv then Ron.write c!")" else Pure.pure ()) := by
    refine .bind .get fun _ => .bind .trailing fun _ => ?_
    simp only [ite_seq, ite_seq2]
    exact .bind (.ite .endIndent (.pure _)) fun _ => .ite (.write _) (.pure _)
  unfold Ron.structEnd
  dsimp only
  split
  · exact .ite hp .rangeEnd
  · exact hp

/-! ### Openings -/

omit [Env] in
theorem Goes.seqOpen {n : Nat} {l : Option Nat} : Goes n (seqOpen l) := by
  refine .bind (.mod fun _ => ⟨rfl, rfl⟩) fun _ => .bind (.write _) fun _ => .bind .get fun _ => ?_
  simp only [ite_seq3]
  refine .bind (.ite (.bind ?_ fun _ => .startIndent) (.pure _)) fun _ => .pure _
  cases l with
  | none => exact .pure _
  | some _ => exact .mod fun _ => ⟨rfl, rfl⟩
omit [Env] in
theorem Goes.mapOpen {n : Nat} {l : Option Nat} : Goes n (mapOpen l) := by
  refine .bind (.mod fun _ => ⟨rfl, rfl⟩) fun _ => .bind (.write _) fun _ => .bind .get fun _ => ?_
  simp only [ite_seq3]
  refine .bind (.ite (.bind ?_ fun _ => .startIndent) (.pure _)) fun _ => .pure _
  cases l with
  | none => exact .pure _
  | some _ => exact .mod fun _ => ⟨rfl, rfl⟩
omit [Env] in
theorem Goes.tupleIndent {n l : Nat} : Goes n (tupleIndent l) :=
  .bind .get fun _ => .ite (.bind (.mod fun _ => ⟨rfl, rfl⟩) fun _ => .startIndent) (.pure _)
omit [Env] in
theorem Goes.structIndent {n l : Nat} : Goes n (structIndent l) :=
  .bind .get fun _ => .ite (.bind (.mod fun _ => ⟨rfl, rfl⟩) fun _ => .startIndent) (.pure _)
theorem Goes.tupleOpen {n l : Nat} : Goes n (tupleOpen l) := by
  refine .bind .get fun _ => .bind (.mod fun _ => ⟨rfl, rfl⟩) fun _ => ?_
  simp only [ite_seq, ite_seq2]
  exact .bind (.ite (.write _) (.pure _)) fun _ => .bind .tupleIndent fun _ => .pure _
theorem Goes.structName {n : Nat} {name : Text} (h : RawName name) : Goes n (structName name) :=
  .bind .get fun _ => .ite (.ident h) (.validate h)
theorem Goes.tupleVariantOpen {n l : Nat} {name v : Text} (h : RawName name) (h' : RawName v) : Goes n (tupleVariantOpen name v l) :=
  .bind (.mod fun _ => ⟨rfl, rfl⟩) fun _ => .bind (.validate h) fun _ => .bind (.ident h') fun _ => .bind (.write _) fun _ =>
    .bind .tupleIndent fun _ => .pure _
theorem Goes.structVariantOpen {n l : Nat} {name v : Text} (h : RawName name) (h' : RawName v) : Goes n (structVariantOpen name v l) :=
  .bind (.mod fun _ => ⟨rfl, rfl⟩) fun _ => .bind (.validate h) fun _ => .bind (.ident h') fun _ => .bind (.write _) fun _ =>
    .bind .structIndent fun _ => .pure _
theorem structOpenPlain_comp {l : Nat} {name : Text} {s s' : Ser} {c : Comp} (h : structOpenPlain name l s = .ok c s') :
    c.range = none := by
  unfold structOpenPlain at h
  obtain ⟨_, _, -, h⟩ := wbind_ok h
  obtain ⟨_, _, -, h⟩ := wbind_ok h
  rw [ite_W] at h
  simp only [ite_seq, ite_seq2] at h
  split at h
  · obtain ⟨_, _, -, h⟩ := wbind_ok h
    obtain ⟨_, _, -, h⟩ := wbind_ok h
    rw [← (wpure_ok h).1]
  · obtain ⟨_, _, -, h⟩ := wbind_ok h
    obtain ⟨_, _, -, h⟩ := wbind_ok h
    obtain ⟨_, _, -, h⟩ := wbind_ok h
    rw [← (wpure_ok h).1]
theorem Goes.structOpenPlain {n l : Nat} {name : Text} (h : RawName name) : Goes n (structOpenPlain name l) := by
  refine .bind .get fun _ => .bind (.mod fun _ => ⟨rfl, rfl⟩) fun _ => ?_
  simp only [ite_seq, ite_seq2]
  exact .ite (.bind (.validate h) fun _ => .bind .structIndent fun _ => .pure _)
    (.bind (.ite (.ident h) (.validate h)) fun _ => .bind (.write _) fun _ => .bind .structIndent fun _ => .pure _)
theorem Goes.structOpen {n l : Nat} {name : Text} (h : RawName name) : Goes n (structOpen name l) := by
  refine .bind .get fun _ => ?_
  split
  · exact .bind (.mod fun _ => ⟨rfl, rfl⟩) fun _ => .pure _
  · exact .structOpenPlain h
theorem structOpen_comp {l : Nat} {name : Text} {s s' : Ser} {c : Comp} (h : structOpen name l s = .ok c s') : c.Named := by
  unfold structOpen at h
  obtain ⟨s1, _, -, h⟩ := wbind_ok h
  have hs : ∀ (b : Bool) (k : Option RangeKind) (f : RangeKind → W Comp) (g : W Comp) (s : Ser) (r : WRes Comp),
      (match b, k with | true, some k => f k | _, _ => g) s = r → (∃ k, f k s = r) ∨ g s = r := by
    intro b k f g s r h
    cases b <;> cases k
    · exact .inr h
    · exact .inr h
    · exact .inr h
    · exact .inl ⟨_, h⟩
  rcases hs _ _ _ _ _ _ h with ⟨k, h⟩ | h
  · obtain ⟨_, _, -, h⟩ := wbind_ok h
    rw [← (wpure_ok h).1]
    intro r e
    simp only [Option.some.injEq] at e
    subst e
    exact ⟨fun _ _ e => by simp at e, fun _ _ e => by simp at e⟩
  · have := structOpenPlain_comp h
    intro r e
    rw [this] at e; cases e
theorem structVariantOpen_comp {l : Nat} {name v : Text} {s s' : Ser} {c : Comp} (h : structVariantOpen name v l s = .ok c s') :
    c.Named := by
  unfold structVariantOpen at h
  obtain ⟨_, _, -, h⟩ := wbind_ok h
  obtain ⟨_, _, -, h⟩ := wbind_ok h
  obtain ⟨_, _, -, h⟩ := wbind_ok h
  obtain ⟨_, _, -, h⟩ := wbind_ok h
  obtain ⟨_, _, -, h⟩ := wbind_ok h
  rw [← (wpure_ok h).1]
  intro r e
  cases e

/-! ### Data -/

mutual
/-- Serialization succeeds. -/
theorem ser_goes : ∀ v : SVal, v.Named → Goes v.nesting (ser v)
  | .bool _, _ => by unfold ser; exact .write _
  | .num _, _ => by unfold ser; exact .serNumber
  | .char _, _ => by unfold ser; exact .serChar
  | .str _, _ => by unfold ser; exact .serStr
  | .bytes _, _ => by unfold ser; exact .serBytes
  | .none, _ => by unfold ser; exact .serNone
  | .some v, h => by
    simp only [SVal.Named] at h
    simp only [SVal.nesting]
    unfold ser; exact .serSome (ser_goes v h)
  | .unit, _ => by unfold ser; exact .serUnit
  | .unitStruct _, h => by
    simp only [SVal.Named] at h
    unfold ser; exact .serUnitStruct h
  | .unitVariant _ _, h => by
    simp only [SVal.Named] at h
    unfold ser; exact .bind (.validate h.1) fun _ => .ident h.2
  | .newtypeStruct _ v, h => by
    simp only [SVal.Named] at h
    simp only [SVal.nesting]
    unfold ser; exact .serNewtypeStruct h.1 (ser_goes v h.2)
  | .newtypeVariant _ _ v, h => by
    simp only [SVal.Named] at h
    simp only [SVal.nesting]
    unfold ser; exact .serNewtypeVariant h.1 h.2.1 (ser_goes v h.2.2)
  | .seq _ vs, h => by
    simp only [SVal.Named] at h
    simp only [SVal.nesting]
    unfold ser
    exact .bind .seqOpen fun c => .drop (.bind (serSeq_goes vs c h) fun _ => .seqEnd)
  | .tuple vs, h => by
    simp only [SVal.Named] at h
    simp only [SVal.nesting]
    unfold ser
    exact .bind .tupleOpen fun c => .drop (.bind (serTuple_goes vs c h) fun _ => .tupleEnd)
  | .tupleStruct _ vs, h => by
    simp only [SVal.Named] at h
    simp only [SVal.nesting]
    unfold ser
    exact .bind (.structName h.1) fun _ => .bind .tupleOpen fun c => .drop (.bind (serTuple_goes vs c h.2) fun _ => .tupleEnd)
  | .tupleVariant _ _ vs, h => by
    simp only [SVal.Named] at h
    simp only [SVal.nesting]
    unfold ser
    exact .bind (.tupleVariantOpen h.1 h.2.1) fun c => .drop (.bind (serTuple_goes vs c h.2.2) fun _ => .tupleEnd)
  | .map _ kvs, h => by
    simp only [SVal.Named] at h
    simp only [SVal.nesting]
    unfold ser
    exact .bind .mapOpen fun c => .drop (.bind (serMap_goes kvs c h) fun _ => .mapEnd)
  | .struct _ fs, h => by
    simp only [SVal.Named] at h
    simp only [SVal.nesting]
    unfold ser
    exact .bindP (.structOpen h.1) (fun _ _ _ e => structOpen_comp e) fun c hc =>
      .drop (.bind (serFields_goes fs c hc h.2) fun _ => .structEnd)
  | .structVariant _ _ fs, h => by
    simp only [SVal.Named] at h
    simp only [SVal.nesting]
    unfold ser
    exact .bindP (.structVariantOpen h.1 h.2.1) (fun _ _ _ e => structVariantOpen_comp e) fun c hc =>
      .drop (.bind (serFields_goes fs c hc h.2.2) fun _ => .structEnd)
  | .raw _, _ => by unfold ser; exact .serRaw
theorem serSeq_goes : ∀ (vs : List SVal) (c : Comp), NamedAll vs → Goes (nestingAll vs) (serSeq c vs)
  | [], c, _ => by unfold serSeq; exact .pure _
  | v :: vs, c, h => by
    simp only [NamedAll] at h
    unfold serSeq nestingAll
    exact .bind (.mono (.seqElement (ser_goes v h.1)) (Nat.le_max_left _ _)) fun c =>
      (serSeq_goes vs c h.2).mono (Nat.le_max_right _ _)
theorem serTuple_goes : ∀ (vs : List SVal) (c : Comp), NamedAll vs → Goes (nestingAll vs) (serTuple c vs)
  | [], c, _ => by unfold serTuple; exact .pure _
  | v :: vs, c, h => by
    simp only [NamedAll] at h
    unfold serTuple nestingAll
    exact .bind (.mono (.tupleElement (ser_goes v h.1)) (Nat.le_max_left _ _)) fun c =>
      (serTuple_goes vs c h.2).mono (Nat.le_max_right _ _)
theorem serMap_goes : ∀ (kvs : List (SVal × SVal)) (c : Comp), NamedEntries kvs → Goes (nestingEntries kvs) (serMap c kvs)
  | [], c, _ => by unfold serMap; exact .pure _
  | (k, v) :: vs, c, h => by
    simp only [NamedEntries] at h
    unfold serMap nestingEntries
    have hk := (ser_goes k h.1.1).mono (Nat.le_max_left k.nesting v.nesting)
    have hv := (ser_goes v h.1.2).mono (Nat.le_max_right k.nesting v.nesting)
    exact .bind (.mono (.mapEntry hk hv) (by omega)) fun c =>
      (serMap_goes vs c h.2).mono (Nat.le_max_right _ _)
theorem serFields_goes : ∀ (fs : List (Text × SVal)) (c : Comp), c.Named → NamedFields fs → Goes (nestingFields fs) (serFields c fs)
  | [], c, _, _ => by unfold serFields; exact .pure _
  | (k, v) :: vs, c, hc, h => by
    simp only [NamedFields] at h
    unfold serFields nestingFields
    exact .bindP (.mono (.structField hc h.1.1 (ser_goes v h.1.2)) (Nat.le_max_left _ _))
      (fun _ _ _ e => structField_comp hc h.1.1 e) fun c hc =>
      (serFields_goes vs c hc h.2).mono (Nat.le_max_right _ _)
end

end Ron
