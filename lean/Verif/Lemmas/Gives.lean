import Verif.Lemmas.DeWalk
import Verif.Lemmas.Integer
import Verif.Lemmas.StringsSound
/-!
What programs return when they succeed, and with what budget they run.
-/

set_option linter.unusedSimpArgs false
set_option linter.unusedSectionVars false

namespace Ron

/-- A program that leaves the budget as it was, if it succeeds. -/
def KeepLim {α : Type} (f : P α) : Prop := ∀ s a s', f s = .ok a s' → s'.limit = s.limit

/-- Two states with budget `l`. -/
def SameAt (l : Option Nat) (s s' : St) : Prop := s.limit = l ∧ s'.limit = l

instance (l : Option Nat) : Trace (SameAt l) where
  move _ _ h := h
  step _ h := h
  back _ _ h := h
  track {s s'} h _ := ⟨(trackWs_same s).2.2.2.1.trans h.1, (trackWs_same s').2.2.2.1.trans h.2⟩
  openLine h := h
  closed h _ := h

instance : DeWalk @KeepLim where
  flat {α f} h s a s' e := by
    have := h (SameAt s.limit) s s ⟨rfl, rfl, ⟨rfl, rfl⟩, rfl⟩
    rw [e] at this
    exact this.2.more.1
  bindOk {α β f g} hf hg s b s' e := by
    obtain ⟨a, s1, h1, h2⟩ := bind_ok e
    exact (hg a ⟨_, _, h1⟩ _ _ _ h2).trans (hf _ _ _ h1)
  getSt {α g} hg h s a s' e := h s s a s' e
  mapErr {α f g} _ h s a s' e := by
    unfold mapErr at e
    split at e
    · cases e; exact h _ _ _ (by assumption)
    · cases e
  guardQ {α f} h s a s' e := by
    unfold deGuardQ at e
    split at e
    · cases e
    · rename_i hn
      split at e
      · cases e
        rename_i hf
        have := h _ _ _ hf
        dsimp only at this ⊢
        rw [this]
        cases hl : s.limit with
        | none => rfl
        | some n => cases n with
          | zero => exact absurd hl hn
          | succ n => rfl
      · cases e
  guardR {α f} h s a s' e := by
    unfold deGuardR at e
    split at e
    · cases e
    · rename_i hn
      split at e
      · cases e
        rename_i hf
        have := h _ _ _ hf
        dsimp only at this ⊢
        rw [this]
        cases hl : s.limit with
        | none => rfl
        | some n => cases n with
          | zero => exact absurd hl hn
          | succ n => rfl
      · cases e
  setNv b s a s' e := by cases e; rfl
  setUnwrap s a s' e := by cases e; rfl
  setIdent i s a s' e := by cases e; rfl
  setExts g s a s' e := by cases e; rfl

/-- Run with budget `l`, a successful `f` leaves the budget and returns a `Q`. -/
def Y {α : Type} (l : Option Nat) (f : P α) (Q : α → Prop) : Prop := ∀ s a s', s.limit = l → f s = .ok a s' → s'.limit = l ∧ Q a

/-- The same under a recursion guard. -/
def YG {α : Type} (l : Option Nat) (f : P α) (Q : α → Prop) : Prop := l ≠ some 0 → Y (l.map (· - 1)) f Q

section
variable {α β : Type} {l : Option Nat} {Q : α → Prop} {R : β → Prop}

theorem Y.conseq {f : P α} {Q' : α → Prop} (h : Y l f Q) (hq : ∀ a, Q a → Q' a) : Y l f Q' := fun s a s' hl e =>
  ⟨(h s a s' hl e).1, hq a (h s a s' hl e).2⟩
theorem YG.conseq {f : P α} {Q' : α → Prop} (h : YG l f Q) (hq : ∀ a, Q a → Q' a) : YG l f Q' := fun hl => (h hl).conseq hq
theorem Y.bind {f : P α} {g : α → P β} (hf : Y l f Q) (hg : ∀ a, Q a → Y l (g a) R) : Y l (f >>= g) R := by
  intro s b s' hl e
  obtain ⟨a, s1, h1, h2⟩ := bind_ok e
  obtain ⟨h3, h4⟩ := hf _ _ _ hl h1
  exact hg a h4 _ _ _ h3 h2
theorem Y.skip {f : P α} {g : α → P β} (hf : KeepLim f) (hg : ∀ a, Y l (g a) R) : Y l (f >>= g) R :=
  Y.bind (Q := fun _ => True) (fun s a s' hl e => ⟨(hf s a s' e).trans hl, trivial⟩) fun a _ => hg a
theorem Y.pure {a : α} (h : Q a) : Y l (Pure.pure a) Q := fun s b s' hl e => by cases e; exact ⟨hl, h⟩
theorem Y.fail {e : Err} : Y l (Ron.fail e) Q := fun s a s' _ h => by cases h
theorem Y.ite {c : Prop} [Decidable c] {f g : P α} (hf : c → Y l f Q) (hg : ¬ c → Y l g Q) : Y l (if c then f else g) Q := by
  split
  · exact hf ‹_›
  · exact hg ‹_›
theorem Y.getSt {g : St → P α} (h : ∀ s : St, s.limit = l → Y l (g s) Q) : Y l (Ron.getSt >>= g) Q := fun s a s' hl e => h s hl s a s' hl e
theorem Y.mapErr {f : P α} {g : Err → Err} (h : Y l f Q) : Y l (Ron.mapErr g f) Q := by
  intro s a s' hl e
  unfold Ron.mapErr at e
  split at e
  · cases e; exact h _ _ _ hl (by assumption)
  · cases e
theorem Y.guardQ {f : P α} (h : YG l f Q) : Y l (deGuardQ f) Q := by
  intro s a s' hl e
  unfold deGuardQ at e
  split at e
  · cases e
  · rename_i hn
    split at e
    · cases e
      rename_i hf
      have hne : l ≠ some 0 := fun h => hn (hl.trans h)
      obtain ⟨h1, h2⟩ := h hne _ _ _ (by rw [hl]) hf
      refine ⟨?_, h2⟩
      dsimp only
      rw [h1]
      cases l with
      | none => rfl
      | some n => cases n with
        | zero => exact absurd rfl hne
        | succ n => rfl
    · cases e
theorem Y.guardR {f : P α} (h : YG l f Q) : Y l (deGuardR f) Q := by
  intro s a s' hl e
  refine Y.guardQ h s a s' hl ?_
  unfold deGuardR at e
  unfold deGuardQ
  split at e
  · cases e
  · split at e
    · exact e
    · cases e
/-- A program whose result is known to satisfy `Q` whatever the state. -/
theorem Y.last {f : P α} (hk : KeepLim f) (hq : ∀ s a s', f s = .ok a s' → Q a) : Y l f Q := fun s a s' hl e =>
  ⟨(hk s a s' e).trans hl, hq s a s' e⟩
end

/-- One step in the search for a proof of `Y`. -/
syntax "y_step" : tactic
macro_rules | `(tactic| y_step) => `(tactic| split)
macro_rules | `(tactic| y_step) => `(tactic| with_reducible refine Y.skip (by (repeat dw_step); done) fun _ => ?_)
macro_rules | `(tactic| y_step) => `(tactic| with_reducible refine Y.bind (Y.guardR (by with_reducible assumption)) fun _ _ => ?_)
macro_rules | `(tactic| y_step) => `(tactic| with_reducible refine Y.bind (Y.guardQ (by with_reducible assumption)) fun _ _ => ?_)
macro_rules | `(tactic| y_step) => `(tactic| with_reducible refine Y.getSt fun _ _ => ?_)
macro_rules | `(tactic| y_step) => `(tactic| with_reducible refine Y.ite (fun _ => ?_) fun _ => ?_)
macro_rules | `(tactic| y_step) => `(tactic| with_reducible refine Y.mapErr ?_)
macro_rules | `(tactic| y_step) => `(tactic| with_reducible refine Y.guardR ?_)
macro_rules | `(tactic| y_step) => `(tactic| with_reducible refine Y.guardQ ?_)
macro_rules | `(tactic| y_step) => `(tactic| with_reducible refine Y.pure ?_)
macro_rules | `(tactic| y_step) => `(tactic| with_reducible exact Y.fail)
macro_rules | `(tactic| y_step) => `(tactic| with_reducible assumption)

section
variable {α β : Type} {l : Option Nat} {Q : α → Prop} {R : β → Prop}

theorem Y.deSeq {visit : P α} (h : YG l visit Q) : Y l (deSeq visit) Q := by unfold Ron.deSeq; repeat y_step
theorem Y.deTuple {visit : P α} (h : YG l visit Q) : Y l (deTuple visit) Q := by unfold Ron.deTuple; repeat y_step
theorem Y.deMap {visit : P α} (h : YG l visit Q) : Y l (deMap visit) Q := by unfold Ron.deMap; repeat y_step
theorem Y.structAfterName {name : Text} {visit : P α} (h : YG l visit Q) : Y l (structAfterName name visit) Q := by
  unfold Ron.structAfterName
  have h' : ∀ n, YG l (Ron.mapErr (structErrorName n) visit) Q := fun n hl => (h hl).mapErr
  refine Y.getSt fun s hs => Y.skip (by (repeat dw_step)) fun _ => Y.ite (fun _ => Y.skip (by (repeat dw_step)) fun _ => ?_) (fun _ => ?_)
  · refine Y.bind (Y.guardQ (h' _)) fun _ _ => ?_
    repeat y_step
  · repeat y_step
theorem Y.nextElement {c : Char} {had : Bool} {seed : P α} (h : YG l seed Q) :
    Y l (nextElement c had seed) (fun r => ∀ x, r = some x → Q x.1) := by
  unfold Ron.nextElement
  repeat y_step
  · rintro x ⟨⟩; assumption
  · exact Y.pure (by rintro x ⟨⟩)
theorem Y.nextKey {c : Char} {had : Bool} {seed : P α} (h : YG l seed Q) :
    Y l (nextKey c had seed) (fun r => ∀ x, r = some x → Q x) := by
  unfold Ron.nextKey
  repeat y_step
  · rintro x ⟨⟩; assumption
  · exact Y.pure (by rintro x ⟨⟩)
theorem Y.nextValue {seed : P α} (h : YG l seed Q) : Y l (nextValue seed) (fun r => Q r.1) := by
  unfold Ron.nextValue
  repeat y_step
theorem Y.seqLoop {c : Char} {seed : P α} (h : YG l seed Q) (f : Nat) : ∀ had, Y l (seqLoop c seed f had) (fun as => ∀ a ∈ as, Q a) := by
  induction f with
  | zero => exact fun _ => Y.fail
  | succ f ih =>
    intro had
    unfold Ron.seqLoop
    refine Y.bind (Y.nextElement h) fun r hr => ?_
    cases r with
    | none => exact Y.pure (by simp)
    | some x =>
      refine Y.bind (ih _) fun as has => Y.pure ?_
      exact List.forall_mem_cons.mpr ⟨hr x rfl, has⟩
theorem Y.mapLoop {c : Char} {key : P α} {value : P β} (h : YG l key Q) (h' : YG l value R) (f : Nat) :
    ∀ had, Y l (mapLoop c key value f had) (fun es => ∀ e ∈ es, Q e.1 ∧ R e.2) := by
  induction f with
  | zero => exact fun _ => Y.fail
  | succ f ih =>
    intro had
    unfold Ron.mapLoop
    refine Y.bind (Y.nextKey h) fun r hr => ?_
    cases r with
    | none => exact Y.pure (by simp)
    | some x =>
      refine Y.bind (Y.nextValue h') fun v hv => Y.bind (ih _) fun as has => Y.pure ?_
      exact List.forall_mem_cons.mpr ⟨⟨hr x rfl, hv⟩, has⟩
theorem Y.readSeq {c : Char} {seed : P α} (h : YG l seed Q) : Y l (readSeq c seed) (fun as => ∀ a ∈ as, Q a) :=
  Y.getSt fun _ _ => Y.seqLoop h _ _
theorem Y.readMap {c : Char} {key : P α} {value : P β} (h : YG l key Q) (h' : YG l value R) :
    Y l (readMap c key value) (fun es => ∀ e ∈ es, Q e.1 ∧ R e.2) :=
  Y.getSt fun _ _ => Y.mapLoop h h' _ _
end

section
variable [Env] {α : Type} {l : Option Nat} {Q : α → Prop}

theorem Y.deOption {vn : α} {visit : P α} (hn : Q vn) (h : YG l visit Q) : Y l (deOption vn visit) Q := by
  unfold Ron.deOption
  repeat y_step
theorem Y.deNewtype {name : Text} {visit : P α} (h : YG l visit Q) : Y l (deNewtype name visit) Q := by
  unfold Ron.deNewtype
  repeat y_step
theorem Y.deTupleStruct {name : Text} {visit : P α} (h : YG l visit Q) : Y l (deTupleStruct name visit) Q := by
  unfold Ron.deTupleStruct
  have := Y.deTuple h
  repeat y_step
theorem Y.newtypeVariant {visit : P α} (h : YG l visit Q) : Y l (newtypeVariant visit) Q := by
  unfold Ron.newtypeVariant
  have h' : ∀ n, YG l (Ron.mapErr (structErrorName n) visit) Q := fun n hl => (h hl).mapErr
  refine Y.getSt fun s hs => ?_
  have := h' s.lastIdent
  repeat y_step
theorem Y.deEnum {name : Text} {visit : P α} (h : YG l visit Q) : Y l (deEnum name visit) Q := by
  unfold Ron.deEnum
  repeat y_step
end

end Ron
