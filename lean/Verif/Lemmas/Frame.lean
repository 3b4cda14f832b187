import Verif.Lemmas.Safe
/-!
What a token parser does depends only on the text from the cursor on and the deserializer's flags: not on the text before the
cursor, nor on where the last token or the last layout began, nor on the extensions (struct names, which depend on them, are
left to the deserializer).
-/

set_option linter.unusedSimpArgs false
set_option linter.unusedSectionVars false

namespace Ron

/-- Two states that agree on what a token parser may look at; `X` is what else is known about them. -/
structure Eqv (X : St → St → Prop) (s s' : St) : Prop where
  rest : s.rest = s'.rest
  nv : s.nv = s'.nv
  more : X s s'
  lastIdent : s.lastIdent = s'.lastIdent

/-- A relation of states that is kept by the steps of the token parsers: moving the cursor (with or without remembering the
previous one), resetting it to an earlier one, keeping track of layout. -/
class Trace (X : St → St → Prop) : Prop where
  move : ∀ {s s' : St} (p r : Text), X s s' → X { s with prev := p, rest := r } { s' with prev := p, rest := r }
  step : ∀ {s s' : St} (r : Text), X s s' → X { s with rest := r } { s' with rest := r }
  back : ∀ {s s' t t' : St}, X s s' → s.rest = s'.rest → X t t' →
    X { t with rest := s.rest, preWs := s.preWs, lastWs := s.lastWs } { t' with rest := s'.rest, preWs := s'.preWs, lastWs := s'.lastWs }
  track : ∀ {s s' : St}, X s s' → s.rest = s'.rest → X s.trackWs s'.trackWs
  openLine : ∀ {s s' : St}, X s s' → X { s with lastWs := none } { s' with lastWs := none }
  closed : ∀ {s s' : St}, X s s' → s.rest = s'.rest →
    X { s with lastWs := some (s.preWs.length - s.rest.length) } { s' with lastWs := some (s'.preWs.length - s'.rest.length) }

/-- Two states with the same budget and the same extensions. -/
def SL (s s' : St) : Prop := s.limit = s'.limit ∧ s.exts = s'.exts

theorem Eqv.limit {s s' : St} (h : Eqv SL s s') : s.limit = s'.limit := h.more.1
theorem Eqv.exts {s s' : St} (h : Eqv SL s s') : s.exts = s'.exts := h.more.2

theorem Eqv.refl (s : St) : Eqv SL s s := ⟨rfl, rfl, ⟨rfl, rfl⟩, rfl⟩

theorem trackWs_same (s : St) : s.trackWs.rest = s.rest ∧ s.trackWs.exts = s.exts ∧ s.trackWs.nv = s.nv ∧
    s.trackWs.limit = s.limit ∧ s.trackWs.lastIdent = s.lastIdent := by
  unfold St.trackWs
  split
  · split
    · exact ⟨rfl, rfl, rfl, rfl, rfl⟩
    · exact ⟨rfl, rfl, rfl, rfl, rfl⟩
  · exact ⟨rfl, rfl, rfl, rfl, rfl⟩

instance : Trace SL where
  move _ _ h := h
  step _ h := h
  back _ _ h := h
  track {s s'} h _ := by
    show s.trackWs.limit = s'.trackWs.limit ∧ s.trackWs.exts = s'.trackWs.exts
    rw [(trackWs_same s).2.2.2.1, (trackWs_same s').2.2.2.1, (trackWs_same s).2.1, (trackWs_same s').2.1]
    exact h
  openLine h := h
  closed h _ := h

/-- The same outcome up to what `X` says. -/
def RelR {α β : Type} (X : St → St → Prop) (R : α → β → Prop) : Res α → Res β → Prop
  | .ok a s, .ok b s' => R a b ∧ Eqv X s s'
  | .err e s, .err e' s' => e = e' ∧ Eqv X s s'
  | _, _ => False

/-- Two programs with the same outcome. -/
def Rel {α β : Type} (X : St → St → Prop) (R : α → β → Prop) (f : P α) (g : P β) : Prop := ∀ s s', Eqv X s s' → RelR X R (f s) (g s')

/-- A program that does not look at what `X` leaves open. -/
abbrev Fr {α : Type} (X : St → St → Prop) (f : P α) : Prop := Rel X Eq f f

/-- Two cursors taken from related states. -/
def CurRel (X : St → St → Prop) (c c' : Cur) : Prop :=
  c.rest = c'.rest ∧ ∀ t t' : St, X t t' →
    X { t with rest := c.rest, preWs := c.preWs, lastWs := c.lastWs } { t' with rest := c'.rest, preWs := c'.preWs, lastWs := c'.lastWs }

section
variable {α β γ δ : Type} {X : St → St → Prop} {R : α → β → Prop} {S : γ → δ → Prop}

theorem RelR.bind {f : P α} {f' : P β} {g : α → P γ} {g' : β → P δ} {s s' : St} (hf : RelR X R (f s) (f' s'))
    (hg : ∀ a b t t', R a b → Eqv X t t' → RelR X S (g a t) (g' b t')) : RelR X S ((f >>= g) s) ((f' >>= g') s') := by
  show RelR X S (P.bind f g s) (P.bind f' g' s')
  unfold P.bind
  revert hf
  cases f s <;> cases f' s' <;> intro hf
  · exact hg _ _ _ _ hf.1 hf.2
  · exact hf.elim
  · exact hf.elim
  · exact hf

theorem Rel.bind {f : P α} {f' : P β} {g : α → P γ} {g' : β → P δ} (hf : Rel X R f f')
    (hg : ∀ a b, R a b → Rel X S (g a) (g' b)) : Rel X S (f >>= g) (f' >>= g') := fun s s' h =>
  RelR.bind (hf s s' h) fun a b t t' hab ht => hg a b hab t t' ht

theorem Rel.bindEq {f f' : P α} {g : α → P γ} {g' : α → P δ} (hf : Rel X Eq f f')
    (hg : ∀ a, Rel X S (g a) (g' a)) : Rel X S (f >>= g) (f' >>= g') :=
  Rel.bind hf fun a b hab => by subst hab; exact hg a

theorem Rel.pure {a : α} {b : β} (h : R a b) : Rel X R (Pure.pure a : P α) (Pure.pure b : P β) := fun _ _ hs => ⟨h, hs⟩
theorem Rel.fail (e : Err) : Rel X R (Ron.fail e : P α) (Ron.fail e : P β) := fun _ _ hs => ⟨rfl, hs⟩
theorem Rel.ite {c : Prop} [Decidable c] {f g : P α} {f' g' : P β} (hf : Rel X R f f') (hg : Rel X R g g') :
    Rel X R (if c then f else g) (if c then f' else g') := by split <;> assumption
theorem Rel.getSt {g : St → P α} {g' : St → P β} (h : ∀ s s', Eqv X s s' → Rel X R (g s) (g' s')) :
    Rel X R (Ron.getSt >>= g) (Ron.getSt >>= g') := fun s s' hs => h s s' hs s s' hs
theorem Rel.cursor [Trace X] {g : Cur → P α} {g' : Cur → P β} (h : ∀ c c' : Cur, CurRel X c c' → Rel X R (g c) (g' c')) :
    Rel X R (Ron.cursor >>= g) (Ron.cursor >>= g') := fun s s' hs =>
  h _ _ ⟨hs.rest, fun _ _ ht => Trace.back hs.more hs.rest ht⟩ s s' hs
theorem Rel.setCursor {c c' : Cur} (h : CurRel X c c') : Rel X Eq (Ron.setCursor c) (Ron.setCursor c') := fun _ _ hs =>
  ⟨rfl, h.1, hs.nv, h.2 _ _ hs.more, hs.lastIdent⟩
theorem Rel.mapErr {f : P α} {f' : P β} {g : Err → Err} (h : Rel X R f f') : Rel X R (Ron.mapErr g f) (Ron.mapErr g f') := fun s s' hs => by
  unfold Ron.mapErr
  have := h s s' hs
  revert this
  cases f s <;> cases f' s' <;> intro hf
  · exact hf
  · exact hf.elim
  · exact hf.elim
  · exact ⟨by rw [hf.1], hf.2⟩
theorem Rel.attempt {f f' : P α} (h : Rel X Eq f f') : Rel X Eq (Ron.attempt f) (Ron.attempt f') := fun s s' hs => by
  unfold Ron.attempt
  have := h s s' hs
  revert this
  cases f s <;> cases f' s' <;> intro hf
  · exact ⟨by rw [hf.1], hf.2⟩
  · exact hf.elim
  · exact hf.elim
  · exact ⟨by rw [hf.1], hf.2⟩
theorem Rel.modSt {f f' : St → St} (h : ∀ s s', Eqv X s s' → Eqv X (f s) (f' s')) : Rel X Eq (Ron.modSt f) (Ron.modSt f') :=
  fun s s' hs => ⟨rfl, h s s' hs⟩
theorem Rel.start {f : P α} {f' : P β} (h : ∀ s s', Eqv X s s' → Rel X R f f') : Rel X R f f' := fun s s' hs => h s s' hs s s' hs
end

/-- One step in the search for a proof of `Fr`. -/
syntax "fr_step" : tactic
macro_rules | `(tactic| fr_step) => `(tactic| (split))
macro_rules | `(tactic| fr_step) => `(tactic| with_reducible refine Rel.bindEq ?_ fun _ => ?_)
macro_rules | `(tactic| fr_step) => `(tactic| (with_reducible refine Rel.getSt fun s s' h => ?_; try simp only [h.rest, h.nv, h.lastIdent]))
macro_rules | `(tactic| fr_step) => `(tactic| (with_reducible refine Rel.cursor fun c c' h => ?_; try simp only [h.1]))
macro_rules | `(tactic| fr_step) => `(tactic| with_reducible refine Rel.ite ?_ ?_)
macro_rules | `(tactic| fr_step) => `(tactic| with_reducible refine Rel.mapErr ?_)
macro_rules | `(tactic| fr_step) => `(tactic| with_reducible refine Rel.attempt ?_)
macro_rules | `(tactic| fr_step) => `(tactic| with_reducible refine Rel.setCursor ?_)
macro_rules | `(tactic| fr_step) => `(tactic| with_reducible exact Rel.pure rfl)
macro_rules | `(tactic| fr_step) => `(tactic| with_reducible exact Rel.fail _)
macro_rules | `(tactic| fr_step) => `(tactic| with_reducible assumption)

variable {X : St → St → Prop} [Trace X]

theorem Fr.advance (n : Nat) : Fr X (advance n) := fun s s' h => by
  unfold Ron.advance
  rw [h.rest]
  split
  · exact ⟨rfl, rfl, h.nv, Trace.move _ _ h.more, h.lastIdent⟩
  · exact ⟨rfl, h⟩
macro_rules | `(tactic| fr_step) => `(tactic| with_reducible exact Fr.advance _)
theorem Fr.nextChar : Fr X nextChar := fun s s' h => by
  unfold Ron.nextChar
  rw [h.rest]
  cases s'.rest with
  | nil => exact ⟨rfl, h⟩
  | cons c r => exact ⟨rfl, rfl, h.nv, Trace.step _ h.more, h.lastIdent⟩
macro_rules | `(tactic| fr_step) => `(tactic| with_reducible exact Fr.nextChar)
theorem Fr.skipNextChar : Fr X skipNextChar := Rel.modSt fun s s' h =>
  ⟨by simp [h.rest], h.nv, by have := Trace.step (X := X) (s'.rest.drop 1) h.more; simpa only [h.rest] using this, h.lastIdent⟩
macro_rules | `(tactic| fr_step) => `(tactic| with_reducible exact Fr.skipNextChar)
theorem Fr.peekChar : Fr X peekChar := fun s s' h => ⟨by rw [h.rest], h⟩
macro_rules | `(tactic| fr_step) => `(tactic| with_reducible exact Fr.peekChar)
theorem Fr.peekCharOrEof : Fr X peekCharOrEof := fun s s' h => by
  unfold Ron.peekCharOrEof
  rw [h.rest]
  cases s'.rest with
  | nil => exact ⟨rfl, h⟩
  | cons c r => exact ⟨rfl, h⟩
macro_rules | `(tactic| fr_step) => `(tactic| with_reducible exact Fr.peekCharOrEof)
theorem Fr.checkStr (t : Text) : Fr X (checkStr t) := fun s s' h => ⟨by rw [h.rest], h⟩
macro_rules | `(tactic| fr_step) => `(tactic| with_reducible exact Fr.checkStr _)
theorem Fr.checkChar (c : Char) : Fr X (checkChar c) := Fr.checkStr _
macro_rules | `(tactic| fr_step) => `(tactic| with_reducible exact Fr.checkChar _)
theorem Fr.consumeStr (t : Text) : Fr X (consumeStr t) := fun s s' h => by
  unfold Ron.consumeStr
  rw [h.rest]
  split
  · exact ⟨rfl, rfl, h.nv, Trace.move _ _ h.more, h.lastIdent⟩
  · exact ⟨rfl, h⟩
macro_rules | `(tactic| fr_step) => `(tactic| with_reducible exact Fr.consumeStr _)
theorem Fr.consumeChar (c : Char) : Fr X (consumeChar c) := Fr.consumeStr _
macro_rules | `(tactic| fr_step) => `(tactic| with_reducible exact Fr.consumeChar _)
theorem Fr.expectChar (c : Char) (e : Err) : Fr X (expectChar c e) := by unfold Ron.expectChar; repeat fr_step
macro_rules | `(tactic| fr_step) => `(tactic| with_reducible exact Fr.expectChar _ _)

/-! ### Layout -/

theorem Fr.blockLoop (f : Nat) : ∀ d, Fr X (blockLoop f d) := by
  induction f with
  | zero => intro d; cases d <;> unfold Ron.blockLoop <;> repeat fr_step
  | succ f ih =>
    intro d
    cases d with
    | zero => exact Rel.pure rfl
    | succ d =>
      unfold Ron.blockLoop
      have h0 := ih d
      have h1 := ih (d + 1)
      have h2 := ih (d + 2)
      repeat fr_step
macro_rules | `(tactic| fr_step) => `(tactic| with_reducible exact Fr.blockLoop _ _)
theorem Fr.skipComment : Fr X skipComment := by unfold Ron.skipComment; repeat fr_step
macro_rules | `(tactic| fr_step) => `(tactic| with_reducible exact Fr.skipComment)
theorem Fr.skipWsLoop (f : Nat) : Fr X (skipWsLoop f) := by
  induction f with
  | zero => exact Rel.fail _
  | succ f ih =>
    unfold Ron.skipWsLoop
    repeat fr_step
macro_rules | `(tactic| fr_step) => `(tactic| with_reducible exact Fr.skipWsLoop _)
theorem Eqv.track {s s' : St} (h : Eqv X s s') : Eqv X s.trackWs s'.trackWs := by
  obtain ⟨a1, a2, a3, a4, a5⟩ := trackWs_same s
  obtain ⟨b1, b2, b3, b4, b5⟩ := trackWs_same s'
  exact ⟨by rw [a1, b1, h.rest], by rw [a3, b3, h.nv], Trace.track h.more h.rest, by rw [a5, b5, h.lastIdent]⟩
theorem Fr.skipWs : Fr X skipWs := by
  unfold Ron.skipWs
  refine Rel.bindEq (Rel.modSt fun _ _ h => h.track) fun _ => ?_
  refine Rel.getSt fun s s' h => ?_
  simp only [h.rest]
  exact Rel.ite (Rel.pure rfl) (Rel.bindEq (Fr.skipWsLoop _) fun _ => Rel.ite
    (Rel.modSt fun _ _ h => ⟨h.rest, h.nv, Trace.openLine h.more, h.lastIdent⟩)
    (Rel.modSt fun _ _ h => ⟨h.rest, h.nv, Trace.closed h.more h.rest, h.lastIdent⟩))
macro_rules | `(tactic| fr_step) => `(tactic| with_reducible exact Fr.skipWs)
theorem Fr.consumeAll (ts : List Text) : ∀ acc, Fr X (consumeAll ts acc) := by
  induction ts with
  | nil => intro acc; exact Rel.pure rfl
  | cons t ts ih =>
    intro acc
    unfold Ron.consumeAll
    have h0 := ih acc
    have h1 := ih false
    repeat fr_step
macro_rules | `(tactic| fr_step) => `(tactic| with_reducible exact Fr.consumeAll _ _)
theorem Fr.comma : Fr X comma := by unfold Ron.comma; repeat fr_step
macro_rules | `(tactic| fr_step) => `(tactic| with_reducible exact Fr.comma)

theorem Fr.tryToken {α : Type} (strict : Bool) {f : P α} (hf : Fr X f) : Fr X (tryToken strict f) := by
  unfold Ron.tryToken
  refine Rel.cursor fun c c' h => ?_
  refine Rel.bindEq (Rel.attempt hf) fun r => ?_
  cases r with
  | ok _ => exact Rel.pure rfl
  | error e => exact Rel.ite (Rel.fail _) (Rel.setCursor h)

/-! ### Escapes and strings -/

theorem Fr.decodeHexP (c : Char) : Fr X (decodeHexP c) := by unfold Ron.decodeHexP; repeat fr_step
macro_rules | `(tactic| fr_step) => `(tactic| with_reducible exact Fr.decodeHexP _)
theorem Fr.decodeAsciiEscape : Fr X decodeAsciiEscape := by unfold Ron.decodeAsciiEscape; repeat fr_step
macro_rules | `(tactic| fr_step) => `(tactic| with_reducible exact Fr.decodeAsciiEscape)
theorem Fr.moreBytes (n : Nat) : ∀ acc, Fr X (moreBytes n acc) := by
  induction n with
  | zero => intro acc; exact Rel.fail _
  | succ n ih =>
    intro acc
    unfold Ron.moreBytes
    refine Rel.bindEq (Fr.consumeStr _) fun _ => Rel.ite (Rel.bindEq Fr.decodeAsciiEscape fun b => ?_) (Rel.fail _)
    dsimp only
    split
    · exact Rel.pure rfl
    · exact ih _
macro_rules | `(tactic| fr_step) => `(tactic| with_reducible exact Fr.moreBytes _ _)
theorem Fr.uniDigits (n : Nat) : ∀ acc k, Fr X (uniDigits n acc k) := by
  induction n with
  | zero => intro acc k; exact Rel.pure rfl
  | succ n ih =>
    intro acc k
    unfold Ron.uniDigits
    repeat fr_step
    exact ih _ _
macro_rules | `(tactic| fr_step) => `(tactic| with_reducible exact Fr.uniDigits _ _ _)
theorem Fr.parseEscape (enc : EscEnc) (b : Bool) : Fr X (parseEscape enc b) := by unfold Ron.parseEscape; repeat fr_step
macro_rules | `(tactic| fr_step) => `(tactic| with_reducible exact Fr.parseEscape _ _)
theorem Fr.escLoop (enc : EscEnc) (f : Nat) : ∀ i acc, Fr X (escLoop enc f i acc) := by
  induction f with
  | zero => intro i acc; exact Rel.fail _
  | succ f ih =>
    intro i acc
    unfold Ron.escLoop
    refine Rel.bindEq (Fr.advance _) fun _ => Rel.bindEq (Fr.parseEscape _ _) fun e => ?_
    refine Rel.getSt fun s s' h => ?_
    simp only [h.rest]
    split
    · exact Rel.fail _
    · exact Rel.ite (ih _ _) (Rel.pure rfl)
macro_rules | `(tactic| fr_step) => `(tactic| with_reducible exact Fr.escLoop _ _ _ _)
theorem Fr.escapedByteBuf (enc : EscEnc) : Fr X (escapedByteBuf enc) := by unfold Ron.escapedByteBuf; repeat fr_step
macro_rules | `(tactic| fr_step) => `(tactic| with_reducible exact Fr.escapedByteBuf _)
theorem Fr.rawByteBuf : Fr X rawByteBuf := by unfold Ron.rawByteBuf; repeat fr_step
macro_rules | `(tactic| fr_step) => `(tactic| with_reducible exact Fr.rawByteBuf)
theorem Fr.finishStr (r : List UInt8 × Nat) : Fr X (finishStr r) := by unfold Ron.finishStr; repeat fr_step
macro_rules | `(tactic| fr_step) => `(tactic| with_reducible exact Fr.finishStr _)
theorem Fr.escapedString : Fr X escapedString := by unfold Ron.escapedString; repeat fr_step
macro_rules | `(tactic| fr_step) => `(tactic| with_reducible exact Fr.escapedString)
theorem Fr.rawString : Fr X rawString := by unfold Ron.rawString; repeat fr_step
macro_rules | `(tactic| fr_step) => `(tactic| with_reducible exact Fr.rawString)
theorem Fr.string : Fr X string := by unfold Ron.string; repeat fr_step
macro_rules | `(tactic| fr_step) => `(tactic| with_reducible exact Fr.string)
theorem Fr.escapedByteString : Fr X escapedByteString := by unfold Ron.escapedByteString; repeat fr_step
macro_rules | `(tactic| fr_step) => `(tactic| with_reducible exact Fr.escapedByteString)
theorem Fr.rawByteString : Fr X rawByteString := by unfold Ron.rawByteString; repeat fr_step
macro_rules | `(tactic| fr_step) => `(tactic| with_reducible exact Fr.rawByteString)
theorem Fr.byteStringNoBase64 : Fr X byteStringNoBase64 := by unfold Ron.byteStringNoBase64; repeat fr_step
macro_rules | `(tactic| fr_step) => `(tactic| with_reducible exact Fr.byteStringNoBase64)
theorem Fr.charLit : Fr X charLit := by unfold Ron.charLit; repeat fr_step
macro_rules | `(tactic| fr_step) => `(tactic| with_reducible exact Fr.charLit)
theorem Fr.byteString : Fr X byteString := by unfold Ron.byteString; repeat fr_step
macro_rules | `(tactic| fr_step) => `(tactic| with_reducible exact Fr.byteString)

theorem Fr.braceLoop (f : Nat) : ∀ n, Fr X (braceLoop f n) := by
  induction f with
  | zero => intro n; cases n <;> unfold Ron.braceLoop <;> repeat fr_step
  | succ f ih =>
    intro n
    cases n with
    | zero => exact Rel.pure rfl
    | succ n =>
      unfold Ron.braceLoop
      refine Rel.bindEq Fr.skipWs fun _ => Rel.bindEq (Fr.tryToken _ Fr.charLit) fun _ => Rel.bindEq (Fr.tryToken _ Fr.string) fun _ =>
        Rel.bindEq (Fr.tryToken _ Fr.byteStringNoBase64) fun _ => ?_
      have h0 := ih n
      have h1 := ih (n + 1)
      have h2 := ih (n + 2)
      repeat fr_step
macro_rules | `(tactic| fr_step) => `(tactic| with_reducible exact Fr.braceLoop _ _)
theorem Fr.structTypeScan (tm : TupleMode) : Fr X (structTypeScan tm) := by unfold Ron.structTypeScan; repeat fr_step
macro_rules | `(tactic| fr_step) => `(tactic| with_reducible exact Fr.structTypeScan _)

variable [Env]

/-! ### Identifiers -/

theorem Fr.checkIdent (t : Text) : Fr X (checkIdent t) := fun s s' h => ⟨by rw [h.rest], h⟩
macro_rules | `(tactic| fr_step) => `(tactic| with_reducible exact Fr.checkIdent _)
theorem Fr.consumeIdent (t : Text) : Fr X (consumeIdent t) := by unfold Ron.consumeIdent; repeat fr_step
macro_rules | `(tactic| fr_step) => `(tactic| with_reducible exact Fr.consumeIdent _)
theorem Fr.skipIdentifier : Fr X skipIdentifier := by unfold Ron.skipIdentifier; repeat fr_step
macro_rules | `(tactic| fr_step) => `(tactic| with_reducible exact Fr.skipIdentifier)
theorem Fr.identifier : Fr X identifier := by unfold Ron.identifier; repeat fr_step
macro_rules | `(tactic| fr_step) => `(tactic| with_reducible exact Fr.identifier)
theorem Fr.bool : Fr X bool := by unfold Ron.bool; repeat fr_step
macro_rules | `(tactic| fr_step) => `(tactic| with_reducible exact Fr.bool)

/-! ### Numbers -/

theorem Fr.intDigits (t : IntTy) (neg : Bool) (base whole : Nat) (cs : Text) : ∀ i acc, Fr X (intDigits t neg base whole cs i acc) := by
  induction cs with
  | nil => intro i acc; unfold Ron.intDigits; repeat fr_step
  | cons c cs ih =>
    intro i acc
    unfold Ron.intDigits
    refine Rel.ite (ih _ _) (Rel.ite ?_ ?_)
    · repeat fr_step
    · refine Rel.bindEq (Fr.decodeHexP _) fun d => Rel.ite ?_ (Rel.ite ?_ (ih _ _)) <;> repeat fr_step
macro_rules | `(tactic| fr_step) => `(tactic| with_reducible exact Fr.intDigits _ _ _ _ _ _ _)
theorem Fr.parseInteger (t : IntTy) (neg : Bool) (base : Nat) : Fr X (parseInteger t neg base) := by unfold Ron.parseInteger; repeat fr_step
macro_rules | `(tactic| fr_step) => `(tactic| with_reducible exact Fr.parseInteger _ _ _)
theorem Fr.intParse (tg : IntTarget) (neg : Bool) (base : Nat) : Fr X (tg.parse neg base) := by unfold IntTarget.parse; repeat fr_step
macro_rules | `(tactic| fr_step) => `(tactic| with_reducible exact Fr.intParse _ _ _)
theorem Fr.intTryFrom (tg : IntTarget) (t : IntTy) (v : Int) (r : Text) : Fr X (tg.tryFrom t v r) := by unfold IntTarget.tryFrom; repeat fr_step
macro_rules | `(tactic| fr_step) => `(tactic| with_reducible exact Fr.intTryFrom _ _ _ _)
theorem Fr.consumeSuffix (ts : List IntTy) : Fr X (consumeSuffix ts) := by
  induction ts with
  | nil => exact Rel.pure rfl
  | cons t ts ih => unfold Ron.consumeSuffix; repeat fr_step
macro_rules | `(tactic| fr_step) => `(tactic| with_reducible exact Fr.consumeSuffix _)
theorem Fr.basePrefix : Fr X basePrefix := by unfold Ron.basePrefix; repeat fr_step
macro_rules | `(tactic| fr_step) => `(tactic| with_reducible exact Fr.basePrefix)
theorem Fr.byteLiteral (tg : IntTarget) (b : Text) : Fr X (byteLiteral tg b) := by unfold Ron.byteLiteral; repeat fr_step
macro_rules | `(tactic| fr_step) => `(tactic| with_reducible exact Fr.byteLiteral _ _)
theorem Fr.unsignedPart (tg : IntTarget) (neg : Bool) (b : Text) : Fr X (unsignedPart tg neg b) := by
  unfold Ron.unsignedPart
  refine Rel.bindEq Fr.basePrefix fun base => Rel.getSt fun s s' h => ?_
  simp only [h.rest]
  refine Rel.ite ?_ (Fr.intParse _ _ _)
  refine Rel.cursor fun c c' hc => Rel.bindEq (Fr.advance _) fun _ => Rel.bindEq (Fr.consumeSuffix _) fun o => ?_
  cases o with
  | none => exact Rel.bindEq (Rel.setCursor hc) fun _ => Fr.intParse _ _ _
  | some t =>
    refine Rel.getSt fun x x' hx => Rel.bindEq (Rel.setCursor hc) fun _ => Rel.bindEq (Rel.attempt (Fr.parseInteger _ _ _)) fun r => ?_
    simp only [hx.rest]
    repeat fr_step
macro_rules | `(tactic| fr_step) => `(tactic| with_reducible exact Fr.unsignedPart _ _ _)
theorem Fr.integer (tg : IntTarget) : Fr X (integer tg) := by unfold Ron.integer; repeat fr_step
macro_rules | `(tactic| fr_step) => `(tactic| with_reducible exact Fr.integer _)
theorem Fr.floatParse (tg : FloatTarget) (t : Text) : Fr X (tg.parse t) := by unfold FloatTarget.parse; repeat fr_step
macro_rules | `(tactic| fr_step) => `(tactic| with_reducible exact Fr.floatParse _ _)
theorem Fr.floatTryFrom (tg : FloatTarget) (n : Number) (t : Text) : Fr X (tg.tryFrom n t) := by unfold FloatTarget.tryFrom; repeat fr_step
macro_rules | `(tactic| fr_step) => `(tactic| with_reducible exact Fr.floatTryFrom _ _ _)
theorem Fr.floatSpecial (tg : FloatTarget) (ls : List (Text × F32 × F64)) : Fr X (floatSpecial tg ls) := by
  induction ls with
  | nil => exact Rel.pure rfl
  | cons l ls ih => obtain ⟨a, b, c⟩ := l; unfold Ron.floatSpecial; repeat fr_step
macro_rules | `(tactic| fr_step) => `(tactic| with_reducible exact Fr.floatSpecial _ _)
theorem Fr.float (tg : FloatTarget) : Fr X (float tg) := by
  unfold Ron.float
  refine Rel.bindEq (Fr.floatSpecial _ _) fun o => ?_
  cases o with
  | some v => exact Rel.pure rfl
  | none =>
    refine Rel.getSt fun s s' h => ?_
    simp only [h.rest]
    refine Rel.ite (Rel.fail _) (Rel.ite (Rel.fail _) ?_)
    generalize floatStrip _ _ _ = e
    cases e with
    | error i => exact Rel.bindEq (Fr.advance _) fun _ => Rel.fail _
    | ok f =>
      have plain : ∀ n, Fr X (do let v ← tg.parse f; Ron.advance n; Pure.pure v : P Number) := fun n => by repeat fr_step
      refine Rel.ite ?_ (plain _)
      refine Rel.cursor fun c c' hc => Rel.bindEq (Fr.advance _) fun _ => Rel.bindEq (by repeat fr_step) fun w => ?_
      cases w with
      | none => exact Rel.bindEq (Rel.setCursor hc) fun _ => plain _
      | some b =>
        dsimp only
        generalize (if b = true then (Env.parse32 f).map Number.f32 else (Env.parse64 f).map Number.f64) = pr
        cases pr with
        | none => exact Rel.bindEq (Rel.setCursor hc) fun _ => Rel.fail _
        | some v =>
          refine Rel.getSt fun x x' hx => ?_
          simp only [hx.rest, hc.1]
          exact Fr.floatTryFrom _ _ _
macro_rules | `(tactic| fr_step) => `(tactic| with_reducible exact Fr.float _)
theorem Fr.anyNumber : Fr X anyNumber := by
  unfold Ron.anyNumber
  iterate 6 refine Rel.bindEq (Fr.consumeIdent _) fun _ => Rel.ite (Rel.pure rfl) ?_
  refine Rel.getSt fun s s' h => ?_
  simp only [h.rest]
  refine Rel.ite (Fr.float _) (Rel.cursor fun c c' hc => Rel.bindEq (Rel.attempt (Fr.integer _)) fun r => ?_)
  cases r with
  | ok a => exact Rel.pure rfl
  | error e =>
    refine Rel.cursor fun d d' hd => Rel.bindEq (Rel.setCursor hc) fun _ => Rel.bindEq (Rel.attempt (Fr.float _)) fun q => ?_
    cases q with
    | ok v =>
      refine Rel.getSt fun x x' hx => ?_
      simp only [hx.rest, hd.1]
      exact Rel.ite (Rel.pure rfl) (Rel.bindEq (Rel.setCursor hd) fun _ => Rel.fail _)
    | error e' => exact Rel.bindEq (Rel.setCursor hd) fun _ => Rel.fail _
macro_rules | `(tactic| fr_step) => `(tactic| with_reducible exact Fr.anyNumber)

theorem Fr.checkStructTypeInner (nm : NewtypeMode) (tm : TupleMode) : Fr X (checkStructTypeInner nm tm) := by
  unfold Ron.checkStructTypeInner
  repeat fr_step
theorem Fr.checkStructType (nm : NewtypeMode) (tm : TupleMode) : Fr X (checkStructType nm tm) := by
  unfold Ron.checkStructType
  exact Rel.cursor fun c c' h => Rel.bindEq (Fr.checkStructTypeInner _ _) fun _ => Rel.bindEq (Rel.setCursor h) fun _ => Rel.pure rfl
macro_rules | `(tactic| fr_step) => `(tactic| with_reducible exact Fr.checkStructType _ _)

end Ron
