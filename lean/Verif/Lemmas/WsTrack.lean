import Verif.Lemmas.Numeric
import Verif.Lemmas.Layout
/-!
Where the last layout began.  Token parsers do not touch it (`Kw`); between two tokens it ends before the cursor (`Tracked`); behind a
token it ends strictly before the cursor (`Moved`).
-/

set_option linter.unusedSimpArgs false
set_option linter.unusedSectionVars false

namespace Ron

/-- The state of a result. -/
def Res.st {α : Type} : Res α → St
  | .ok _ s => s
  | .err _ s => s

/-- A program that keeps where the last layout began and its length. -/
def Kw {α : Type} (p : Text) (k : Option Nat) (f : P α) : Prop :=
  ∀ s, s.preWs = p → s.lastWs = k → (f s).st.preWs = p ∧ (f s).st.lastWs = k

section
variable {α β : Type} {p : Text} {k : Option Nat}

theorem Kw.pure (a : α) : Kw p k (Pure.pure a : P α) := fun _ h1 h2 => ⟨h1, h2⟩
theorem Kw.fail (e : Err) : Kw p k (Ron.fail e : P α) := fun _ h1 h2 => ⟨h1, h2⟩
theorem Kw.bind {f : P α} {g : α → P β} (hf : Kw p k f) (hg : ∀ a, Kw p k (g a)) : Kw p k (f >>= g) := fun s h1 h2 => by
  have := hf s h1 h2
  rw [bind_apply]
  revert this
  cases f s with
  | ok a s' => exact fun h => hg a s' h.1 h.2
  | err e s' => exact fun h => h
theorem Kw.ite {c : Prop} [Decidable c] {f g : P α} (hf : Kw p k f) (hg : Kw p k g) : Kw p k (if c then f else g) := by
  split <;> assumption
theorem Kw.getSt : Kw p k Ron.getSt := fun _ h1 h2 => ⟨h1, h2⟩
theorem Kw.cursor {g : Cur → P β} (h : ∀ c : Cur, c.preWs = p → c.lastWs = k → Kw p k (g c)) : Kw p k (Ron.cursor >>= g) :=
  fun s h1 h2 => h _ h1 h2 s h1 h2
theorem Kw.setCursor {c : Cur} (h1 : c.preWs = p) (h2 : c.lastWs = k) : Kw p k (Ron.setCursor c) := fun _ _ _ => ⟨h1, h2⟩
theorem Kw.mapErr {f : P α} {g : Err → Err} (hf : Kw p k f) : Kw p k (Ron.mapErr g f) := fun s h1 h2 => by
  have := hf s h1 h2
  unfold Ron.mapErr
  revert this
  cases f s <;> exact id
theorem Kw.attempt {f : P α} (hf : Kw p k f) : Kw p k (Ron.attempt f) := fun s h1 h2 => by
  have := hf s h1 h2
  unfold Ron.attempt
  revert this
  cases f s <;> exact id
theorem Kw.advance (n : Nat) : Kw p k (Ron.advance n) := fun s h1 h2 => by
  unfold Ron.advance
  split <;> exact ⟨h1, h2⟩
theorem Kw.nextChar : Kw p k Ron.nextChar := fun s h1 h2 => by
  unfold Ron.nextChar
  split <;> exact ⟨h1, h2⟩
theorem Kw.skipNextChar : Kw p k Ron.skipNextChar := fun s h1 h2 => ⟨h1, h2⟩
theorem Kw.peekChar : Kw p k Ron.peekChar := fun s h1 h2 => ⟨h1, h2⟩
theorem Kw.peekCharOrEof : Kw p k Ron.peekCharOrEof := fun s h1 h2 => by
  unfold Ron.peekCharOrEof
  split <;> exact ⟨h1, h2⟩
theorem Kw.checkStr (t : Text) : Kw p k (Ron.checkStr t) := fun s h1 h2 => ⟨h1, h2⟩
theorem Kw.checkChar (c : Char) : Kw p k (Ron.checkChar c) := Kw.checkStr _
end

/-- One step in the search for a proof. -/
syntax "kw_step" : tactic
macro_rules | `(tactic| kw_step) => `(tactic| (dsimp only))
macro_rules | `(tactic| kw_step) => `(tactic| (split))
macro_rules | `(tactic| kw_step) => `(tactic| assumption)
macro_rules | `(tactic| kw_step) => `(tactic| with_reducible refine Kw.bind ?_ fun _ => ?_)
macro_rules | `(tactic| kw_step) => `(tactic| with_reducible exact Kw.pure _)
macro_rules | `(tactic| kw_step) => `(tactic| with_reducible exact Kw.fail _)
macro_rules | `(tactic| kw_step) => `(tactic| with_reducible exact Kw.getSt)
macro_rules | `(tactic| kw_step) => `(tactic| with_reducible exact Kw.advance _)
macro_rules | `(tactic| kw_step) => `(tactic| with_reducible exact Kw.nextChar)
macro_rules | `(tactic| kw_step) => `(tactic| with_reducible exact Kw.skipNextChar)
macro_rules | `(tactic| kw_step) => `(tactic| with_reducible exact Kw.peekChar)
macro_rules | `(tactic| kw_step) => `(tactic| with_reducible exact Kw.peekCharOrEof)
macro_rules | `(tactic| kw_step) => `(tactic| with_reducible exact Kw.checkStr _)
macro_rules | `(tactic| kw_step) => `(tactic| with_reducible exact Kw.checkChar _)
macro_rules | `(tactic| kw_step) => `(tactic| with_reducible exact Kw.setCursor ‹_› ‹_›)
macro_rules | `(tactic| kw_step) => `(tactic| with_reducible refine Kw.attempt ?_)
macro_rules | `(tactic| kw_step) => `(tactic| with_reducible refine Kw.mapErr ?_)
macro_rules | `(tactic| kw_step) => `(tactic| with_reducible refine Kw.ite ?_ ?_)
macro_rules | `(tactic| kw_step) => `(tactic| with_reducible refine Kw.cursor fun _ _ _ => ?_)

variable {p : Text} {k : Option Nat}

theorem Kw.consumeStr (t : Text) : Kw p k (Ron.consumeStr t) := fun s h1 h2 => by
  rw [consumeStr_apply]
  split <;> exact ⟨h1, h2⟩
macro_rules | `(tactic| kw_step) => `(tactic| with_reducible exact Kw.consumeStr _)
theorem Kw.consumeChar (c : Char) : Kw p k (Ron.consumeChar c) := Kw.consumeStr _
macro_rules | `(tactic| kw_step) => `(tactic| with_reducible exact Kw.consumeChar _)
theorem Kw.expectChar (c : Char) (e : Err) : Kw p k (Ron.expectChar c e) := by unfold Ron.expectChar; repeat kw_step
macro_rules | `(tactic| kw_step) => `(tactic| with_reducible exact Kw.expectChar _ _)
theorem Kw.decodeHexP (c : Char) : Kw p k (Ron.decodeHexP c) := by unfold Ron.decodeHexP; repeat kw_step
macro_rules | `(tactic| kw_step) => `(tactic| with_reducible exact Kw.decodeHexP _)
theorem Kw.decodeAsciiEscape : Kw p k Ron.decodeAsciiEscape := by unfold Ron.decodeAsciiEscape; repeat kw_step
macro_rules | `(tactic| kw_step) => `(tactic| with_reducible exact Kw.decodeAsciiEscape)
theorem Kw.moreBytes (n : Nat) : ∀ acc, Kw p k (Ron.moreBytes n acc) := by
  induction n with
  | zero => intro acc; exact Kw.fail _
  | succ n ih => intro acc; unfold Ron.moreBytes; repeat (first | exact ih _ | kw_step)
macro_rules | `(tactic| kw_step) => `(tactic| with_reducible exact Kw.moreBytes _ _)
theorem Kw.uniDigits (n : Nat) : ∀ a i, Kw p k (Ron.uniDigits n a i) := by
  induction n with
  | zero => intro a i; exact Kw.pure _
  | succ n ih => intro a i; unfold Ron.uniDigits; repeat (first | exact ih _ _ | kw_step)
macro_rules | `(tactic| kw_step) => `(tactic| with_reducible exact Kw.uniDigits _ _ _)
theorem Kw.parseEscape (e : EscEnc) (c : Bool) : Kw p k (Ron.parseEscape e c) := by unfold Ron.parseEscape; repeat kw_step
macro_rules | `(tactic| kw_step) => `(tactic| with_reducible exact Kw.parseEscape _ _)
theorem Kw.escLoop (e : EscEnc) (n : Nat) : ∀ i acc, Kw p k (Ron.escLoop e n i acc) := by
  induction n with
  | zero => intro i acc; exact Kw.fail _
  | succ n ih => intro i acc; unfold Ron.escLoop; repeat (first | exact ih _ _ | kw_step)
macro_rules | `(tactic| kw_step) => `(tactic| with_reducible exact Kw.escLoop _ _ _ _)
theorem Kw.escapedByteBuf (e : EscEnc) : Kw p k (Ron.escapedByteBuf e) := by unfold Ron.escapedByteBuf; repeat kw_step
macro_rules | `(tactic| kw_step) => `(tactic| with_reducible exact Kw.escapedByteBuf _)
theorem Kw.rawByteBuf : Kw p k Ron.rawByteBuf := by unfold Ron.rawByteBuf; repeat kw_step
macro_rules | `(tactic| kw_step) => `(tactic| with_reducible exact Kw.rawByteBuf)
theorem Kw.finishStr (r : List UInt8 × Nat) : Kw p k (Ron.finishStr r) := by unfold Ron.finishStr; repeat kw_step
macro_rules | `(tactic| kw_step) => `(tactic| with_reducible exact Kw.finishStr _)
theorem Kw.escapedString : Kw p k Ron.escapedString := by unfold Ron.escapedString; repeat kw_step
macro_rules | `(tactic| kw_step) => `(tactic| with_reducible exact Kw.escapedString)
theorem Kw.rawString : Kw p k Ron.rawString := by unfold Ron.rawString; repeat kw_step
macro_rules | `(tactic| kw_step) => `(tactic| with_reducible exact Kw.rawString)
theorem Kw.string : Kw p k Ron.string := by unfold Ron.string; repeat kw_step
macro_rules | `(tactic| kw_step) => `(tactic| with_reducible exact Kw.string)
theorem Kw.byteString : Kw p k Ron.byteString := by
  unfold Ron.byteString Ron.byteStringNoBase64 Ron.escapedByteString Ron.rawByteString; repeat kw_step
macro_rules | `(tactic| kw_step) => `(tactic| with_reducible exact Kw.byteString)
theorem Kw.charLit : Kw p k Ron.charLit := by unfold Ron.charLit; repeat kw_step
macro_rules | `(tactic| kw_step) => `(tactic| with_reducible exact Kw.charLit)
theorem Kw.intDigits (t : IntTy) (neg : Bool) (base whole : Nat) (cs : Text) : ∀ i acc, Kw p k (Ron.intDigits t neg base whole cs i acc) := by
  induction cs with
  | nil => intro i acc; unfold Ron.intDigits; repeat kw_step
  | cons c cs ih => intro i acc; unfold Ron.intDigits; repeat (first | exact ih _ _ | kw_step)
macro_rules | `(tactic| kw_step) => `(tactic| with_reducible exact Kw.intDigits _ _ _ _ _ _ _)
theorem Kw.parseInteger (t : IntTy) (neg : Bool) (base : Nat) : Kw p k (Ron.parseInteger t neg base) := by
  unfold Ron.parseInteger; repeat kw_step
macro_rules | `(tactic| kw_step) => `(tactic| with_reducible exact Kw.parseInteger _ _ _)

variable [Env]

theorem Kw.checkIdent (t : Text) : Kw p k (Ron.checkIdent t) := fun _ h1 h2 => ⟨h1, h2⟩
macro_rules | `(tactic| kw_step) => `(tactic| with_reducible exact Kw.checkIdent _)
theorem Kw.consumeIdent (t : Text) : Kw p k (Ron.consumeIdent t) := by unfold Ron.consumeIdent; repeat kw_step
macro_rules | `(tactic| kw_step) => `(tactic| with_reducible exact Kw.consumeIdent _)
theorem Kw.skipIdentifier : Kw p k Ron.skipIdentifier := by unfold Ron.skipIdentifier; repeat kw_step
macro_rules | `(tactic| kw_step) => `(tactic| with_reducible exact Kw.skipIdentifier)
theorem Kw.identifier : Kw p k Ron.identifier := by unfold Ron.identifier; repeat kw_step
macro_rules | `(tactic| kw_step) => `(tactic| with_reducible exact Kw.identifier)
theorem Kw.intParse (tg : IntTarget) (neg : Bool) (base : Nat) : Kw p k (tg.parse neg base) := by unfold IntTarget.parse; repeat kw_step
macro_rules | `(tactic| kw_step) => `(tactic| with_reducible exact Kw.intParse _ _ _)
theorem Kw.intTryFrom (tg : IntTarget) (t : IntTy) (v : Int) (ron : Text) : Kw p k (tg.tryFrom t v ron) := by
  unfold IntTarget.tryFrom; repeat kw_step
macro_rules | `(tactic| kw_step) => `(tactic| with_reducible exact Kw.intTryFrom _ _ _ _)
theorem Kw.consumeSuffix (ts : List IntTy) : Kw p k (Ron.consumeSuffix ts) := by
  induction ts with
  | nil => exact Kw.pure _
  | cons t ts ih => unfold Ron.consumeSuffix; repeat (first | exact ih | kw_step)
macro_rules | `(tactic| kw_step) => `(tactic| with_reducible exact Kw.consumeSuffix _)
theorem Kw.basePrefix : Kw p k Ron.basePrefix := by unfold Ron.basePrefix; repeat kw_step
macro_rules | `(tactic| kw_step) => `(tactic| with_reducible exact Kw.basePrefix)
theorem Kw.byteLiteral (tg : IntTarget) (u : Text) : Kw p k (Ron.byteLiteral tg u) := by unfold Ron.byteLiteral; repeat kw_step
macro_rules | `(tactic| kw_step) => `(tactic| with_reducible exact Kw.byteLiteral _ _)
theorem Kw.unsignedPart (tg : IntTarget) (neg : Bool) (u : Text) : Kw p k (Ron.unsignedPart tg neg u) := by
  unfold Ron.unsignedPart; repeat kw_step
macro_rules | `(tactic| kw_step) => `(tactic| with_reducible exact Kw.unsignedPart _ _ _)
theorem Kw.integer (tg : IntTarget) : Kw p k (Ron.integer tg) := by unfold Ron.integer; repeat kw_step
macro_rules | `(tactic| kw_step) => `(tactic| with_reducible exact Kw.integer _)
theorem Kw.floatParse (tg : FloatTarget) (t : Text) : Kw p k (tg.parse t) := by unfold FloatTarget.parse; repeat kw_step
macro_rules | `(tactic| kw_step) => `(tactic| with_reducible exact Kw.floatParse _ _)
theorem Kw.floatTryFrom (tg : FloatTarget) (v : Number) (t : Text) : Kw p k (tg.tryFrom v t) := by unfold FloatTarget.tryFrom; repeat kw_step
macro_rules | `(tactic| kw_step) => `(tactic| with_reducible exact Kw.floatTryFrom _ _ _)
theorem Kw.floatSpecial (tg : FloatTarget) (ls : List (Text × F32 × F64)) : Kw p k (Ron.floatSpecial tg ls) := by
  induction ls with
  | nil => exact Kw.pure _
  | cons l ls ih => unfold Ron.floatSpecial; repeat (first | exact ih | kw_step)
macro_rules | `(tactic| kw_step) => `(tactic| with_reducible exact Kw.floatSpecial _ _)
theorem Kw.float (tg : FloatTarget) : Kw p k (Ron.float tg) := by unfold Ron.float; repeat kw_step
macro_rules | `(tactic| kw_step) => `(tactic| with_reducible exact Kw.float _)
theorem Kw.anyNumber : Kw p k Ron.anyNumber := by unfold Ron.anyNumber; repeat kw_step
macro_rules | `(tactic| kw_step) => `(tactic| with_reducible exact Kw.anyNumber)
theorem Kw.numeric : Kw p k Ron.numeric := by unfold Ron.numeric Ron.floatRangeOrValue; repeat kw_step

omit [Env]

/-! ### Between and behind tokens -/

/-- If there is something left, the last layout ends before it. -/
def Tracked (s : St) : Prop := s.rest ≠ [] → ∃ k, s.lastWs = some k ∧ s.rest.length + k ≤ s.preWs.length

/-- Something has been read since the last layout. -/
def Moved (s : St) : Prop := ∃ k, s.lastWs = some k ∧ s.rest.length + k < s.preWs.length

theorem Moved.tracked {s : St} (h : Moved s) : Tracked s := fun _ => by
  obtain ⟨k, h1, h2⟩ := h
  exact ⟨k, h1, by omega⟩

theorem suffix_ne {a b : Text} (h : a <:+ b) (hn : a ≠ []) : b ≠ [] := by
  rintro rfl
  rw [List.suffix_nil] at h
  exact hn h

/-- A program that keeps `Tracked`. -/
structure Sf {α : Type} (f : P α) : Prop where
  safe : Safe f
  tr : ∀ {s s' : St} {a : α}, s.Inside → Tracked s → f s = .ok a s' → Tracked s'

section
variable {α β : Type}

theorem Sf.kw {f : P α} (hs : Safe f) (hk : ∀ p k, Kw p k f) : Sf f where
  safe := hs
  tr {s s' a} hi ht h hne := by
    have hr := (hs.from hi h).rest
    obtain ⟨k, h1, h2⟩ := ht (suffix_ne hr hne)
    have := hk s.preWs s.lastWs s rfl rfl
    rw [h] at this
    refine ⟨k, this.2.trans h1, ?_⟩
    rw [show s'.preWs = s.preWs from this.1]
    have := hr.length_le
    omega

/-- A token parser that has consumed something. -/
theorem Kw.moved {f : P α} (hk : ∀ p k, Kw p k f) {s s' : St} {a : α} (ht : Tracked s) (h : f s = .ok a s')
    (hl : s'.rest.length < s.rest.length) : Moved s' := by
  have hne : s.rest ≠ [] := by
    intro e
    rw [e] at hl
    simp at hl
  obtain ⟨k, h1, h2⟩ := ht hne
  have := hk s.preWs s.lastWs s rfl rfl
  rw [h] at this
  refine ⟨k, this.2.trans h1, ?_⟩
  rw [show s'.preWs = s.preWs from this.1]
  omega

theorem Sf.bind {f : P α} {g : α → P β} (hf : Sf f) (hg : ∀ a, Sf (g a)) : Sf (f >>= g) where
  safe := hf.safe.bind fun a => (hg a).safe
  tr {s s' a} hi ht h := by
    obtain ⟨b, s1, h1, h2⟩ := bind_ok h
    exact (hg b).tr (hf.safe.from hi h1).inside (hf.tr hi ht h1) h2
theorem Sf.pure (a : α) : Sf (Pure.pure a : P α) := Sf.kw (Safe.pure a) fun _ _ => Kw.pure a
theorem Sf.ite {c : Prop} [Decidable c] {f g : P α} (hf : Sf f) (hg : Sf g) : Sf (if c then f else g) := by split <;> assumption
end

theorem Sf.consumeStr (t : Text) : Sf (consumeStr t) := Sf.kw (Safe.consumeStr t) fun _ _ => Kw.consumeStr t
theorem Sf.consumeChar (c : Char) : Sf (consumeChar c) := Sf.kw (Safe.consumeChar c) fun _ _ => Kw.consumeChar c
theorem Sf.string : Sf string := Sf.kw Safe.string fun _ _ => Kw.string
theorem Sf.byteString : Sf byteString := Sf.kw Safe.byteString fun _ _ => Kw.byteString
theorem Sf.charLit : Sf charLit := Sf.kw Safe.charLit fun _ _ => Kw.charLit
section
variable [Env]
theorem Sf.consumeIdent (t : Text) : Sf (consumeIdent t) := Sf.kw (Safe.consumeIdent t) fun _ _ => Kw.consumeIdent t
theorem Sf.skipIdentifier : Sf skipIdentifier := Sf.kw Safe.skipIdentifier fun _ _ => Kw.skipIdentifier
theorem Sf.identifier : Sf identifier := Sf.kw Safe.identifier fun _ _ => Kw.identifier
theorem Sf.numeric : Sf numeric := Sf.kw Safe.numeric fun _ _ => Kw.numeric
end

/-- What `skip_ws` does with the record of the last layout. -/
theorem skipWs_track {s s' : St} (h : skipWs s = .ok () s') : s'.preWs = s.newPreWs ∧
    ((s.rest = [] ∧ s'.rest = [] ∧ s'.lastWs = s.lastWs) ∨
      (s.rest ≠ [] ∧ s'.rest = [] ∧ s'.lastWs = none ∧ ∃ l u, s.rest = l ++ u ∧ Layout l ∧ OpenLine u) ∨
      (s.rest ≠ [] ∧ s'.lastWs = some (s'.preWs.length - s'.rest.length) ∧
        ∃ l, s.rest = l ++ s'.rest ∧ Layout l ∧ NoLayoutStart s'.rest)) := by
  rw [skipWs_eq] at h
  by_cases hs : s.rest = []
  · rw [if_pos hs] at h
    cases h
    exact ⟨rfl, .inl ⟨hs, hs, rfl⟩⟩
  rw [if_neg hs] at h
  rcases skipWsLoop_cases (s.rest.length + 1) { s with preWs := s.newPreWs } (by simp) with
    ⟨l, r, e, hl, hr, s1, h1, h2, h3⟩ | ⟨l, u, e, hl, hu, s1, h1, h2, h3⟩ | ⟨l, u, e, he, hl, hu, s1, h1⟩
  · rw [h1] at h
    cases h
    exact ⟨h3.preWs, .inr (.inr ⟨hs, rfl, l, by simpa [h2] using e, hl, by simpa [h2] using hr⟩)⟩
  · rw [h1] at h
    cases h
    exact ⟨h3.preWs, .inr (.inl ⟨hs, h2, rfl, l, u, e, hl, hu⟩)⟩
  · rw [h1] at h
    cases h

theorem Sf.skipWs : Sf skipWs where
  safe := Safe.skipWs
  tr {s s' a} hi ht h hne := by
    have hr := (Safe.skipWs.from hi h).rest
    obtain ⟨k, h1, h2⟩ := ht (suffix_ne hr hne)
    obtain ⟨g1, ⟨g2, g3, -⟩ | ⟨-, g3, -⟩ | ⟨g2, g3, -⟩⟩ := skipWs_track h
    · exact absurd g3 hne
    · exact absurd g3 hne
    have hp : s.rest.length ≤ s'.preWs.length := by
      rw [g1]
      unfold St.newPreWs
      rw [h1]
      by_cases hc : s.rest.length + k < s.preWs.length
      · simp only [hc, ↓reduceIte, Nat.le_refl]
      · simp only [hc, ↓reduceIte]; omega
    have := hr.length_le
    exact ⟨_, g3, by omega⟩

/-- After something was read, layout is recorded to begin right there. -/
theorem Moved.newPreWs {s : St} (h : Moved s) : s.newPreWs = s.rest := by
  obtain ⟨k, h1, h2⟩ := h
  unfold St.newPreWs
  rw [h1]
  simp only [h2, ↓reduceIte]

theorem Sf.comma : Sf comma := by
  unfold Ron.comma
  exact Sf.skipWs.bind fun _ => (Sf.consumeChar ',').bind fun _ => Sf.ite (Sf.skipWs.bind fun _ => Sf.pure _) (Sf.pure _)

theorem checkStructType_cursor [Env] {nm : NewtypeMode} {tm : TupleMode} {s s' : St} {a : StructType} (h : checkStructType nm tm s = .ok a s') :
    s'.rest = s.rest ∧ s'.preWs = s.preWs ∧ s'.lastWs = s.lastWs := by
  unfold checkStructType at h
  simp only [bind_apply, cursor_apply] at h
  generalize checkStructTypeInner nm tm s = r at h
  cases r with
  | err e s1 => cases h
  | ok r s1 =>
    cases h
    exact ⟨rfl, rfl, rfl⟩

theorem Sf.checkStructType [Env] (nm : NewtypeMode) (tm : TupleMode) : Sf (checkStructType nm tm) where
  safe := Safe.checkStructType nm tm
  tr {s s' a} hi ht h := by
    obtain ⟨h1, h2, h3⟩ := checkStructType_cursor h
    unfold Tracked
    rw [h1, h2, h3]
    exact ht

end Ron
