import Verif.Lemmas.Basic
/-!
Every token parser keeps its positions inside the text, only moves forward over what remains, and never runs out of
the model's fuel.
-/

set_option linter.unusedSimpArgs false

namespace Ron

/-- The positions lie in the text. -/
structure St.Inside (s : St) : Prop where
  rest : s.rest <:+ s.src
  prev : s.prev <:+ s.src
  preWs : s.preWs <:+ s.src

/-- `s` can be reached from `b` by reading tokens. -/
structure From (b s : St) : Prop where
  inside : s.Inside
  rest : s.rest <:+ b.rest
  src : s.src = b.src
  exts : s.exts = b.exts
  nv : s.nv = b.nv
  limit : s.limit = b.limit
  lastIdent : s.lastIdent = b.lastIdent

theorem From.refl {s : St} (h : s.Inside) : From s s := ⟨h, List.suffix_refl _, rfl, rfl, rfl, rfl, rfl⟩
theorem From.trans {a b c : St} (h : From a b) (g : From b c) : From a c :=
  ⟨g.inside, g.rest.trans h.rest, g.src.trans h.src, g.exts.trans h.exts, g.nv.trans h.nv, g.limit.trans h.limit,
    g.lastIdent.trans h.lastIdent⟩

/-- Not an error of the model: neither out of fuel nor a move beyond the end of the source. -/
@[simp] abbrev Err.Fine (e : Err) : Prop := e ≠ .fuel ∧ e ≠ .panic

/-- A result reached from `b`; a successful one satisfies `Q`. -/
def Out {α : Type} (b : St) (Q : α → St → Prop) : Res α → Prop
  | .ok a s => From b s ∧ Q a s
  | .err e s => From b s ∧ e.Fine

/-- A token parser. -/
def Safe {α : Type} (f : P α) : Prop := ∀ s, s.Inside → Out s (fun _ _ => True) (f s)

section
variable {α β : Type} {b s : St} {Q : α → St → Prop} {R : β → St → Prop}

theorem Out.imp {r : Res α} {Q' : α → St → Prop} (h : Out b Q r) (hq : ∀ a s, From b s → Q a s → Q' a s) : Out b Q' r := by
  cases r with
  | ok a s => exact ⟨h.1, hq a s h.1 h.2⟩
  | err e s => exact h

theorem Out.lift {r : Res α} (hb : From b s) (h : Out s Q r) : Out b Q r := by
  cases r with
  | ok a s' => exact ⟨hb.trans h.1, h.2⟩
  | err e s' => exact ⟨hb.trans h.1, h.2⟩

theorem Out.liftF {r : Res α} (hb : From b s) (h : Out s Q r) : Out b (fun a s' => Q a s' ∧ From s s') r := by
  cases r with
  | ok a s' => exact ⟨hb.trans h.1, h.2, h.1⟩
  | err e s' => exact ⟨hb.trans h.1, h.2⟩

theorem Safe.at {f : P α} (h : Safe f) (hb : From b s) : Out b (fun _ s' => From s s') (f s) := by
  have h1 := h s hb.inside
  revert h1
  cases f s with
  | ok a s' => exact fun h1 => ⟨hb.trans h1.1, h1.1⟩
  | err e s' => exact fun h1 => ⟨hb.trans h1.1, h1.2⟩

theorem Out.bind {f : P α} {g : α → P β} (hf : Out b Q (f s)) (hg : ∀ a s', From b s' → Q a s' → Out b R (g a s')) :
    Out b R ((f >>= g) s) := by
  show Out b R (P.bind f g s)
  unfold P.bind
  revert hf
  cases f s with
  | ok a s' => exact fun hf => hg a s' hf.1 hf.2
  | err e s' => exact fun hf => hf

theorem Out.bindS {f : P α} {g : α → P β} (hf : Safe f) (hb : From b s) (hg : ∀ a s', From b s' → From s s' → Out b R (g a s')) :
    Out b R ((f >>= g) s) := Out.bind (hf.at hb) hg

theorem Out.pure {a : α} (hb : From b s) (hq : Q a s) : Out b Q ((Pure.pure a : P α) s) := ⟨hb, hq⟩
theorem Out.fail {e : Err} (hb : From b s) (he : e.Fine) : Out b Q ((Ron.fail e : P α) s) := ⟨hb, he⟩
theorem Out.getSt {g : St → P β} (h : Out b R (g s s)) : Out b R ((Ron.getSt >>= g) s) := h
theorem Out.ite {c : Prop} [Decidable c] {f g : P α} (hf : c → Out b Q (f s)) (hg : ¬ c → Out b Q (g s)) :
    Out b Q ((if c then f else g) s) := by
  split
  · exact hf ‹_›
  · exact hg ‹_›
theorem Out.mapErr {f : P α} {g : Err → Err} (hf : Out b Q (f s)) (hg : ∀ e : Err, e.Fine → (g e).Fine) :
    Out b Q (Ron.mapErr g f s) := by
  unfold Ron.mapErr
  revert hf
  cases f s with
  | ok a s' => exact id
  | err e s' => exact fun hf => ⟨hf.1, hg e hf.2⟩
theorem Out.attempt {f : P α} (hf : Out b Q (f s)) :
    Out b (fun r s' => (∀ e : Err, r = .error e → e.Fine) ∧ ∀ a, r = .ok a → Q a s') (Ron.attempt f s) := by
  unfold Ron.attempt
  revert hf
  cases f s with
  | ok a s' => exact fun hf => ⟨hf.1, (fun _ h => nomatch h), fun a' h => by cases h; exact hf.2⟩
  | err e s' => exact fun hf => ⟨hf.1, (fun e' h => by cases h; exact hf.2), fun _ h => nomatch h⟩

theorem Safe.pure (a : α) : Safe (Pure.pure a : P α) := fun _ h => ⟨.refl h, trivial⟩
theorem Safe.fail {e : Err} (h : e.Fine) : Safe (Ron.fail e : P α) := fun _ hi => ⟨.refl hi, h⟩
theorem Err.ne_fuel {e : Err} (h : (match e with | .fuel => true | .panic => true | _ => false) = false) : e.Fine := by
  constructor <;> rintro rfl <;> cases h
theorem Safe.fail' {e : Err} (h : (match e with | .fuel => true | .panic => true | _ => false) = false) : Safe (Ron.fail e : P α) :=
  .fail (Err.ne_fuel h)
theorem Safe.bind {f : P α} {g : α → P β} (hf : Safe f) (hg : ∀ a, Safe (g a)) : Safe (f >>= g) := fun _ hi =>
  Out.bindS hf (.refl hi) fun a _ h1 _ => ((hg a).at h1).imp fun _ _ _ _ => trivial
theorem Safe.ite {c : Prop} [Decidable c] {f g : P α} (hf : Safe f) (hg : Safe g) : Safe (if c then f else g) := by
  split <;> assumption
theorem Safe.getSt : Safe getSt := fun _ h => ⟨.refl h, trivial⟩
theorem Safe.cursor : Safe cursor := fun _ h => ⟨.refl h, trivial⟩
theorem Safe.mapErr {f : P α} {g : Err → Err} (hf : Safe f) (hg : ∀ e : Err, e.Fine → (g e).Fine) : Safe (mapErr g f) :=
  fun s h => Out.mapErr (hf s h) hg
end

/-- One step in the search for a proof of `Safe`. -/
syntax "safe_step" : tactic
macro_rules | `(tactic| safe_step) => `(tactic| (split))
macro_rules | `(tactic| safe_step) => `(tactic| assumption)
macro_rules | `(tactic| safe_step) => `(tactic| with_reducible exact Safe.pure _)
macro_rules | `(tactic| safe_step) => `(tactic| with_reducible exact Safe.fail' rfl)
macro_rules | `(tactic| safe_step) => `(tactic| with_reducible exact Safe.getSt)
macro_rules | `(tactic| safe_step) => `(tactic| with_reducible exact Safe.cursor)
macro_rules | `(tactic| safe_step) => `(tactic| refine Safe.bind ?_ fun _ => ?_)
macro_rules | `(tactic| safe_step) => `(tactic| refine Safe.ite ?_ ?_)
macro_rules | `(tactic| safe_step) => `(tactic| refine Safe.mapErr ?_ (by intro e he; first | exact he | (simp; done) | (split <;> simp_all)))

theorem Safe.modPos {f : St → St} (h : ∀ s, s.Inside → From s (f s)) : Safe (modSt f) := fun s hi => ⟨h s hi, trivial⟩

theorem From.drop {s : St} (hi : s.Inside) (n : Nat) : From s { s with prev := s.rest, rest := s.rest.drop n } :=
  ⟨⟨(List.drop_suffix _ _).trans hi.rest, hi.rest, hi.preWs⟩, List.drop_suffix _ _, rfl, rfl, rfl, rfl, rfl⟩

theorem advance_out {b s : St} {n : Nat} (hb : From b s) (hn : n ≤ s.rest.length) :
    Out b (fun _ s' => From s s') (advance n s) := by
  rw [advance_ok hn]
  exact ⟨hb.trans (.drop hb.inside n), .drop hb.inside n⟩

theorem From.next {s : St} (hi : s.Inside) {c : Char} {r : Text} (h : s.rest = c :: r) : From s { s with rest := r } :=
  ⟨⟨(List.suffix_cons c r).trans (h ▸ hi.rest), hi.prev, hi.preWs⟩, h ▸ List.suffix_cons c r, rfl, rfl, rfl, rfl, rfl⟩

theorem nextChar_out {s : St} (hi : s.Inside) : Out s (fun _ s' => s'.rest.length < s.rest.length) (nextChar s) := by
  unfold nextChar
  split
  · exact ⟨.refl hi, by simp⟩
  · rename_i c r h
    exact ⟨.next hi h, by simp [h]⟩
theorem Safe.nextChar : Safe nextChar := fun s hi => (nextChar_out hi).imp fun _ _ _ _ => trivial
macro_rules | `(tactic| safe_step) => `(tactic| with_reducible exact Safe.nextChar)

theorem Safe.skipNextChar : Safe skipNextChar := Safe.modPos fun s hi =>
  ⟨⟨(List.drop_suffix _ _).trans hi.rest, hi.prev, hi.preWs⟩, List.drop_suffix _ _, rfl, rfl, rfl, rfl, rfl⟩
macro_rules | `(tactic| safe_step) => `(tactic| with_reducible exact Safe.skipNextChar)
theorem Safe.peekChar : Safe peekChar := fun _ hi => ⟨.refl hi, trivial⟩
macro_rules | `(tactic| safe_step) => `(tactic| with_reducible exact Safe.peekChar)
theorem peekCharOrEof_out {s : St} (hi : s.Inside) : Out s (fun _ s' => 0 < s'.rest.length) (peekCharOrEof s) := by
  unfold Ron.peekCharOrEof
  split
  · exact ⟨.refl hi, by simp⟩
  · rename_i h
    exact ⟨.refl hi, by simp [h]⟩
theorem Safe.peekCharOrEof : Safe peekCharOrEof := fun _ hi => (peekCharOrEof_out hi).imp fun _ _ _ _ => trivial
macro_rules | `(tactic| safe_step) => `(tactic| with_reducible exact Safe.peekCharOrEof)
theorem Safe.checkStr (t : Text) : Safe (checkStr t) := fun _ hi => ⟨.refl hi, trivial⟩
macro_rules | `(tactic| safe_step) => `(tactic| with_reducible exact Safe.checkStr _)
theorem Safe.checkChar (c : Char) : Safe (checkChar c) := Safe.checkStr _
macro_rules | `(tactic| safe_step) => `(tactic| with_reducible exact Safe.checkChar _)

theorem consumeStr_out {s : St} (hi : s.Inside) (t : Text) :
    Out s (fun r s' => (r = false → s' = s) ∧ (r = true → s'.rest.length + t.length = s.rest.length)) (consumeStr t s) := by
  unfold consumeStr
  split
  · rename_i h
    refine ⟨.drop hi _, by simp, fun _ => ?_⟩
    unfold startsWith at h
    rw [List.isPrefixOf_iff_prefix] at h
    have := h.length_le
    simp; omega
  · exact ⟨.refl hi, by simp, by simp⟩
theorem Safe.consumeStr (t : Text) : Safe (consumeStr t) := fun _ hi => (consumeStr_out hi t).imp fun _ _ _ _ => trivial
macro_rules | `(tactic| safe_step) => `(tactic| with_reducible exact Safe.consumeStr _)
theorem Safe.consumeChar (c : Char) : Safe (consumeChar c) := Safe.consumeStr _
macro_rules | `(tactic| safe_step) => `(tactic| with_reducible exact Safe.consumeChar _)
theorem consumeChar_out {s : St} (hi : s.Inside) (c : Char) :
    Out s (fun r s' => (r = false → s' = s) ∧ (r = true → s'.rest.length + 1 = s.rest.length)) (consumeChar c s) :=
  consumeStr_out hi [c]
theorem Safe.expectChar (c : Char) {e : Err} (he : e.Fine) : Safe (expectChar c e) := by
  unfold Ron.expectChar
  exact .bind (.consumeChar c) fun _ => .ite (.pure _) (.fail he)
macro_rules | `(tactic| safe_step) => `(tactic| with_reducible exact Safe.expectChar _ (Err.ne_fuel rfl))

/-! ### Layout -/

theorem blockLoop_out (f : Nat) : ∀ (d : Nat) (s : St), s.Inside → s.rest.length < f → Out s (fun _ _ => True) (blockLoop f d s) := by
  induction f with
  | zero => intro d s _ h; omega
  | succ f ih =>
    intro d s hi hf
    cases d with
    | zero => exact ⟨.refl hi, trivial⟩
    | succ d =>
      unfold blockLoop
      refine Out.getSt ?_
      refine Out.ite (fun _ => Out.fail (.refl hi) (by simp)) fun _ => ?_
      refine Out.bind (advance_out (.refl hi) (whileLen_le _ _)) fun _ s1 h1 _ => ?_
      have l1 := h1.rest.length_le
      refine Out.bind ((consumeStr_out h1.inside _).lift h1) fun r s2 h2 q2 => ?_
      refine Out.ite (fun hr => ?_) fun hr => ?_
      · have := q2.2 hr
        simp at this
        exact (ih _ s2 h2.inside (by omega)).lift h2
      have q2' := q2.1 (by simpa using hr)
      subst q2'
      refine Out.bind ((consumeStr_out h2.inside _).lift h2) fun r s3 h3 q3 => ?_
      refine Out.ite (fun hr => ?_) fun hr => ?_
      · have := q3.2 hr
        simp at this
        exact (ih _ s3 h3.inside (by omega)).lift h3
      have q3' := q3.1 (by simpa using hr)
      subst q3'
      refine Out.bind (Out.mapErr ((nextChar_out h3.inside).lift h3) (by intro e _; simp)) fun _ s4 h4 q4 => ?_
      exact (ih _ s4 h4.inside (by omega)).lift h4

theorem skipComment_out {s : St} (hi : s.Inside) :
    Out s (fun r s' => (r = none → True) ∧ (r ≠ none → s'.rest.length < s.rest.length)) (skipComment s) := by
  unfold skipComment
  refine Out.bind (consumeChar_out hi '/') fun r s1 h1 q1 => ?_
  refine Out.ite (fun hr => ?_) fun hr => Out.pure h1 ⟨by simp, by simp⟩
  have l1 := q1.2 hr
  refine Out.bindS .nextChar h1 fun c s2 h2 g2 => ?_
  have l2 := g2.rest.length_le
  refine Out.ite (fun _ => ?_) fun _ => ?_
  · refine Out.getSt ?_
    refine Out.bind (advance_out h2 (whileLen_le _ _)) fun _ s3 h3 g3 => ?_
    have l3 := g3.rest.length_le
    refine Out.getSt ?_
    exact Out.ite (fun _ => Out.pure h3 ⟨by simp, by omega⟩) fun _ => Out.pure h3 ⟨by simp, by omega⟩
  refine Out.ite (fun _ => ?_) fun _ => ?_
  · refine Out.getSt ?_
    refine Out.bind ((blockLoop_out _ 1 s2 h2.inside (by omega)).liftF h2) fun _ s3 h3 q3 => ?_
    have l3 := q3.2.rest.length_le
    exact Out.pure h3 ⟨by simp, by omega⟩
  · exact Out.fail h2 (by simp)
theorem Safe.skipComment : Safe skipComment := fun _ hi => (skipComment_out hi).imp fun _ _ _ _ => trivial

theorem skipWsLoop_out (f : Nat) : ∀ s : St, s.Inside → s.rest.length < f → Out s (fun _ _ => True) (skipWsLoop f s) := by
  induction f with
  | zero => intro s _ h; omega
  | succ f ih =>
    intro s hi hf
    unfold skipWsLoop
    refine Out.getSt ?_
    refine Out.bind (advance_out (.refl hi) (whileLen_le _ _)) fun _ s1 h1 _ => ?_
    have l1 := h1.rest.length_le
    refine Out.bind ((skipComment_out h1.inside).lift h1) fun r s2 h2 q2 => ?_
    cases r with
    | none => exact Out.pure h2 trivial
    | some r =>
      have l2 := q2.2 (by simp)
      cases r
      · exact (ih s2 h2.inside (by omega)).lift h2
      · exact Out.pure h2 trivial
      · exact (ih s2 h2.inside (by omega)).lift h2

theorem Safe.skipWs : Safe skipWs := fun s hi => by
  unfold Ron.skipWs
  have h0 : From s s.trackWs := by
    unfold St.trackWs
    split
    · split
      · exact ⟨⟨hi.rest, hi.prev, hi.rest⟩, List.suffix_refl _, rfl, rfl, rfl, rfl, rfl⟩
      · exact .refl hi
    · exact .refl hi
  refine Out.bind (Q := fun _ s' => True) ⟨h0, trivial⟩ fun _ s1 h1 _ => ?_
  refine Out.getSt ?_
  refine Out.ite (fun _ => Out.pure h1 trivial) fun _ => ?_
  refine Out.bind ((skipWsLoop_out _ s1 h1.inside (by omega)).lift h1) fun r s2 h2 _ => ?_
  have key : ∀ l, From s { s2 with lastWs := l } := fun l =>
    ⟨⟨h2.inside.rest, h2.inside.prev, h2.inside.preWs⟩, h2.rest, h2.src, h2.exts, h2.nv, h2.limit, h2.lastIdent⟩
  exact Out.ite (fun _ => ⟨key _, trivial⟩) fun _ => ⟨key _, trivial⟩
macro_rules | `(tactic| safe_step) => `(tactic| with_reducible exact Safe.skipWs)

theorem Safe.hasUnclosedLineComment : Safe hasUnclosedLineComment := fun _ hi => ⟨.refl hi, trivial⟩
macro_rules | `(tactic| safe_step) => `(tactic| with_reducible exact Safe.hasUnclosedLineComment)

theorem Safe.consumeAll (ts : List Text) : ∀ acc, Safe (consumeAll ts acc) := by
  induction ts with
  | nil => intro acc; exact .pure _
  | cons t ts ih =>
    intro acc
    unfold Ron.consumeAll
    exact .bind (.consumeStr _) fun _ => .ite (.bind .skipWs fun _ => ih _) (ih _)
macro_rules | `(tactic| safe_step) => `(tactic| with_reducible exact Safe.consumeAll _ _)

theorem Safe.comma : Safe comma := by unfold Ron.comma; repeat safe_step
macro_rules | `(tactic| safe_step) => `(tactic| with_reducible exact Safe.comma)

/-! ### Positions that are returned to -/

/-- A saved position that lies after `b`. -/
def Cur.After (b : St) (c : Cur) : Prop := c.rest <:+ b.rest ∧ c.preWs <:+ b.src

theorem cursor_out {b s : St} (hb : From b s) : Out b (fun c s' => c.After b ∧ s' = s ∧ c.rest = s.rest) (cursor s) :=
  ⟨hb, ⟨hb.rest, hb.src ▸ hb.inside.preWs⟩, rfl, rfl⟩

theorem setCursor_out {b s : St} {c : Cur} (hb : From b s) (hi : b.Inside) (hc : c.After b) :
    Out b (fun _ s' => s'.rest = c.rest) (setCursor c s) :=
  ⟨⟨⟨by show c.rest <:+ s.src; rw [hb.src]; exact hc.1.trans hi.rest, hb.inside.prev,
      by show c.preWs <:+ s.src; rw [hb.src]; exact hc.2⟩,
    hc.1, hb.src, hb.exts, hb.nv, hb.limit, hb.lastIdent⟩, rfl⟩

theorem Safe.tryToken {α : Type} (strict : Bool) {f : P α} (hf : Safe f) : Safe (tryToken strict f) := by
  intro s hi
  unfold Ron.tryToken
  refine Out.bind (cursor_out (.refl hi)) fun c s1 h1 q1 => ?_
  refine Out.bind (Out.attempt (hf.at h1)) fun r s2 h2 q2 => ?_
  cases r with
  | ok a => exact Out.pure h2 trivial
  | error e =>
    exact Out.ite (fun _ => Out.fail h2 (q2.1 e rfl)) fun _ => (setCursor_out h2 hi q1.1).imp fun _ _ _ _ => trivial

variable [Env]

/-! ### Identifiers -/

theorem Safe.checkIdent (t : Text) : Safe (checkIdent t) := fun _ hi => ⟨.refl hi, trivial⟩
macro_rules | `(tactic| safe_step) => `(tactic| with_reducible exact Safe.checkIdent _)
theorem Safe.consumeIdent (t : Text) : Safe (consumeIdent t) := by
  intro s hi
  unfold Ron.consumeIdent
  refine Out.bind (Q := fun r s' => s' = s ∧ (r = true → t.length ≤ s.rest.length)) ⟨.refl hi, rfl, fun h => ?_⟩ fun r s1 h1 q1 => ?_
  · rw [Bool.and_eq_true] at h
    exact startsWith_le h.1
  · obtain ⟨rfl, q1⟩ := q1
    refine Out.ite (fun hr => ?_) fun _ => Out.pure h1 trivial
    exact Out.bind (advance_out h1 (q1 hr)) fun _ s2 h2 _ => Out.pure h2 trivial
macro_rules | `(tactic| safe_step) => `(tactic| with_reducible exact Safe.consumeIdent _)
theorem Safe.skipIdentifier : Safe skipIdentifier := by
  intro s hi
  unfold Ron.skipIdentifier
  refine Out.getSt ?_
  refine Out.ite (fun _ => Out.pure (.refl hi) trivial) fun _ => ?_
  refine Out.ite (fun hp => ?_) fun _ => ?_
  · refine Out.ite (fun _ => ?_) fun _ => Out.pure (.refl hi) trivial
    have := startsWith_le hp
    have := whileLen_le isIdentRaw (s.rest.drop 2)
    rw [List.length_drop] at this
    exact Out.bind (advance_out (.refl hi) (by simp only [List.length_cons, List.length_nil] at *; omega))
      fun _ s2 h2 _ => Out.pure h2 trivial
  · generalize hr : s.rest = u
    cases u with
    | nil => exact Out.pure (.refl hi) trivial
    | cons c u =>
      refine Out.ite (fun _ => ?_) fun _ => Out.pure (.refl hi) trivial
      have := whileLen_le Env.xidCont u
      exact Out.bind (advance_out (.refl hi) (by rw [hr, List.length_cons]; omega)) fun _ s2 h2 _ => Out.pure h2 trivial
macro_rules | `(tactic| safe_step) => `(tactic| with_reducible exact Safe.skipIdentifier)

theorem Safe.identifier : Safe identifier := by
  intro s hi
  unfold Ron.identifier
  refine Out.bind (peekCharOrEof_out hi) fun c s1 h1 q1 => ?_
  refine Out.getSt ?_
  refine Out.ite (fun _ => ?_) fun _ => ?_
  · exact Out.ite (fun _ => Out.fail h1 (by simp)) fun _ => Out.fail h1 (by simp)
  refine Out.ite (fun _ => Out.fail h1 (by simp)) fun _ => ?_
  refine Out.ite (fun hp => ?_) fun _ => ?_
  · refine Out.bind (cursor_out h1) fun c s2 h2 q2 => ?_
    refine Out.bind (advance_out h2 (by rw [q2.2.1]; exact startsWith_le hp)) fun _ s3 h3 _ => ?_
    refine Out.getSt ?_
    refine Out.ite (fun _ => ?_) fun _ => ?_
    · exact Out.bind (setCursor_out h3 hi q2.1) fun _ s4 h4 _ => Out.fail h4 (by simp)
    · exact Out.bind (advance_out h3 (whileLen_le _ _)) fun _ s4 h4 _ => Out.pure h4 trivial
  · refine Out.ite (fun _ => Out.fail h1 (by simp)) fun _ => ?_
    refine Out.bind (advance_out h1 ?_) fun _ s4 h4 _ => Out.pure h4 trivial
    have := whileLen_le Env.xidCont (s1.rest.drop 1)
    rw [List.length_drop] at this
    split
    · exact whileLen_le _ _
    · omega
macro_rules | `(tactic| safe_step) => `(tactic| with_reducible exact Safe.identifier)

theorem Safe.consumeStructName (ident : Text) : Safe (consumeStructName ident) := by
  intro s hi
  unfold Ron.consumeStructName
  refine Out.bindS (.checkIdent _) (.refl hi) fun r s1 h1 _ => ?_
  refine Out.ite (fun _ => ?_) fun _ => ?_
  · refine Out.getSt ?_
    exact Out.ite (fun _ => Out.fail h1 (by simp)) fun _ => Out.pure h1 trivial
  · refine Out.bind (Out.attempt (Safe.identifier.at h1)) fun r s2 h2 q2 => ?_
    split
    · exact Out.ite (fun _ => Out.fail h2 (by simp)) fun _ => Out.fail h2 (by simp)
    · exact Out.fail h2 (by simp)
    · refine Out.ite (fun _ => Out.fail h2 (by simp)) fun _ => ?_
      exact Out.ite (fun _ => Out.fail h2 (by simp)) fun _ => Out.pure h2 trivial
macro_rules | `(tactic| safe_step) => `(tactic| with_reducible exact Safe.consumeStructName _)

/-! ### Strings -/

omit [Env] in
theorem Safe.decodeHexP (c : Char) : Safe (decodeHexP c) := by unfold Ron.decodeHexP; repeat safe_step
macro_rules | `(tactic| safe_step) => `(tactic| with_reducible exact Safe.decodeHexP _)
omit [Env] in
theorem Safe.decodeAsciiEscape : Safe decodeAsciiEscape := by unfold Ron.decodeAsciiEscape; repeat safe_step
macro_rules | `(tactic| safe_step) => `(tactic| with_reducible exact Safe.decodeAsciiEscape)
omit [Env] in
theorem badByteEscape_ne : badByteEscape.Fine := by simp [badByteEscape]
macro_rules | `(tactic| safe_step) => `(tactic| with_reducible exact Safe.fail badByteEscape_ne)
omit [Env] in
theorem Safe.moreBytes (n : Nat) : ∀ acc, Safe (moreBytes n acc) := by
  induction n with
  | zero => intro acc; exact .fail badByteEscape_ne
  | succ n ih =>
    intro acc
    unfold Ron.moreBytes
    refine .bind (.consumeStr _) fun _ => .ite (.bind .decodeAsciiEscape fun _ => ?_) (.fail badByteEscape_ne)
    dsimp only
    split
    · exact .pure _
    · exact ih _
macro_rules | `(tactic| safe_step) => `(tactic| with_reducible exact Safe.moreBytes _ _)
omit [Env] in
theorem Safe.uniDigits (n : Nat) : ∀ a k, Safe (uniDigits n a k) := by
  induction n with
  | zero => intro a k; exact .pure _
  | succ n ih =>
    intro a k
    unfold Ron.uniDigits
    exact .bind .peekCharOrEof fun _ => .ite (.pure _) (.bind .skipNextChar fun _ => .bind (.decodeHexP _) fun _ => ih _ _)
macro_rules | `(tactic| safe_step) => `(tactic| with_reducible exact Safe.uniDigits _ _ _)
omit [Env] in
theorem Safe.parseEscape (e : EscEnc) (c : Bool) : Safe (parseEscape e c) := by unfold Ron.parseEscape; repeat safe_step
macro_rules | `(tactic| safe_step) => `(tactic| with_reducible exact Safe.parseEscape _ _)

omit [Env] in
theorem parseEscape_lt {e : EscEnc} {c : Bool} {s : St} (hi : s.Inside) :
    Out s (fun _ s' => s'.rest.length < s.rest.length) (parseEscape e c s) := by
  unfold parseEscape
  refine Out.bind (nextChar_out hi) fun ch s1 h1 q1 => ?_
  refine Out.imp (Q := fun _ s' => From s1 s') ?_ fun _ s2 _ g2 => by have := g2.rest.length_le; omega
  refine Safe.at ?_ h1
  repeat safe_step

omit [Env] in
theorem escLoop_out (e : EscEnc) (f : Nat) : ∀ (i : Nat) (acc : List UInt8) (s : St), s.Inside → s.rest.length < f →
    i < s.rest.length → Out s (fun r s' => r.2 ≤ s'.rest.length) (escLoop e f i acc s) := by
  induction f with
  | zero => intro i acc s _ h; omega
  | succ f ih =>
    intro i acc s hi hf hil
    unfold escLoop
    refine Out.bind (advance_out (.refl hi) hil) fun _ s1 h1 _ => ?_
    have l1 := h1.rest.length_le
    refine Out.bind ((parseEscape_lt h1.inside).lift h1) fun r s2 h2 q2 => ?_
    refine Out.getSt ?_
    generalize hu : List.drop (whileLen (fun c => !(c == '"' || c == '\\')) s2.rest) s2.rest = u
    cases u with
    | nil => exact Out.fail h2 (by simp)
    | cons c u =>
      have hlt : whileLen (fun c => !(c == '"' || c == '\\')) s2.rest < s2.rest.length := by
        have := congrArg List.length hu
        rw [List.length_drop, List.length_cons] at this
        omega
      refine Out.ite (fun _ => ?_) fun _ => Out.pure h2 hlt
      exact (ih _ _ s2 h2.inside (by omega) hlt).lift h2

omit [Env] in
theorem escapedByteBuf_out (e : EscEnc) {s : St} (hi : s.Inside) :
    Out s (fun r s' => r.2 ≤ s'.rest.length) (escapedByteBuf e s) := by
  unfold Ron.escapedByteBuf
  refine Out.getSt ?_
  refine Out.ite (fun _ => Out.fail (.refl hi) (by simp)) fun h => ?_
  have hle := whileLen_le (fun c => c != '"') s.rest
  rw [beq_iff_eq] at h
  refine Out.ite (fun hl => ?_) fun _ => Out.pure (.refl hi) (show _ + 1 ≤ _ by omega)
  rw [List.length_take] at hl
  exact escLoop_out _ _ _ _ s hi (by omega) (by omega)
omit [Env] in
theorem rawByteBuf_out {s : St} (hi : s.Inside) : Out s (fun r s' => r.2 ≤ s'.rest.length) (rawByteBuf s) := by
  unfold Ron.rawByteBuf
  refine Out.getSt ?_
  refine Out.bind (advance_out (.refl hi) (whileLen_le _ _)) fun _ s1 h1 _ => ?_
  refine Out.bindS (.expectChar _ (by simp)) h1 fun _ s2 h2 _ => ?_
  refine Out.getSt ?_
  generalize hf : findSub ('"' :: List.take (whileLen (fun c => c == '#') s.rest) s.rest) s2.rest = o
  cases o with
  | none => exact Out.fail h2 (by simp)
  | some i =>
    have := findSub_le hf
    rw [List.length_cons, List.length_take, Nat.min_eq_left (whileLen_le _ _)] at this
    exact Out.pure h2 (by show i + _ + 1 ≤ _; omega)
omit [Env] in
theorem finishStr_out {b s : St} (hb : From b s) (r : List UInt8 × Nat) (h : r.2 ≤ s.rest.length) :
    Out b (fun _ _ => True) (finishStr r s) := by
  unfold Ron.finishStr
  cases utf8Dec r.1 with
  | some t => exact Out.bind (advance_out hb h) fun _ s1 h1 _ => Out.pure h1 trivial
  | none => exact Out.fail hb (by simp)
omit [Env] in
theorem Safe.escapedString : Safe escapedString := fun s hi => by
  unfold Ron.escapedString
  exact Out.bind (escapedByteBuf_out _ hi) fun r s1 h1 q1 => finishStr_out h1 r q1
macro_rules | `(tactic| safe_step) => `(tactic| with_reducible exact Safe.escapedString)
omit [Env] in
theorem Safe.rawString : Safe rawString := fun s hi => by
  unfold Ron.rawString
  exact Out.bind (rawByteBuf_out hi) fun r s1 h1 q1 => finishStr_out h1 r q1
macro_rules | `(tactic| safe_step) => `(tactic| with_reducible exact Safe.rawString)
omit [Env] in
theorem Safe.string : Safe string := by unfold Ron.string; repeat safe_step
macro_rules | `(tactic| safe_step) => `(tactic| with_reducible exact Safe.string)
omit [Env] in
theorem Safe.escapedByteString : Safe escapedByteString := fun s hi => by
  unfold Ron.escapedByteString
  exact Out.bind (escapedByteBuf_out _ hi) fun r s1 h1 q1 =>
    Out.bind (advance_out h1 q1) fun _ s2 h2 _ => Out.pure h2 trivial
macro_rules | `(tactic| safe_step) => `(tactic| with_reducible exact Safe.escapedByteString)
omit [Env] in
theorem Safe.rawByteString : Safe rawByteString := fun s hi => by
  unfold Ron.rawByteString
  refine Out.bind (Out.mapErr (rawByteBuf_out hi) ?_) fun r s1 h1 q1 =>
    Out.bind (advance_out h1 q1) fun _ s2 h2 _ => Out.pure h2 trivial
  intro e he
  split
  · simp
  · exact he
macro_rules | `(tactic| safe_step) => `(tactic| with_reducible exact Safe.rawByteString)
omit [Env] in
theorem Safe.byteStringNoBase64 : Safe byteStringNoBase64 := by unfold Ron.byteStringNoBase64; repeat safe_step
macro_rules | `(tactic| safe_step) => `(tactic| with_reducible exact Safe.byteStringNoBase64)
omit [Env] in
theorem Safe.charLit : Safe charLit := by unfold Ron.charLit; repeat safe_step
macro_rules | `(tactic| safe_step) => `(tactic| with_reducible exact Safe.charLit)
theorem Safe.bool : Safe Ron.bool := by unfold Ron.bool; repeat safe_step
macro_rules | `(tactic| safe_step) => `(tactic| with_reducible exact Safe.bool)
omit [Env] in
theorem base64Error_ne (t : Text) : (base64Error t).Fine := by unfold base64Error; split <;> simp
macro_rules | `(tactic| safe_step) => `(tactic| with_reducible exact Safe.fail (base64Error_ne _))
omit [Env] in
theorem Safe.byteString : Safe byteString := by unfold Ron.byteString; repeat safe_step
macro_rules | `(tactic| safe_step) => `(tactic| with_reducible exact Safe.byteString)

/-! ### Numbers -/

omit [Env] in
theorem decodeHexP_out (c : Char) {s : St} (hi : s.Inside) : Out s (fun _ s' => s' = s) (decodeHexP c s) := by
  unfold Ron.decodeHexP
  cases decodeHex c with
  | some n => exact Out.pure (.refl hi) rfl
  | none => exact Out.fail (.refl hi) (by simp)
omit [Env] in
theorem intDigits_out (t : IntTy) (neg : Bool) (base whole : Nat) {s : St} (hi : s.Inside) (hw : whole ≤ s.rest.length) (u : Text) :
    ∀ i acc, i + u.length ≤ s.rest.length → Out s (fun _ _ => True) (intDigits t neg base whole u i acc s) := by
  induction u with
  | nil =>
    intro i acc _
    unfold Ron.intDigits
    exact Out.bind (advance_out (.refl hi) hw) fun _ s1 h1 _ => Out.pure h1 trivial
  | cons c u ih =>
    intro i acc hl
    rw [List.length_cons] at hl
    unfold Ron.intDigits
    refine Out.ite (fun _ => ih _ _ (by omega)) fun _ => ?_
    refine Out.ite (fun _ => Out.bind (advance_out (.refl hi) hw) fun _ s1 h1 _ => Out.fail h1 (by simp)) fun _ => ?_
    refine Out.bind (decodeHexP_out c hi) fun d s1 h1 q1 => ?_
    subst q1
    refine Out.ite (fun _ => Out.bind (advance_out h1 (by omega)) fun _ s1 h1 _ => Out.fail h1 (by simp)) fun _ => ?_
    exact Out.ite (fun _ => Out.bind (advance_out h1 hw) fun _ s1 h1 _ => Out.fail h1 (by simp)) fun _ => ih _ _ (by omega)
omit [Env] in
theorem Safe.parseInteger (t : IntTy) (neg : Bool) (base : Nat) : Safe (parseInteger t neg base) := by
  intro s hi
  unfold Ron.parseInteger
  refine Out.getSt ?_
  refine Out.ite (fun _ => Out.fail (.refl hi) (by simp)) fun _ => ?_
  refine Out.ite (fun _ => Out.fail (.refl hi) (by simp)) fun _ => ?_
  exact intDigits_out _ _ _ _ hi (whileLen_le _ _) _ _ _ (by rw [List.length_take]; omega)
macro_rules | `(tactic| safe_step) => `(tactic| with_reducible exact Safe.parseInteger _ _ _)
theorem Safe.intParse (tg : IntTarget) (neg : Bool) (base : Nat) : Safe (tg.parse neg base) := by
  unfold IntTarget.parse; repeat safe_step
macro_rules | `(tactic| safe_step) => `(tactic| with_reducible exact Safe.intParse _ _ _)
omit [Env] in
theorem Safe.intTryFrom (tg : IntTarget) (t : IntTy) (v : Int) (ron : Text) : Safe (tg.tryFrom t v ron) := by
  unfold IntTarget.tryFrom; repeat safe_step
macro_rules | `(tactic| safe_step) => `(tactic| with_reducible exact Safe.intTryFrom _ _ _ _)
theorem Safe.consumeSuffix (ts : List IntTy) : Safe (consumeSuffix ts) := by
  induction ts with
  | nil => exact .pure _
  | cons t ts ih => unfold Ron.consumeSuffix; exact .bind (.consumeIdent _) fun _ => .ite (.pure _) ih
macro_rules | `(tactic| safe_step) => `(tactic| with_reducible exact Safe.consumeSuffix _)
omit [Env] in
theorem Safe.basePrefix : Safe basePrefix := by unfold Ron.basePrefix; repeat safe_step
macro_rules | `(tactic| safe_step) => `(tactic| with_reducible exact Safe.basePrefix)
omit [Env] in
theorem Safe.byteLiteral (tg : IntTarget) (u : Text) : Safe (byteLiteral tg u) := by unfold Ron.byteLiteral; repeat safe_step
macro_rules | `(tactic| safe_step) => `(tactic| with_reducible exact Safe.byteLiteral _ _)

theorem Safe.unsignedPart (tg : IntTarget) (neg : Bool) (u : Text) : Safe (unsignedPart tg neg u) := by
  intro s hi
  unfold Ron.unsignedPart
  refine Out.bindS .basePrefix (.refl hi) fun base s1 h1 _ => ?_
  refine Out.getSt ?_
  refine Out.ite (fun _ => ?_) fun _ => ((Safe.intParse _ _ _).at h1).imp fun _ _ _ _ => trivial
  refine Out.bind (cursor_out h1) fun c s2 h2 q2 => ?_
  refine Out.bind (advance_out h2 (by rw [q2.2.1]; exact whileLen_le _ _)) fun _ s3 h3 _ => ?_
  refine Out.bindS (.consumeSuffix _) h3 fun r s4 h4 _ => ?_
  cases r with
  | none =>
    refine Out.bind (setCursor_out h4 hi q2.1) fun _ s5 h5 _ => ?_
    exact ((Safe.intParse _ _ _).at h5).imp fun _ _ _ _ => trivial
  | some t =>
    refine Out.getSt ?_
    refine Out.bind (setCursor_out h4 hi q2.1) fun _ s5 h5 _ => ?_
    refine Out.bind (Out.attempt ((Safe.parseInteger _ _ _).at h5)) fun r s6 h6 q6 => ?_
    split
    · exact Out.fail h6 (by simp)
    · exact Out.fail h6 (by simp)
    · exact Out.bindS .skipIdentifier h6 fun _ s7 h7 _ => Out.fail h7 (q6.1 _ rfl)
    · exact Out.bindS .skipIdentifier h6 fun _ s7 h7 _ => ((Safe.intTryFrom _ _ _ _).at h7).imp fun _ _ _ _ => trivial
macro_rules | `(tactic| safe_step) => `(tactic| with_reducible exact Safe.unsignedPart _ _ _)

theorem Safe.integer (tg : IntTarget) : Safe (integer tg) := by unfold Ron.integer; repeat safe_step
macro_rules | `(tactic| safe_step) => `(tactic| with_reducible exact Safe.integer _)

theorem floatParse_out (tg : FloatTarget) (t : Text) {b s : St} (hb : From b s) :
    Out b (fun _ s' => s' = s) (tg.parse t s) := by
  unfold FloatTarget.parse
  cases tg with
  | f32 =>
    cases Env.parse32 t with
    | none => exact Out.fail hb (by simp)
    | some v => exact Out.pure hb rfl
  | f64 =>
    cases Env.parse64 t with
    | none => exact Out.fail hb (by simp)
    | some v => exact Out.pure hb rfl
  | any =>
    cases Env.parse64 t with
    | none => exact Out.fail hb (by simp)
    | some v => exact Out.ite (fun _ => Out.pure hb rfl) fun _ => Out.pure hb rfl
theorem Safe.floatParse (tg : FloatTarget) (t : Text) : Safe (tg.parse t) := by unfold FloatTarget.parse; repeat safe_step
macro_rules | `(tactic| safe_step) => `(tactic| with_reducible exact Safe.floatParse _ _)
omit [Env] in
theorem Safe.floatTryFrom (tg : FloatTarget) (v : Number) (t : Text) : Safe (tg.tryFrom v t) := by
  unfold FloatTarget.tryFrom; repeat safe_step
macro_rules | `(tactic| safe_step) => `(tactic| with_reducible exact Safe.floatTryFrom _ _ _)
theorem Safe.floatSpecial (tg : FloatTarget) (ls : List (Text × F32 × F64)) : Safe (floatSpecial tg ls) := by
  induction ls with
  | nil => exact .pure _
  | cons l ls ih =>
    unfold Ron.floatSpecial
    refine .bind (.consumeIdent _) fun _ => .ite (by repeat safe_step) ?_
    intro s hi
    refine Out.getSt ?_
    refine Out.ite (fun hp => ?_) fun _ => Out.ite (fun hp => ?_) fun _ => ih s hi
    all_goals
      rw [Bool.and_eq_true] at hp
      have := startsWith_le hp.1
      rw [List.length_append] at this
      refine Out.bind (advance_out (.refl hi) this) fun _ s1 h1 _ => ?_
      exact Out.bindS (.floatTryFrom _ _ _) h1 fun _ s2 h2 _ => Out.pure h2 trivial
macro_rules | `(tactic| safe_step) => `(tactic| with_reducible exact Safe.floatSpecial _ _)

theorem Safe.float (tg : FloatTarget) : Safe (float tg) := by
  intro s hi
  unfold Ron.float
  refine Out.bindS (.floatSpecial _ _) (.refl hi) fun r s1 h1 _ => ?_
  cases r with
  | some v => exact Out.pure h1 trivial
  | none =>
    refine Out.getSt ?_
    refine Out.ite (fun _ => Out.fail h1 (by simp)) fun _ => ?_
    refine Out.ite (fun _ => Out.fail h1 (by simp)) fun _ => ?_
    generalize hn : (findSub c!".." (s1.rest.takeWhile isFloatChar)).getD (s1.rest.takeWhile isFloatChar).length = n
    have hle : n ≤ s1.rest.length := by
      have hw : (s1.rest.takeWhile isFloatChar).length ≤ s1.rest.length := (List.takeWhile_prefix _).length_le
      rw [← hn]
      cases hf : findSub c!".." (s1.rest.takeWhile isFloatChar) with
      | none => exact hw
      | some i => have := findSub_le hf; simp only [Option.getD_some]; omega
    generalize hu : floatStrip (List.take n s1.rest) 0 false = u
    cases u with
    | error i =>
      have := floatStrip_lt _ _ _ _ hu
      rw [List.length_take] at this
      exact Out.bind (advance_out h1 (by omega)) fun _ s2 h2 _ => Out.fail h2 (by simp)
    | ok f =>
      have plain : ∀ s2, From s s2 → s2.rest = s1.rest →
          Out s (fun _ _ => True) ((do let v ← tg.parse f; Ron.advance n; Pure.pure v : P Number) s2) := by
        intro s2 h2 e2
        refine Out.bind (floatParse_out tg f h2) fun v s3 h3 q3 => ?_
        exact Out.bind (advance_out h3 (by rw [q3, e2]; exact hle)) fun _ s4 h4 _ => Out.pure h4 trivial
      refine Out.ite (fun _ => ?_) fun _ => plain s1 h1 rfl
      refine Out.bind (cursor_out h1) fun c s2 h2 q2 => ?_
      refine Out.bind (advance_out h2 (by rw [q2.2.1]; exact hle)) fun _ s3 h3 _ => ?_
      refine Out.bind (Safe.at (f := (do
            if ← Ron.consumeIdent c!"f32" then Pure.pure (some true)
            else if ← Ron.consumeIdent c!"f64" then Pure.pure (some false)
            else Pure.pure none : P (Option Bool))) (by repeat safe_step) h3) fun w s4 h4 _ => ?_
      cases w with
      | none =>
        refine Out.bind (setCursor_out h4 hi q2.1) fun _ s5 h5 q5 => ?_
        exact plain s5 h5 (q5.trans q2.2.2)
      | some is32 =>
        dsimp only
        generalize (if is32 = true then (Env.parse32 f).map Number.f32 else (Env.parse64 f).map Number.f64) = u
        cases u with
        | none => exact Out.bind (setCursor_out h4 hi q2.1) fun _ s5 h5 _ => Out.fail h5 (by simp)
        | some v =>
          refine Out.getSt ?_
          exact ((Safe.floatTryFrom _ _ _).at h4).imp fun _ _ _ _ => trivial
macro_rules | `(tactic| safe_step) => `(tactic| with_reducible exact Safe.float _)

theorem Safe.anyNumber : Safe anyNumber := by
  unfold Ron.anyNumber
  refine .bind (.consumeIdent _) fun _ => .ite (.pure _) ?_
  refine .bind (.consumeIdent _) fun _ => .ite (.pure _) ?_
  refine .bind (.consumeIdent _) fun _ => .ite (.pure _) ?_
  refine .bind (.consumeIdent _) fun _ => .ite (.pure _) ?_
  refine .bind (.consumeIdent _) fun _ => .ite (.pure _) ?_
  refine .bind (.consumeIdent _) fun _ => .ite (.pure _) ?_
  refine .bind .getSt fun _ => .ite (.float _) ?_
  intro s hi
  refine Out.bind (cursor_out (.refl hi)) fun c s2 h2 q2 => ?_
  refine Out.bind (Out.attempt ((Safe.integer .any).at h2)) fun r s3 h3 q3 => ?_
  split
  · exact Out.pure h3 trivial
  · rename_i e
    refine Out.bind (cursor_out h3) fun c' s4 h4 q4 => ?_
    refine Out.bind (setCursor_out h4 hi q2.1) fun _ s5 h5 _ => ?_
    refine Out.bind (Out.attempt ((Safe.float .any).at h5)) fun r s6 h6 q6 => ?_
    split
    · refine Out.getSt ?_
      refine Out.ite (fun _ => Out.pure h6 trivial) fun _ => ?_
      exact Out.bind (setCursor_out h6 hi q4.1) fun _ s7 h7 _ => Out.fail h7 (q3.1 _ rfl)
    · exact Out.bind (setCursor_out h6 hi q4.1) fun _ s7 h7 _ => Out.fail h7 (q3.1 _ rfl)
macro_rules | `(tactic| safe_step) => `(tactic| with_reducible exact Safe.anyNumber)

/-! ### Struct look-ahead -/

omit [Env] in
theorem braceLoop_out (f : Nat) : ∀ (d : Nat) (s : St), s.Inside → s.rest.length < f → Out s (fun _ _ => True) (braceLoop f d s) := by
  induction f with
  | zero => intro d s _ h; omega
  | succ f ih =>
    intro d s hi hf
    cases d with
    | zero => exact ⟨.refl hi, trivial⟩
    | succ d =>
      unfold braceLoop
      refine Out.bindS .skipWs (.refl hi) fun _ s1 h1 _ => ?_
      refine Out.bindS (.tryToken _ .charLit) h1 fun _ s2 h2 _ => ?_
      refine Out.bindS (.tryToken _ .string) h2 fun _ s3 h3 _ => ?_
      refine Out.bindS (.tryToken _ .byteStringNoBase64) h3 fun _ s4 h4 _ => ?_
      have l4 := h4.rest.length_le
      refine Out.bind ((nextChar_out h4.inside).lift h4) fun c s5 h5 q5 => ?_
      refine Out.ite (fun _ => (ih _ s5 h5.inside (by omega)).lift h5) fun _ => ?_
      refine Out.ite (fun _ => (ih _ s5 h5.inside (by omega)).lift h5) fun _ => ?_
      refine Out.ite (fun _ => ?_) fun _ => (ih _ s5 h5.inside (by omega)).lift h5
      exact Out.bindS .skipWs h5 fun _ s6 h6 _ => Out.bindS (.checkChar _) h6 fun _ s7 h7 _ => Out.pure h7 trivial

omit [Env] in
theorem Safe.structTypeScan (tm : TupleMode) : Safe (structTypeScan tm) := by
  intro s hi
  unfold Ron.structTypeScan
  refine Out.ite (fun _ => Out.pure (.refl hi) trivial) fun _ => ?_
  refine Out.getSt ?_
  exact Out.bind (braceLoop_out _ _ s hi (by omega)) fun _ s1 h1 _ => Out.pure h1 trivial
macro_rules | `(tactic| safe_step) => `(tactic| with_reducible exact Safe.structTypeScan _)
theorem Safe.checkStructTypeInner (nm : NewtypeMode) (tm : TupleMode) : Safe (checkStructTypeInner nm tm) := by
  unfold Ron.checkStructTypeInner; repeat safe_step
/-- The look-ahead does not move. -/
theorem checkStructType_out (nm : NewtypeMode) (tm : TupleMode) {s : St} (hi : s.Inside) :
    Out s (fun _ s' => s'.rest = s.rest) (checkStructType nm tm s) := by
  unfold Ron.checkStructType
  refine Out.bind (cursor_out (.refl hi)) fun c s1 h1 q1 => ?_
  refine Out.bindS (.checkStructTypeInner _ _) h1 fun r s2 h2 _ => ?_
  refine Out.bind (setCursor_out h2 hi q1.1) fun _ s3 h3 q3 => ?_
  exact Out.pure h3 (q3.trans q1.2.2)
theorem Safe.checkStructType (nm : NewtypeMode) (tm : TupleMode) : Safe (checkStructType nm tm) := fun _ hi =>
  (checkStructType_out nm tm hi).imp fun _ _ _ _ => trivial
macro_rules | `(tactic| safe_step) => `(tactic| with_reducible exact Safe.checkStructType _ _)

end Ron
