import Verif.Spec.Broken
import Verif.Lemmas.BadMain
/-!
A comment that is broken inside a value: reading the value fails with the error of the comment.
-/

set_option linter.unusedSimpArgs false

namespace Ron

/-! ### The source stays -/

/-- The source is not changed. -/
def SrcKept {α : Type} (f : P α) : Prop := ∀ s, match f s with
  | .ok _ s' => s'.src = s.src
  | .err _ s' => s'.src = s.src

theorem SrcKept.bind {α β : Type} {f : P α} {g : α → P β} (hf : SrcKept f) (hg : ∀ a, SrcKept (g a)) : SrcKept (f >>= g) := by
  intro s
  have h1 := hf s
  rw [bind_apply]
  cases h : f s with
  | err e s' => rw [h] at h1; exact h1
  | ok a s' =>
    rw [h] at h1
    have h2 := hg a s'
    simp only
    cases h' : g a s' with
    | err e s'' => rw [h'] at h2; exact h2.trans h1
    | ok b s'' => rw [h'] at h2; exact h2.trans h1

theorem SrcKept.pure {α : Type} (a : α) : SrcKept (Pure.pure a : P α) := fun _ => rfl
theorem SrcKept.fail {α : Type} (e : Err) : SrcKept (Ron.fail e : P α) := fun _ => rfl
theorem SrcKept.getSt : SrcKept getSt := fun _ => rfl
theorem SrcKept.ite {α : Type} {c : Prop} [Decidable c] {f g : P α} (hf : SrcKept f) (hg : SrcKept g) : SrcKept (if c then f else g) := by
  split
  · exact hf
  · exact hg
theorem SrcKept.modSt {f : St → St} (h : ∀ s, (f s).src = s.src) : SrcKept (modSt f) := fun s => h s
theorem SrcKept.advance (n : Nat) : SrcKept (advance n) := by
  intro s
  unfold Ron.advance
  by_cases h : n ≤ s.rest.length
  · rw [if_pos h]
  · rw [if_neg h]
theorem SrcKept.nextChar : SrcKept nextChar := by
  intro s
  unfold Ron.nextChar
  cases s.rest <;> rfl
theorem SrcKept.consumeStr (t : Text) : SrcKept (consumeStr t) := by
  intro s
  rw [consumeStr_apply]
  cases h : startsWith s.rest t <;> rfl
theorem SrcKept.mapErr {α : Type} {f : P α} (g : Err → Err) (h : SrcKept f) : SrcKept (mapErr g f) := by
  intro s
  have h1 := h s
  rw [mapErr_apply]
  cases h' : f s <;> rw [h'] at h1 <;> exact h1

theorem SrcKept.blockLoop : ∀ (f level : Nat), SrcKept (blockLoop f level)
  | _, 0 => by unfold Ron.blockLoop; exact .pure _
  | 0, _ + 1 => by unfold Ron.blockLoop; exact .fail _
  | f + 1, level + 1 => by
    unfold Ron.blockLoop
    refine .bind .getSt fun s => .ite (.fail _) (.bind (.advance _) fun _ => .bind (.consumeStr _) fun _ => .ite (SrcKept.blockLoop _ _) (.bind (.consumeStr _) fun _ => .ite (SrcKept.blockLoop _ _)
      (.bind (.mapErr _ .nextChar) fun _ => SrcKept.blockLoop _ _)))

theorem SrcKept.skipComment : SrcKept skipComment := by
  unfold Ron.skipComment
  exact .bind (.consumeStr _) fun _ => .ite (.bind .nextChar fun _ => .ite (.bind .getSt fun _ => .bind (.advance _) fun _ => .bind .getSt fun _ => .ite (.pure _) (.pure _))
    (.ite (.bind .getSt fun _ => .bind (.blockLoop _ _) fun _ => .pure _) (.fail _))) (.pure _)

theorem SrcKept.skipWsLoop : ∀ f : Nat, SrcKept (skipWsLoop f)
  | 0 => .fail _
  | f + 1 => by
    unfold Ron.skipWsLoop
    refine .bind .getSt fun s => .bind (.advance _) fun _ => .bind .skipComment fun c => ?_
    rcases c with _ | _ | _ | _
    · exact .pure _
    · exact SrcKept.skipWsLoop f
    · exact .pure _
    · exact SrcKept.skipWsLoop f

theorem SrcKept.skipWs : SrcKept skipWs := by
  unfold Ron.skipWs
  refine .bind (.modSt fun s => ?_) fun _ => .bind .getSt fun _ => .ite (.pure _) (.bind (.skipWsLoop _) fun _ => .ite (.modSt fun _ => rfl) (.modSt fun _ => rfl))
  unfold St.trackWs
  split
  · split <;> rfl
  · rfl

variable [Env]

/-! ### Steps -/

omit [Env] in
theorem broken_skip {d : St} {e : Err} (h : Broken d.rest e) : ∃ r, ErrsAt skipWs d e r := by
  obtain ⟨l, w, h1, hl, hw⟩ := h
  obtain ⟨s', h2⟩ := skipWs_error h1 hl hw
  have h3 := SrcKept.skipWs d
  rw [h2] at h3
  exact ⟨_, s', h2, rfl, h3⟩

/-- A comment is broken here, or after the comma that follows. -/
def CommaBreaks (s : St) (e : Err) : Prop := Broken s.rest e ∨ ∃ l r, s.rest = l ++ ',' :: r ∧ Layout l ∧ Broken r e

omit [Env] in
theorem comma_breaks {s : St} {e : Err} (h : CommaBreaks s e) : ∃ r, ErrsAt comma s e r := by
  rcases h with h | ⟨l, r, h1, hl, h⟩
  · obtain ⟨r, h⟩ := broken_skip h
    exact ⟨r, ErrsAt.bind h⟩
  · obtain ⟨s1, g1, g2, g3⟩ := skipWs_ok h1 hl (noStart_cons (by decide))
    obtain ⟨r', h⟩ := broken_skip (d := { s1 with prev := s1.rest, rest := r }) h
    refine ⟨r', h.keepB g3.src fun s' h => ?_⟩
    unfold comma
    simp only [bind_apply, g1, consumeChar_true g2, ↓reduceIte, h]

/-- Reading a value fails at the comment, or ends before it. -/
def Breaks {α : Type} (x : Exts) (n : Nat) (seed : P α) (u : Text) (e : Err) : Prop :=
  ∀ d, Pre x n d → d.rest = u → (∃ r, ErrsAt seed d e r) ∨ ∃ v s', seed d = .ok v s' ∧ KeepsD d s' ∧ Broken s'.rest e

/-- The same, where a comma may follow. -/
def BreaksC {α : Type} (x : Exts) (n : Nat) (seed : P α) (u : Text) (e : Err) : Prop :=
  ∀ d, Pre x n d → d.rest = u → (∃ r, ErrsAt seed d e r) ∨ ∃ v s', seed d = .ok v s' ∧ KeepsD d s' ∧ CommaBreaks s' e

omit [Env] in
theorem BreaksC.guardQ {α : Type} {x : Exts} {n : Nat} {seed : P α} {u : Text} {e : Err} (h : BreaksC x n seed u e) : BreaksC x (n + 1) (deGuardQ seed) u e := by
  intro d hp hd
  rcases h _ hp.lower hd with ⟨r, h⟩ | ⟨v, s', h1, h2, h3⟩
  · exact .inl ⟨r, ErrsAt.guardQ hp h⟩
  · obtain ⟨g1, g2⟩ := deGuardQ_ok hp.budget h1 h2
    exact .inr ⟨v, _, g1, g2, h3⟩

omit [Env] in
theorem Breaks.guardR {α : Type} {x : Exts} {n : Nat} {seed : P α} {u : Text} {e : Err} (h : Breaks x n seed u e) : Breaks x (n + 1) (deGuardR seed) u e := by
  intro d hp hd
  rcases h _ hp.lower hd with ⟨r, h⟩ | ⟨v, s', h1, h2, h3⟩
  · exact .inl ⟨r, ErrsAt.guardR hp h⟩
  · obtain ⟨g1, g2⟩ := deGuardR_ok hp.budget h1 h2
    exact .inr ⟨v, _, g1, g2, h3⟩

omit [Env] in
theorem Breaks.map {α β : Type} {x : Exts} {n : Nat} {seed : P α} {u : Text} {e : Err} (h : Breaks x n seed u e) (g : α → β) :
    Breaks x n (seed >>= fun a => pure (g a)) u e := by
  intro d hp hd
  rcases h d hp hd with ⟨r, h⟩ | ⟨v, s', h1, h2, h3⟩
  · exact .inl ⟨r, ErrsAt.bind h⟩
  · exact .inr ⟨g v, s', by simp only [bind_apply, h1, pure_apply], h2, h3⟩

omit [Env] in
theorem BreaksC.map {α β : Type} {x : Exts} {n : Nat} {seed : P α} {u : Text} {e : Err} (h : BreaksC x n seed u e) (g : α → β) :
    BreaksC x n (seed >>= fun a => pure (g a)) u e := by
  intro d hp hd
  rcases h d hp hd with ⟨r, h⟩ | ⟨v, s', h1, h2, h3⟩
  · exact .inl ⟨r, ErrsAt.bind h⟩
  · exact .inr ⟨g v, s', by simp only [bind_apply, h1, pure_apply], h2, h3⟩

omit [Env] in
theorem brokenItem_breaks {α : Type} {x : Exts} {seed : P α} {I : Nat → Text → Text → Prop} {B : Nat → Text → Err → Prop}
    (hI : ∀ n u q, I n u q → RunsAt x n seed u q) (hB : ∀ n u e, B n u e → Breaks x n seed u e) {n : Nat} {u : Text} {e : Err} (h : BrokenItem I B n u e) :
    BreaksC x n seed u e := by
  intro d hp hd
  cases h with
  | inside h =>
    rcases hB _ _ _ h d hp hd with h | ⟨v, s', h1, h2, h3⟩
    · exact .inl h
    · exact .inr ⟨v, s', h1, h2, .inl h3⟩
  | comma h hr =>
    obtain ⟨v, s', l, h1, h2, h3, h4⟩ := (hI _ _ _ h).2 d hp hd
    exact .inr ⟨v, s', h1, h4, .inr ⟨l, _, h2, h3, hr⟩⟩

omit [Env] in
/-- A value and the comma after it. -/
theorem item_breaks {α β : Type} {x : Exts} {n : Nat} {seed : P α} {u : Text} {e : Err} (h : BreaksC x n seed u e) {d : St} (hp : Pre x (n + 1) d) (hd : d.rest = u)
    (k : α → Bool → P β) : ∃ r, ErrsAt (deGuardQ seed >>= fun a => comma >>= k a) d e r := by
  rcases h.guardQ d hp hd with ⟨r, h⟩ | ⟨v, s', h1, h2, h3⟩
  · exact ⟨r, ErrsAt.bind h⟩
  · obtain ⟨r, h4⟩ := comma_breaks h3
    exact ⟨r, (ErrsAt.bind (g := k v) h4).keepB h2.src fun s'' h => by rw [bind_apply, h1]; exact h⟩

omit [Env] in
theorem hasElement_broken {term : Char} {had : Bool} {d : St} {e : Err} (h : Broken d.rest e) : ∃ r, ErrsAt (hasElement term had) d e r := by
  obtain ⟨r, h⟩ := broken_skip h
  exact ⟨r, ErrsAt.bind h⟩

omit [Env] in
theorem nextElement_breaks {α : Type} {x : Exts} {k : Nat} {term : Char} {seed : P α} {d : St} {l u : Text} {e : Err} (hp : Pre x (k + 1) d)
    (hd : d.rest = l ++ u) (hl : Layout l) (hu : Place term u) (h : BreaksC x k seed u e) : ∃ r, ErrsAt (nextElement term true seed) d e r := by
  obtain ⟨s1, h1, h2, h3⟩ := hasElement_more (term := term) hd hl hu.1 (head_start hu.2)
  obtain ⟨r, h4⟩ := item_breaks h (hp.keep h3) h2 fun a b => pure (some (a, b))
  refine ⟨r, h4.keepB h3.src fun s' h => ?_⟩
  unfold nextElement
  rw [bind_apply, h1]
  exact h

omit [Env] in
theorem nextValue_breaks {α : Type} {x : Exts} {k : Nat} {seed : P α} {d : St} {l l' u : Text} {e : Err} (hp : Pre x (k + 1) d)
    (hd : d.rest = l ++ ':' :: (l' ++ u)) (hl : Layout l) (hl' : Layout l') (hn : NoLayoutStart u) (h : BreaksC x k seed u e) :
    ∃ r, ErrsAt (nextValue seed) d e r := by
  obtain ⟨s1, h1, h2, h3⟩ := skipWs_tok hd hl (noLayout_colon _)
  obtain ⟨s2, g1, g2, g3⟩ := skipWs_tok (d := { s1 with prev := s1.rest, rest := l' ++ u }) rfl hl' hn
  have hk : KeepsD d s2 := (h3.trans (KeepsD.step s1 _ _)).trans g3
  obtain ⟨r, h4⟩ := item_breaks h (hp.keep hk) g2 fun a b => pure (a, b)
  refine ⟨r, h4.keepB hk.src fun s' h => ?_⟩
  unfold nextValue
  simp only [bind_apply, h1, consumeChar_true h2, ↓reduceIte, g1]
  simpa only [bind_apply] using h

omit [Env] in
theorem nextValue_colonBroken {α : Type} {seed : P α} {d : St} {l r : Text} {e : Err} (hd : d.rest = l ++ ':' :: r) (hl : Layout l) (h : Broken r e) :
    ∃ r, ErrsAt (nextValue seed) d e r := by
  obtain ⟨s1, h1, h2, h3⟩ := skipWs_tok hd hl (noLayout_colon _)
  obtain ⟨r', h4⟩ := broken_skip (d := { s1 with prev := s1.rest, rest := r }) h
  refine ⟨r', h4.keepB h3.src fun s' h => ?_⟩
  unfold nextValue
  simp only [bind_apply, h1, consumeChar_true h2, ↓reduceIte, h]

omit [Env] in
theorem nextValue_broken {α : Type} {seed : P α} {d : St} {e : Err} (h : Broken d.rest e) : ∃ r, ErrsAt (nextValue seed) d e r := by
  obtain ⟨r, h⟩ := broken_skip h
  exact ⟨r, ErrsAt.bind h⟩

omit [Env] in
/-- Parentheses around one value, up to the comma. -/
theorem brokenParens_steps {x : Exts} {seed : P SVal} {I : Nat → Text → Text → Prop} {B : Nat → Text → Err → Prop}
    (hI : ∀ n u q, I n u q → RunsAt x n seed u q) (hB : ∀ n u e, B n u e → Breaks x n seed u e) {n : Nat} {u : Text} {e : Err} (h : BrokenParens I B n u e) :
    ∃ w, u = '(' :: w ∧ ∀ d, Pre x n d → d.rest = w → (∃ r, ErrsAt skipWs d e r) ∨
      ∃ s1, skipWs d = .ok () s1 ∧ KeepsD d s1 ∧ ((∃ r, ErrsAt (deGuardQ seed) s1 e r) ∨
        ∃ v s2 r, deGuardQ seed s1 = .ok v s2 ∧ KeepsD s1 s2 ∧ ErrsAt comma s2 e r) := by
  cases h with
  | opening h => exact ⟨_, rfl, fun d hp hd => .inl (broken_skip (by rw [hd]; exact h))⟩
  | item ha hu h =>
    refine ⟨_, rfl, fun d hp hd => .inr ?_⟩
    obtain ⟨s1, h1, h2, h3⟩ := skipWs_tok hd ha hu
    refine ⟨s1, h1, h3, ?_⟩
    rcases (brokenItem_breaks hI hB h).guardQ s1 (hp.keep h3) h2 with h | ⟨v, s2, g1, g2, g3⟩
    · exact .inl h
    · obtain ⟨r, g4⟩ := comma_breaks g3
      exact .inr ⟨v, s2, r, g1, g2, g4⟩

theorem brokenSome_errs {x : Exts} (hx : x.unwrapVariantNewtypes = false) {seed : P SVal} {vn : SVal} {I : Nat → Text → Text → Prop}
    {B : Nat → Text → Err → Prop} (hI : ∀ n u q, I n u q → RunsAt x n seed u q) (hB : ∀ n u e, B n u e → Breaks x n seed u e)
    {n : Nat} {l u : Text} {e : Err} (hl : Layout l) (h : BrokenParens I B n u e) {d : St} (hp : Pre x n d) (hd : d.rest = c!"Some" ++ (l ++ u)) :
    ∃ r, ErrsAt (deOption vn seed) d e r := by
  obtain ⟨w, rfl, hw⟩ := brokenParens_steps hI hB h
  have hfol : NoIdentStart (l ++ '(' :: w) := (layout_follow hl (parenOpen_follow _)).xid
  have h0 : consumeIdent c!"None" d = .ok false d :=
    consumeIdent_false (by rw [hd]; exact keyword_other (by simp [reservedNames]) (by simp [reservedNames]) hfol (by decide))
  have h1 := consumeIdent_true hd hfol
  obtain ⟨s1, g1, g2, g3⟩ := skipWs_tok (d := { d with prev := d.rest, rest := l ++ '(' :: w }) rfl hl (noLayout_paren _)
  have g4 := consumeChar_true g2
  have hk0 : KeepsD d { s1 with prev := s1.rest, rest := w } := ((KeepsD.step d _ _).trans g3).trans (KeepsD.step s1 _ _)
  rcases hw _ (hp.keep hk0) rfl with ⟨r, k1⟩ | ⟨s2, k1, k2, k3⟩
  · refine ⟨r, k1.keepB hk0.src fun s' h => ?_⟩
    unfold deOption
    simp only [bind_apply, h0, h1, ↓reduceIte, Bool.false_eq_true, g1, g4, h]
  have hp2 := (hp.keep hk0).keep k2
  have e2 : { s2 with nv := s2.exts.unwrapVariantNewtypes } = s2 := nv_same (by rw [hp2.nv, hp2.exts, hx])
  rcases k3 with ⟨r, j1⟩ | ⟨v, s3, r, j1, j2, j3⟩
  · refine ⟨r, j1.keepB (hk0.trans k2).src fun s' h => ?_⟩
    unfold deOption
    simp only [bind_apply, h0, h1, ↓reduceIte, Bool.false_eq_true, g1, g4, k1, modSt_apply]
    rw [e2, h]
  · have e3 : { s3 with nv := false } = s3 := nv_same (j2.nv hp2.nv)
    refine ⟨r, j3.keepB ((hk0.trans k2).trans j2).src fun s' h => ?_⟩
    unfold deOption
    simp only [bind_apply, h0, h1, ↓reduceIte, Bool.false_eq_true, g1, g4, k1, modSt_apply]
    rw [e2, j1]
    simp only [setNv_apply, e3, h]

theorem brokenNewtype_errs {x : Exts} (hu : x.unwrapNewtypes = false) {seed : P SVal} {name : Text} {I : Nat → Text → Text → Prop}
    {B : Nat → Text → Err → Prop} (hI : ∀ n u q, I n u q → RunsAt x n seed u q) (hB : ∀ n u e, B n u e → Breaks x n seed u e)
    {n : Nat} {p u : Text} {e : Err} (hn : NamePre x name p) (h : BrokenParens I B n u e) {d : St} (hp : Pre x n d) (hd : d.rest = p ++ u) :
    ∃ r, ErrsAt (deNewtype name seed) d e r := by
  obtain ⟨w, rfl, hw⟩ := brokenParens_steps hI hB h
  obtain ⟨b0, s0, h1, ⟨l, hl, h2⟩, h3⟩ := structKey_opt (d := d) (u := w) hn hp.exts hd
  obtain ⟨s1, g1, g2, g3⟩ := skipWs_tok h2 hl (noLayout_paren _)
  have g4 := consumeChar_true g2
  have hk0 : KeepsD d { s1 with prev := s1.rest, rest := w } := (h3.trans g3).trans (KeepsD.step s1 _ _)
  rcases hw _ (hp.keep hk0) rfl with ⟨r, k1⟩ | ⟨s2, k1, k2, ⟨r, j1⟩ | ⟨v, s3, r, j1, j2, j3⟩⟩
  · refine ⟨r, k1.keepB hk0.src fun s' h => ?_⟩
    unfold deNewtype
    simp only [bind_apply, getSt_apply, hp.exts, hu, hp.nv, Bool.or_self, Bool.false_eq_true, ↓reduceIte, h1, g1, g4, h]
  · refine ⟨r, j1.keepB (hk0.trans k2).src fun s' h => ?_⟩
    unfold deNewtype
    simp only [bind_apply, getSt_apply, hp.exts, hu, hp.nv, Bool.or_self, Bool.false_eq_true, ↓reduceIte, h1, g1, g4, k1, h]
  · refine ⟨r, j3.keepB ((hk0.trans k2).trans j2).src fun s' h => ?_⟩
    unfold deNewtype
    simp only [bind_apply, getSt_apply, hp.exts, hu, hp.nv, Bool.or_self, Bool.false_eq_true, ↓reduceIte, h1, g1, g4, k1, j1, h]

/-! ### Values -/

/-- Wherever `seed` reads `u` it fails with `e`. -/
def ErrsW {α : Type} (x : Exts) (n : Nat) (seed : P α) (u : Text) (e : Err) : Prop := ∀ d, Pre x n d → d.rest = u → ∃ r, ErrsAt seed d e r

omit [Env] in
theorem ErrsW.breaks {α : Type} {x : Exts} {n : Nat} {seed : P α} {u : Text} {e : Err} (h : ErrsW x n seed u e) : Breaks x n seed u e :=
  fun d hp hd => .inl (h d hp hd)

omit [Env] in
theorem ErrsW.bind {α β : Type} {f : P α} {g : α → P β} {x : Exts} {n : Nat} {u : Text} {e : Err} (h : ErrsW x n f u e) : ErrsW x n (f >>= g) u e := by
  intro d hp hd
  obtain ⟨r, h⟩ := h d hp hd
  exact ⟨r, ErrsAt.bind h⟩

omit [Env] in
theorem ErrsW.guardQ {α : Type} {f : P α} {x : Exts} {n : Nat} {u : Text} {e : Err} (h : ErrsW x n f u e) : ErrsW x (n + 1) (deGuardQ f) u e := by
  intro d hp hd
  obtain ⟨r, h⟩ := h _ hp.lower hd
  exact ⟨r, ErrsAt.guardQ hp h⟩

omit [Env] in
theorem deSeq_errsW {α : Type} {x : Exts} {k : Nat} {visit : P α} {u : Text} {e : Err} (h : ErrsW x k visit u e) : ErrsW x (k + 1) (deSeq visit) ('[' :: u) e := by
  intro d hp hd
  let d1 : St := { d with nv := false, prev := d.rest, rest := u }
  have hp1 : Pre x (k + 1) d1 := ⟨rfl, hp.exts, hp.budget⟩
  obtain ⟨r, h1⟩ := h.guardQ d1 hp1 rfl
  have e0 : consumeChar '[' { d with nv := false } = .ok true d1 := consumeChar_true hd
  refine ⟨r, h1.keepB rfl fun s' h => ?_⟩
  unfold deSeq
  simp only [bind_apply, setNv_apply, e0, ↓reduceIte, h]

omit [Env] in
theorem deMap_errsW {α : Type} {x : Exts} {k : Nat} {visit : P α} {u : Text} {e : Err} (h : ErrsW x k visit u e) : ErrsW x (k + 1) (deMap visit) ('{' :: u) e := by
  intro d hp hd
  let d1 : St := { d with nv := false, prev := d.rest, rest := u }
  have hp1 : Pre x (k + 1) d1 := ⟨rfl, hp.exts, hp.budget⟩
  obtain ⟨r, h1⟩ := h.guardQ d1 hp1 rfl
  have e0 : consumeChar '{' { d with nv := false } = .ok true d1 := consumeChar_true hd
  refine ⟨r, h1.keepB rfl fun s' h => ?_⟩
  unfold deMap
  simp only [bind_apply, setNv_apply, e0, ↓reduceIte, h]

omit [Env] in
/-- A tuple: its items fail, or they are read and the comment comes before the closing bracket. -/
theorem deTuple_errsW {α : Type} {x : Exts} {k : Nat} {visit : P α} {u : Text} {e : Err} (h : Breaks x k visit u e) : ErrsW x (k + 1) (deTuple visit) ('(' :: u) e := by
  intro d hp hd
  let d1 : St := { d with nv := false, prev := d.rest, rest := u }
  have hp1 : Pre x (k + 1) d1 := ⟨rfl, hp.exts, hp.budget⟩
  have e0 : consumeChar '(' d = .ok true { d with prev := d.rest, rest := u } := consumeChar_true hd
  have e1 : ({ d with prev := d.rest, rest := u, nv := false } : St) = d1 := rfl
  rcases h _ hp1.lower rfl with ⟨r, h1⟩ | ⟨v, s', h1, h2, h3⟩
  · refine ⟨r, (ErrsAt.guardQ hp1 h1).keepB rfl fun s' h => ?_⟩
    unfold deTuple
    simp only [bind_apply, getSt_apply, hp.nv, Bool.false_eq_true, ↓reduceIte, setNv_apply, e0]
    rw [e1, h]
  · obtain ⟨g1, g2⟩ := deGuardQ_ok hp1.budget h1 h2
    obtain ⟨r, h4⟩ := broken_skip (d := { s' with limit := d1.limit }) h3
    refine ⟨r, h4.keepB g2.src fun s' h => ?_⟩
    unfold deTuple
    simp only [bind_apply, getSt_apply, hp.nv, Bool.false_eq_true, ↓reduceIte, setNv_apply, e0]
    rw [e1, g1]
    simp only [h]

/-- The errors of broken comments. -/
def CommentErr (e : Err) : Prop := e = .unclosedBlockComment ∨ e = .eof ∨ ∃ c, e = .unexpectedChar c

omit [Env] in
theorem Broken.comment {r : Text} {e : Err} (h : Broken r e) : CommentErr e := by
  obtain ⟨l, w, -, -, ⟨t, -, -, h⟩ | ⟨-, h⟩ | ⟨c, t, -, -, -, h⟩⟩ := h
  · exact .inl h
  · exact .inr (.inl h)
  · exact .inr (.inr ⟨c, h⟩)

omit [Env] in
theorem CommentErr.named {e : Err} (h : CommentErr e) (name : Option Text) : structErrorName name e = e := by
  rcases h with rfl | rfl | ⟨c, rfl⟩ <;> rfl

theorem brokenTy_comment {D : Nat → Ty} {x : Exts} : ∀ (f : Nat) (T : Ty) (n : Nat) (u : Text) (e : Err), BrokenTy D x f T n u e → CommentErr e
  | 0, _, _, _, _, h => h.elim
  | f + 1, T, n, u, e, h => by
    have hB : ∀ T n u e, BrokenTy D x f T n u e → CommentErr e := brokenTy_comment f
    have hItem : ∀ {T n u e}, BrokenItem (ItemAt D x f T) (BrokenTy D x f T) n u e → CommentErr e := fun h => by
      cases h with
      | inside h => exact hB _ _ _ _ h
      | comma _ h => exact h.comment
    have hPar : ∀ {T n u e}, BrokenParens (ItemAt D x f T) (BrokenTy D x f T) n u e → CommentErr e := fun h => by
      cases h with
      | opening h => exact h.comment
      | item _ _ h => exact hItem h
    have hTup : ∀ {Ts n u e}, BrokenTuple (TyLang D x f) (ItemAt D x f) (BrokenTy D x f) Ts n u e → CommentErr e := fun h => by
      cases h with
      | opening h => exact h.comment
      | item _ _ _ h => exact hItem h
    have hFld : ∀ {deny fields n u e}, BrokenFields x.implicitSome (TyLang D x f) (ItemAt D x f) (BrokenTy D x f) deny fields n u e → CommentErr e := fun h => by
      cases h with
      | opening h => exact h.comment
      | key _ _ _ _ _ _ _ h => exact h.comment
      | ignoredKey _ _ _ _ _ _ _ h => exact h.comment
      | colon _ _ _ _ _ _ _ h => exact h.comment
      | value _ _ _ _ _ _ _ _ _ h => exact hItem h
    replace h : BrokenLevel x (WholeAt D x (f + 1)) (TyLang D x f) (ItemAt D x f) (BrokenTy D x f) D T n u e := h
    cases h with
    | after _ h => exact h.comment
    | seqOpening h => exact h.comment
    | seqItem _ _ _ h => exact hItem h
    | byteOpening h => exact h.comment
    | byteItem _ _ _ h => exact hItem h
    | tuple h => exact hTup h
    | tupleStruct _ h => exact hTup h
    | mapOpening h => exact h.comment
    | mapKey _ _ _ h => exact hB _ _ _ _ h
    | mapColon _ _ _ _ h => exact h.comment
    | mapValue _ _ _ _ _ _ h => exact hItem h
    | someWord _ h => exact h.comment
    | some _ h => exact hPar h
    | implicit _ _ _ h => exact hB _ _ _ _ h
    | newtype _ _ h => exact hPar h
    | newtypeName _ _ _ h => exact h.comment
    | structName _ _ _ h => exact h.comment
    | struct _ h => exact hFld h
    | variant _ _ _ _ h => exact h.comment
    | data _ _ _ _ h =>
      cases h with
      | newtype h => exact hPar h
      | tuple h => exact hTup h
      | struct h => exact hFld h
    | unwrapped _ h => exact hB _ _ _ _ h
    | ref h => exact hB _ _ _ _ h

omit [Env] in
theorem brokenTuple_open {L : Ty → Nat → Text → SVal → Prop} {I : Ty → Nat → Text → Text → Prop} {B : Ty → Nat → Text → Err → Prop}
    {Ts : List Ty} {n : Nat} {u : Text} {e : Err} (h : BrokenTuple L I B Ts n u e) : ∃ w, u = '(' :: w := by
  cases h <;> exact ⟨_, rfl⟩

omit [Env] in
theorem brokenTuple_errs {x : Exts} {rec : Ty → P SVal} {L : Ty → Nat → Text → SVal → Prop} {I : Ty → Nat → Text → Text → Prop}
    {B : Ty → Nat → Text → Err → Prop} {called : Text} (hL : ∀ T n t v, L T n t v → Reads x n (rec T) t v)
    (hI : ∀ T n u q, I T n u q → RunsAt x n (rec T) u q) (hB : ∀ T n u e, B T n u e → Breaks x n (rec T) u e)
    {Ts : List Ty} {n : Nat} {u : Text} {e : Err} (h : BrokenTuple L I B Ts n u e) : ErrsW x n (deTuple (tupleLoop called (Ts.map rec) 0 true)) u e := by
  cases h with
  | opening h =>
    refine deTuple_errsW fun d hp hd => ?_
    cases Ts with
    | nil => exact .inr ⟨[], d, rfl, .refl _, by rw [hd]; exact h⟩
    | cons T Ts =>
      obtain ⟨r, h⟩ := hasElement_broken (term := ')') (had := true) (d := d) (by rw [hd]; exact h)
      exact .inl ⟨r, ErrsAt.bind (ErrsAt.bind h)⟩
  | item hb h3 hu h =>
    refine deTuple_errsW fun d hp hd => .inl ?_
    obtain ⟨s1, l, g1, hl, g2, g3, -⟩ := tupleLoop_upto called hb (all3_reads3 hL h3) hp hd hu.1
    obtain ⟨r, h6⟩ := nextElement_breaks (hp.keep g2) g1 hl hu (brokenItem_breaks (hI _) (hB _) h)
    refine ⟨r, ?_⟩
    rw [List.map_append, List.map_cons]
    exact g3 _ _ _ (ErrsAt.bind h6)

theorem brokenFields_visit {D : Nat → Ty} {f : Nat} {x : Exts} (hx : x.unwrapVariantNewtypes = false) {rec : Ty → P SVal} {L : Ty → Nat → Text → SVal → Prop} {I : Ty → Nat → Text → Text → Prop}
    {B : Ty → Nat → Text → Err → Prop} (hL : ∀ T n t v, L T n t v → Reads x n (rec T) t v)
    (hI : ∀ T n u q, I T n u q → RunsAt x n (rec T) u q) (hB : ∀ T n u e, B T n u e → Breaks x n (rec T) u e) {deny : Bool} {fields : List (Text × Ty)}
    {n : Nat} {u : Text} {e : Err} (h : BrokenFields x.implicitSome L I B deny fields n u e) :
    ∃ m w, n = m + 1 ∧ u = '(' :: w ∧ ErrsW x m (visitStruct rec (fieldOf D f) deny fields) w e := by
  cases h with
  | opening h =>
    refine ⟨_, _, rfl, rfl, fun d hp hd => ?_⟩
    obtain ⟨r, h⟩ := hasElement_broken (term := ')') (had := true) (d := d) (by rw [hd]; exact h)
    refine ⟨r, h.keepB rfl fun s' h => ?_⟩
    simp only [visitStruct, structLoop, nextKey, bind_apply, getSt_apply, h]
  | @key n es gs p key kt z e hb h2 hn hk hnk hf hz h =>
    refine ⟨n + 1, _, rfl, rfl, fun d hp hd => ?_⟩
    have h2 := (fieldsText_keys hx hL h2).2
    obtain ⟨s1, l, h3, hl, h4, h5⟩ := visitStruct_uptoK (fieldOf D f) hb h2 hn hp hd (hk.tokStart.noLayout _)
    obtain ⟨s2, a1, a2, a4⟩ := nextKey_key (deny := deny) (hp.keep h4) hk hz hf h3 hl
    obtain ⟨F, hfi⟩ : ∃ F, fields.find? (fun f => f.1 = key) = some F := by
      obtain ⟨F, h1, h2⟩ := List.mem_map.mp hf
      exact Option.isSome_iff_exists.mp (List.find?_isSome.mpr ⟨F, h1, by simpa using h2⟩)
    obtain ⟨r, h⟩ := nextValue_broken (seed := rec F.2) (d := s2) (by rw [a2]; exact h)
    refine ⟨r, h5 _ _ fun f hfu => h.keepB a4.src fun s' h => ?_⟩
    rw [structLoop]
    simp only [bind_apply, a1, gotOf_not _ _ _ hnk, Option.isSome_none, Bool.false_eq_true, ↓reduceIte, hfi, h]
  | @ignoredKey n es gs p key kt z e hb h2 hn hk hf hdeny hz h =>
    subst hdeny
    refine ⟨n + 1, _, rfl, rfl, fun d hp hd => ?_⟩
    have h2 := (fieldsText_keys hx hL h2).2
    obtain ⟨s1, l, h3, hl, h4, h5⟩ := visitStruct_uptoK (fieldOf D f) hb h2 hn hp hd (hk.tokStart.noLayout _)
    obtain ⟨s2, a1, a2, a4⟩ := nextKey_other (hp.keep h4) hk hz hf h3 hl
    obtain ⟨r, h⟩ := nextValue_broken (seed := deIgnored) (d := s2) (by rw [a2]; exact h)
    refine ⟨r, h5 _ _ fun f hfu => h.keepB a4.src fun s' h => ?_⟩
    rw [structLoop]
    simp only [bind_apply, a1, h]
  | @colon n es gs p key kt m z T e hb h2 hn hk hnk hfi hm h =>
    refine ⟨n + 1, _, rfl, rfl, fun d hp hd => ?_⟩
    have h2 := (fieldsText_keys hx hL h2).2
    obtain ⟨s1, l, h3, hl, h4, h5⟩ := visitStruct_uptoK (fieldOf D f) hb h2 hn hp hd (hk.tokStart.noLayout _)
    obtain ⟨s2, b1, a1, a2, a3, a4⟩ := nextKey_ok (term := ')') (hp.keep h4) (by simp) (fieldKey_in (deny := deny) hk (find_names hfi)) h3 hl hm
    obtain ⟨r, h⟩ := nextValue_colonBroken (seed := rec T) a2 a3 h
    refine ⟨r, h5 _ _ fun f hfu => h.keepB a4.src fun s' h => ?_⟩
    rw [structLoop]
    simp only [bind_apply, a1, gotOf_not _ _ _ hnk, Option.isSome_none, Bool.false_eq_true, ↓reduceIte, hfi, h]
  | @value n es gs p key kt m m' u T e hb h2 hn hk hnk hfi hm hm' hu h =>
    refine ⟨n + 1, _, rfl, rfl, fun d hp hd => ?_⟩
    have h2 := (fieldsText_keys hx hL h2).2
    obtain ⟨s1, l, h3, hl, h4, h5⟩ := visitStruct_uptoK (fieldOf D f) hb h2 hn hp hd (hk.tokStart.noLayout _)
    obtain ⟨s2, b1, a1, a2, a3, a4⟩ := nextKey_ok (term := ')') (hp.keep h4) (by simp) (fieldKey_in (deny := deny) hk (find_names hfi)) h3 hl hm
    obtain ⟨r, h⟩ := nextValue_breaks ((hp.keep h4).keep a4) a2 a3 hm' hu (brokenItem_breaks (hI _) (hB _) h)
    refine ⟨r, h5 _ _ fun f hfu => h.keepB a4.src fun s' h => ?_⟩
    rw [structLoop]
    simp only [bind_apply, a1, gotOf_not _ _ _ hnk, Option.isSome_none, Bool.false_eq_true, ↓reduceIte, hfi, h]

omit [Env] in
theorem structAfterName_errsW {α : Type} {x : Exts} {k : Nat} {name : Text} {visit : P α} {w : Text} {e : Err} (he : CommentErr e) (h : ErrsW x k visit w e) :
    ErrsW x (k + 1) (structAfterName name visit) ('(' :: w) e := by
  intro d hp hd
  let d1 : St := { d with nv := false, prev := d.rest, rest := w }
  have hp1 : Pre x (k + 1) d1 := ⟨rfl, hp.exts, hp.budget⟩
  have e0 : consumeChar '(' d = .ok true { d with prev := d.rest, rest := w } := consumeChar_true hd
  have e1 : ({ d with prev := d.rest, rest := w, nv := false } : St) = d1 := rfl
  have en : (if !false && !name.isEmpty then some name else none) = nameOf name := by cases name <;> simp [nameOf]
  obtain ⟨r, h1⟩ := h _ hp1.lower rfl
  have h2 := ErrsAt.mapErr h1 (structErrorName (nameOf name))
  rw [he.named] at h2
  refine ⟨r, (ErrsAt.guardQ hp1 h2).keepB rfl fun s' h => ?_⟩
  unfold structAfterName
  simp only [bind_apply, getSt_apply, hp.nv, Bool.false_eq_true, ↓reduceIte, e0, setNv_apply]
  rw [e1, en, h]

theorem brokenEnum_errs {x : Exts} {k : Nat} {rec : Ty → P SVal} {isOption : Ty → Bool} {name id tok z : Text}
    {variants : List (Text × Variant)} {kd : Variant} {e : Err} (he : CommentErr e) (ht : KeyTok id tok)
    (hf : variants.find? (fun e => e.1 = id) = some (id, kd)) (hz : NameEnds tok z)
    (hdata : ∀ d, Pre x (k + 1) d → d.rest = z → d.lastIdent = some id → ∃ r, ErrsAt (variantData rec isOption name id kd) d e r) :
    ErrsW x (k + 2) (deEnum name (visitEnum rec isOption name variants)) (tok ++ z) e := by
  intro d hp hd
  let d1 : St := { d with nv := false }
  have hp1 : Pre x (k + 2) d1 := ⟨rfl, hp.exts, hp.budget⟩
  have key : ErrsW x (k + 1) (visitEnum rec isOption name variants) (tok ++ z) e := fun d2 hp2 hd2 => by
    obtain ⟨s3, a1, a2, a3⟩ := skipWs_tok (d := d2) (l := []) (r := tok ++ z) (by simpa using hd2) .nil (ht.tokStart.noLayout _)
    have hp3 := hp2.keep a3
    obtain ⟨s4, b1, b2, b3⟩ := ht.readsAt (d := { s3 with limit := s3.limit.map (· - 1) }) hz a2
    have b3 := b3.toD
    have b1' : deIdentifier { s3 with limit := s3.limit.map (· - 1) } = .ok id { s4 with lastIdent := some id } := by
      unfold deIdentifier
      simp only [bind_apply, b1, modSt_apply, pure_apply]
    have b4 := deGuardQ_ok (f := do
      let id ← deIdentifier
      match variants.find? (fun e => e.1 = id) with
      | some (_, k) => pure (id, k)
      | none => fail (.noSuchEnumVariant (variants.map Prod.fst) id none)) (a := (id, kd)) (s' := { s4 with lastIdent := some id }) hp3.budget
      (by simp only [bind_apply, b1', hf, pure_apply]) ⟨b3.src, b3.exts, b3.limit, b3.nv⟩
    obtain ⟨r, h⟩ := hdata _ (hp3.keep b4.2) b2 rfl
    refine ⟨r, h.keepB ((a3.trans b4.2).src) fun s' h => ?_⟩
    unfold visitEnum
    rw [bind_apply, a1]
    exact (bind_eq (a := (id, kd)) b4.1).trans h
  obtain ⟨r, h1⟩ := key _ hp1.lower hd
  refine ⟨r, (ErrsAt.guardR hp1 h1).keepB rfl fun s' h => ?_⟩
  unfold deEnum
  simp only [bind_apply, setNv_apply, mapErr_apply]
  rw [show ({ d with nv := false } : St) = d1 from rfl, h]
  rcases he with rfl | rfl | ⟨c, rfl⟩ <;> rfl

omit [Env] in
theorem guardQ_named {α : Type} {seed : P α} {e : Err} (he : CommentErr e) (name : Option Text) {s s' : St} (h : deGuardQ seed s = .err e s') :
    deGuardQ (mapErr (structErrorName name) seed) s = .err e s' := by
  unfold deGuardQ at h ⊢
  split at h
  · exact h
  · rw [mapErr_apply]
    cases h1 : seed { s with limit := s.limit.map (· - 1) } with
    | ok a s1 => rw [h1] at h; cases h
    | err e1 s1 =>
      rw [h1] at h
      injection h with h2 h3
      subst h2; subst h3
      simp only [he.named]

omit [Env] in
theorem guardQ_namedOk {α : Type} {seed : P α} (name : Option Text) {s s' : St} {a : α} (h : deGuardQ seed s = .ok a s') :
    deGuardQ (mapErr (structErrorName name) seed) s = .ok a s' := by
  unfold deGuardQ at h ⊢
  split at h
  · exact h
  · rw [mapErr_apply]
    cases h1 : seed { s with limit := s.limit.map (· - 1) } with
    | ok a s1 => rw [h1] at h; exact h
    | err e1 s1 => rw [h1] at h; cases h

theorem brokenData_errs {D : Nat → Ty} {f : Nat} {x : Exts} (hx : x.unwrapVariantNewtypes = false) {rec : Ty → P SVal} {L : Ty → Nat → Text → SVal → Prop} {I : Ty → Nat → Text → Text → Prop}
    {B : Ty → Nat → Text → Err → Prop} (hL : ∀ T n t v, L T n t v → Reads x n (rec T) t v)
    (hI : ∀ T n u q, I T n u q → RunsAt x n (rec T) u q) (hB : ∀ T n u e, B T n u e → Breaks x n (rec T) u e) {id name : Text} {k : Variant}
    {n : Nat} {l u : Text} {e : Err} (he : CommentErr e) (hl : Layout l) (h : BrokenData x.implicitSome L I B k n u e) {d : St} (hp : Pre x n d)
    (hd : d.rest = l ++ u) (hi : d.lastIdent = some id) : ∃ r, ErrsAt (variantData rec (fieldOf D f) name id k) d e r := by
  cases h with
  | @newtype n T u e h =>
    obtain ⟨w, rfl, hw⟩ := brokenParens_steps (hI T) (hB T) h
    obtain ⟨s1, g1, g2, g3⟩ := skipWs_tok hd hl (noLayout_paren _)
    have g4 := consumeChar_true g2
    have hk0 : KeepsD d { s1 with prev := s1.rest, rest := w } := g3.trans (KeepsD.step s1 _ _)
    rcases hw _ (hp.keep hk0) rfl with ⟨r, k1⟩ | ⟨s2, k1, k2, k3⟩
    · refine ⟨r, k1.keepB hk0.src fun s' h => ?_⟩
      simp only [variantData, newtypeVariant, bind_apply, getSt_apply, ↓reduceIte, g1, g4, h]
    have hp2 := (hp.keep hk0).keep k2
    have e2 : { s2 with nv := s2.exts.unwrapVariantNewtypes } = s2 := nv_same (by rw [hp2.nv, hp2.exts, hx])
    rcases k3 with ⟨r, j1⟩ | ⟨v, s3, r, j1, j2, j3⟩
    · refine ⟨r, j1.keepB (hk0.trans k2).src fun s' h => ?_⟩
      have h' := guardQ_named he (some id) h
      simp only [variantData, newtypeVariant, bind_apply, getSt_apply, ↓reduceIte, g1, g4, k1, modSt_apply, hi]
      rw [e2, h']
    · have e3 : { s3 with nv := false } = s3 := nv_same (j2.nv hp2.nv)
      refine ⟨r, j3.keepB ((hk0.trans k2).trans j2).src fun s' h => ?_⟩
      have j1' := guardQ_namedOk (some id) j1
      simp only [variantData, newtypeVariant, bind_apply, getSt_apply, ↓reduceIte, g1, g4, k1, modSt_apply, hi]
      rw [e2, j1']
      simp only [setNv_apply, e3, h]
  | tuple h =>
    obtain ⟨w, rfl⟩ := brokenTuple_open h
    obtain ⟨s1, a1, a2, a3⟩ := skipWs_tok hd hl (noLayout_paren _)
    obtain ⟨r, h⟩ := brokenTuple_errs (called := c!"tuple variant") hL hI hB h s1 (hp.keep a3) a2
    refine ⟨r, h.keepB a3.src fun s' h => ?_⟩
    simp only [variantData, bind_apply, a1, h]
  | struct h =>
    obtain ⟨m, w, rfl, rfl, hv⟩ := brokenFields_visit (D := D) (f := f) hx hL hI hB h
    obtain ⟨s1, a1, a2, a3⟩ := skipWs_tok hd hl (noLayout_paren _)
    obtain ⟨r, h⟩ := structAfterName_errsW (name := []) he hv s1 (hp.keep a3) a2
    have h := ErrsAt.mapErr h (structErrorName (some id))
    rw [he.named] at h
    refine ⟨r, h.keepB a3.src fun s' h => ?_⟩
    simp only [variantData, bind_apply, getSt_apply, a1, hi, h]

theorem deBytes_errsW {x : Exts} {n : Nat} {u : Text} {e : Err}
    (h : ErrsW x n (deSeq (readSeq ']' (do let (_, v) ← integer (.one .u8); pure (UInt8.ofNat v.toNat) : P UInt8))) ('[' :: u) e) : ErrsW x n deBytes ('[' :: u) e := by
  intro d hp hd
  obtain ⟨r, h⟩ := h d hp hd
  have e0 : checkChar '[' d = .ok true d := by simp [checkChar, hd]
  refine ⟨r, h.keepB rfl fun s' h => ?_⟩
  unfold deBytes
  simp only [bind_apply, e0, ↓reduceIte]
  exact h

/-- A byte is read like a number. -/
theorem breaksC_byte {D : Nat → Ty} {f : Nat} {x : Exts} {n : Nat} {u : Text} {e : Err} (he : CommentErr e) (h : BreaksC x n (deTy D f (.int .u8)) u e) :
    BreaksC x n (do let (_, v) ← integer (.one .u8); pure (UInt8.ofNat v.toNat) : P UInt8) u e := by
  have ha : IntTy.u8.Avail := by rintro (h | h) <;> cases h
  intro d hp hd
  cases f with
  | zero =>
    rcases h d hp hd with ⟨r, s', g, -⟩ | ⟨v, s', g, -⟩
    · simp only [deTy, fail_apply] at g
      cases g
      rcases he with h | h | ⟨c, h⟩ <;> cases h
    · cases g
  | succ f =>
    rcases h d hp hd with ⟨r, s', g, g'⟩ | ⟨v, s', g, g'⟩ <;> simp only [deTy, deInt_avail ha, bind_apply] at g <;> cases hi : integer (.one .u8) d with
    | err e s =>
      rw [hi] at g
      cases g
      try exact .inl ⟨r, s', by simp only [bind_apply, hi], g'⟩
    | ok a s =>
      rw [hi] at g
      cases g
      try exact .inr ⟨UInt8.ofNat a.2.toNat, s', by simp only [bind_apply, hi]; rfl, g'⟩

theorem brokenTy_breaks {D : Nat → Ty} {x : Exts} (hx : x.unwrapVariantNewtypes = false) : ∀ (f : Nat) (T : Ty) (n : Nat) (u : Text) (e : Err),
    BrokenTy D x f T n u e → Breaks x n (deTy D f T) u e
  | 0, _, _, _, _, h => h.elim
  | f + 1, T, n, u, e, h => by
    have hB : ∀ T n u e, BrokenTy D x f T n u e → Breaks x n (deTy D f T) u e := brokenTy_breaks hx f
    have hL : ∀ T n w v, TyLang D x f T n w v → Reads x n (deTy D f T) w v := tyLang_reads hx f
    have hI : ∀ T n u q, ItemAt D x f T n u q → RunsAt x n (deTy D f T) u q := fun T n u q => itemAt_runs hx
    have hE : ∀ {K V : Ty} {n : Nat} {ts : List Text} {es : List (SVal × SVal)},
        All2 (fun t e => ∃ k v, TyLang D x f K n k e.1 ∧ TyLang D x f V n v e.2 ∧ Entry k v t) ts es →
        All2 (ReadsEntry x n (deTy D f K) (deTy D f V)) ts es := fun h => h.imp fun t e ⟨k, v, h1, h2, h3⟩ => ⟨k, v, hL _ _ _ _ h1, hL _ _ _ _ h2, h3⟩
    have he := brokenTy_comment _ _ _ _ _ h
    replace h : BrokenLevel x (WholeAt D x (f + 1)) (TyLang D x f) (ItemAt D x f) (BrokenTy D x f) D T n u e := h
    cases h with
    | after h hr =>
      intro d hp hd
      obtain ⟨v, s', h1, h2, h3⟩ := wholeAt_runs hx h d hp hd
      exact .inr ⟨v, s', h1, h3, by rw [h2]; exact hr⟩
    | seqOpening h =>
      refine (ErrsW.bind (deSeq_errsW fun d hp hd => ?_)).breaks
      obtain ⟨r, h⟩ := hasElement_broken (term := ']') (had := true) (d := d) (by rw [hd]; exact h)
      refine ⟨r, h.keepB rfl fun s' h => ?_⟩
      simp only [readSeq, seqLoop, nextElement, bind_apply, getSt_apply, h]
    | seqItem hb h2 hu h =>
      refine (ErrsW.bind (deSeq_errsW fun d hp hd => ?_)).breaks
      obtain ⟨s1, l, h3, hl, h4, h5⟩ := readSeq_upto (term := ']') (by simp) hb (h2.imp fun t v h => hL _ _ _ _ h) hp hd hu.1
      obtain ⟨r, h6⟩ := nextElement_breaks (hp.keep h4) h3 hl hu (brokenItem_breaks (hI _) (hB _) h)
      exact ⟨r, h5 _ _ fun f => ErrsAt.bind h6⟩
    | byteOpening h =>
      refine (ErrsW.bind (deBytes_errsW (deSeq_errsW fun d hp hd => ?_))).breaks
      obtain ⟨r, h⟩ := hasElement_broken (term := ']') (had := true) (d := d) (by rw [hd]; exact h)
      refine ⟨r, h.keepB rfl fun s' h => ?_⟩
      simp only [readSeq, seqLoop, nextElement, bind_apply, getSt_apply, h]
    | byteItem hb h2 hu h =>
      refine (ErrsW.bind (deBytes_errsW (deSeq_errsW fun d hp hd => ?_))).breaks
      obtain ⟨s1, l, h3, hl, h4, h5⟩ := readSeq_upto (term := ']') (seed := (do let (_, v) ← integer (.one .u8); pure (UInt8.ofNat v.toNat) : P UInt8)) (by simp) hb
        (h2.imp fun t v h => by
          have := (int_tok_reads (x := x) h).bind_pure (fun p : IntTy × Int => UInt8.ofNat p.2.toNat)
          have e : UInt8.ofNat ((v.toNat : Int).toNat) = v := by simp
          simp only [e] at this
          exact this.reads.mono (Nat.zero_le _)) hp hd hu.1
      obtain ⟨r, h6⟩ := nextElement_breaks (hp.keep h4) h3 hl hu (breaksC_byte he (brokenItem_breaks (hI _) (hB _) h))
      exact ⟨r, h5 _ _ fun f => ErrsAt.bind h6⟩
    | tuple h => exact (ErrsW.bind (brokenTuple_errs hL hI hB h)).breaks
    | @tupleStruct _ name p u Ts e hn h =>
      have hc := he
      refine ErrsW.breaks fun d hp hd => ?_
      obtain ⟨w, rfl⟩ := brokenTuple_open h
      have key : ∃ b s', consumeStructName name d = .ok b s' ∧ s'.rest = '(' :: w ∧ KeepsD d s' := by
        rcases hn with ⟨he, rfl⟩ | hn
        · exact ⟨false, d, structName_none (u := w) (hp.exts ▸ he) (by simpa using hd), by simpa using hd, .refl _⟩
        · obtain ⟨s', g1, g2, g3⟩ := structKey_some (r := '(' :: w) hn (parenOpen_follow _) (by simpa using hd)
          exact ⟨true, s', g1, g2, g3⟩
      obtain ⟨b, s1, h1, h2, h3⟩ := key
      obtain ⟨r, g⟩ := brokenTuple_errs (called := c!"tuple struct") hL hI hB h s1 (hp.keep h3) h2
      refine ⟨r, g.keepB h3.src fun s' g1 => ?_⟩
      simp only [deTy, deTupleStruct, bind_apply, getSt_apply, hp.nv, Bool.not_false, ↓reduceIte, h1, mapErr_apply, g1]
      rcases hc with rfl | rfl | ⟨c, rfl⟩ <;> simp
    | mapOpening h =>
      refine (ErrsW.bind (deMap_errsW fun d hp hd => ?_)).breaks
      obtain ⟨r, h⟩ := hasElement_broken (term := '}') (had := true) (d := d) (by rw [hd]; exact h)
      refine ⟨r, h.keepB rfl fun s' h => ?_⟩
      simp only [readMap, mapLoop, nextKey, bind_apply, getSt_apply, h]
    | @mapKey n K V ts es p u e hb h2 hu h =>
      refine (ErrsW.bind (deMap_errsW fun d hp hd => ?_)).breaks
      obtain ⟨s1, l, h3, hl, h4, h5⟩ := readMap_upto (term := '}') (by simp) hb (hE h2) hp hd hu.1
      obtain ⟨s2, a1, a2, a3⟩ := hasElement_more (term := '}') h3 hl hu.1 (head_start hu.2)
      rcases (hB _ _ _ _ h).guardR s2 ((hp.keep h4).keep a3) a2 with ⟨r, h⟩ | ⟨v, s', b1, b2, b3⟩
      · refine ⟨r, h5 _ _ fun f _ => ErrsAt.bind (h.keepB a3.src fun s' h => ?_)⟩
        simp only [nextKey, bind_apply, a1, ↓reduceIte, h]
      · obtain ⟨r, h⟩ := nextValue_broken (seed := deTy D f V) b3
        refine ⟨r, h5 _ _ fun f _ => h.keepB (a3.trans b2).src fun s' h => ?_⟩
        rw [mapLoop]
        simp only [nextKey, bind_apply, a1, ↓reduceIte, b1, pure_apply, h]
    | @mapColon n K V ts es p u r e hb h2 hu hi h =>
      refine (ErrsW.bind (deMap_errsW fun d hp hd => ?_)).breaks
      obtain ⟨s1, l, h3, hl, h4, h5⟩ := readMap_upto (term := '}') (by simp) hb (hE h2) hp hd hu.1
      obtain ⟨v, s2, l', g1, g2, g3, g4⟩ := nextKey_runs (hp.keep h4) h3 hl hu (hI _ _ _ _ hi)
      obtain ⟨r, h⟩ := nextValue_colonBroken (seed := deTy D f V) g2 g3 h
      refine ⟨r, h5 _ _ fun f _ => h.keepB g4.src fun s' h => ?_⟩
      rw [mapLoop]
      simp only [bind_apply, g1, h]
    | @mapValue n K V ts es p k l0 l' u vk e hb h2 hk hl0 hl' hu h =>
      refine (ErrsW.bind (deMap_errsW fun d hp hd => ?_)).breaks
      have hpl := place_tok (r := l0 ++ ':' :: (l' ++ u)) (hL _ _ _ _ hk).1 (c := '}') (by simp)
      obtain ⟨s1, l, h3, hl, h4, h5⟩ := readMap_upto (term := '}') (by simp) hb (hE h2) hp hd hpl.1
      obtain ⟨s2, b1, a1, a2, a3, a4⟩ := nextKey_ok (term := '}') (hp.keep h4) (by simp) (hL _ _ _ _ hk) h3 hl hl0
      obtain ⟨r, h⟩ := nextValue_breaks ((hp.keep h4).keep a4) a2 a3 hl' hu (brokenItem_breaks (hI _) (hB _) h)
      refine ⟨r, h5 _ _ fun f _ => h.keepB a4.src fun s' h => ?_⟩
      rw [mapLoop]
      simp only [bind_apply, a1, h]
    | @someWord n T r e hfol h =>
      refine ErrsW.breaks fun d hp hd => ?_
      have e1 : consumeIdent c!"None" d = .ok false d :=
        consumeIdent_false (by rw [hd]; exact keyword_other (by simp [reservedNames]) (by simp [reservedNames]) hfol (by decide))
      have e2 := consumeIdent_true hd hfol
      obtain ⟨r', h⟩ := broken_skip (d := { d with prev := d.rest, rest := r }) h
      refine ⟨r', h.keepB rfl fun s' h => ?_⟩
      simp only [deTy, deOption, bind_apply, e1, e2, h, Bool.false_eq_true, ↓reduceIte]
    | @some n T l u e hl h =>
      refine ErrsW.breaks fun d hp hd => ?_
      refine brokenSome_errs hx (I := ItemAt D x f T) (B := BrokenTy D x f T) (fun n u q h => ?_) (fun n u e h => ?_) hl h hp hd
      · refine ⟨(hI _ _ _ _ h).1, fun d hp hd => ?_⟩
        obtain ⟨v, s', l', h1, h2⟩ := (hI _ _ _ _ h).2 d hp hd
        exact ⟨.some v, s', l', by simp only [bind_apply, h1, pure_apply], h2⟩
      · exact (hB _ _ _ _ h).map SVal.some
    | @implicit _ T p u e hi hb hu h =>
      intro d hp hd
      obtain ⟨s1, a1, a2, a3⟩ := option_bareAt hi hb hu hp.exts hd
      rcases ((hB _ _ _ _ h).map SVal.some).guardR s1 (hp.keep a2) a1 with ⟨r, h⟩ | ⟨v, s', b1, b2, b3⟩
      · refine .inl ⟨r, h.keepB a2.src fun s' h => ?_⟩
        simp only [deTy]
        rw [a3]
        exact h
      · refine .inr ⟨v, s', ?_, a2.trans b2, b3⟩
        simp only [deTy]
        rw [a3]
        exact b1
    | newtype hun hn h => exact (ErrsW.bind fun d hp hd => brokenNewtype_errs hun (hI _) (hB _) hn h hp hd).breaks
    | @newtypeName n name tok z T e hun ht hz h =>
      refine (ErrsW.bind fun d hp hd => ?_).breaks
      obtain ⟨s0, h1, h2, h3⟩ := structKey_someAt ht hz hd
      obtain ⟨r, h⟩ := broken_skip (d := s0) (by rw [h2]; exact h)
      refine ⟨r, h.keepB h3.src fun s' h => ?_⟩
      simp only [deNewtype, bind_apply, getSt_apply, hp.exts, hun, hp.nv, Bool.or_self, Bool.false_eq_true, ↓reduceIte, h1, h]
    | @structName n name tok z deny fields e ht hz hr h =>
      refine ErrsW.breaks fun d hp hd => ?_
      have h0 := rangeStruct_noHead (s := d) (by rw [hd]; exact hr)
      obtain ⟨s0, h1, h2, h3⟩ := structKey_someAt ht hz hd
      obtain ⟨r, h⟩ := broken_skip (d := s0) (by rw [h2]; exact h)
      refine ⟨r, h.keepB h3.src fun s' h => ?_⟩
      simp only [deTy, deStruct, bind_apply, h0, getSt_apply, hp.nv, Bool.not_false, ↓reduceIte, h1, h]
    | @struct n name p u deny fields e hn h =>
      refine ErrsW.breaks fun d hp hd => ?_
      obtain ⟨m, w, rfl, rfl, hv⟩ := brokenFields_visit (D := D) (f := f) hx hL hI hB h
      have h0 := rangeKey_none hn hd (fields.map Prod.fst)
      obtain ⟨b0, s0, g1, ⟨l0, g2, g3⟩, g4⟩ := structKey_opt hn hp.exts hd
      obtain ⟨s1, a1, a2, a3⟩ := skipWs_tok g3 g2 (noLayout_paren _)
      obtain ⟨r, h⟩ := structAfterName_errsW (name := name) he hv s1 (hp.keep (g4.trans a3)) a2
      refine ⟨r, h.keepB (g4.trans a3).src fun s' h => ?_⟩
      simp only [deTy, deStruct, bind_apply, h0, getSt_apply, hp.nv, Bool.not_false, ↓reduceIte, g1, a1, h]
    | @variant n name id tok z variants k e ht hf hk hz h =>
      refine ErrsW.breaks (brokenEnum_errs he ht hf hz fun d hp hd hi => ?_)
      obtain ⟨r, h⟩ := broken_skip (d := d) (by rw [hd]; exact h)
      refine ⟨r, h.keepB rfl fun s' h => ?_⟩
      cases k with
      | unit => exact absurd hk (by simp [Variant.HasData])
      | newtype T => simp only [variantData, newtypeVariant, bind_apply, getSt_apply, h]
      | tuple Ts => simp only [variantData, bind_apply, h]
      | struct deny fields => simp only [variantData, bind_apply, getSt_apply, h]
    | data ht hf hz hl h => exact ErrsW.breaks (brokenEnum_errs he ht hf hz fun d hp hd hi => brokenData_errs hx hL hI hB he hl h hp hd hi)
    | @unwrapped n name u T e hun h =>
      refine Breaks.map (fun d hp hd => ?_) _
      have e1 : ({ d with nv := false } : St) = d := nv_same hp.nv
      rcases (hB _ _ _ _ h).guardR d hp hd with ⟨r, h⟩ | ⟨v, s', b1, b2, b3⟩
      · refine .inl ⟨r, h.keepB rfl fun s' h => ?_⟩
        simp only [deNewtype, bind_apply, getSt_apply, hp.exts, hun, Bool.true_or, ↓reduceIte, setNv_apply]
        rw [← hp.exts, e1, h]
      · refine .inr ⟨v, s', ?_, b2, b3⟩
        simp only [deNewtype, bind_apply, getSt_apply, hp.exts, hun, Bool.true_or, ↓reduceIte, setNv_apply]
        rw [← hp.exts, e1, b1]
    | ref h => exact hB _ _ _ _ h

end Ron
