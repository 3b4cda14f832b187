import Verif.Lemmas.Eat
import Verif.Lemmas.Reader
import Verif.Spec.Ron
/-!
What the reader has consumed when it has read a compound value: delimiters, and items with exactly one comma between any two.
-/

set_option linter.unusedSimpArgs false

namespace Ron

variable {α β : Type}

theorem deGuardQ_inv {f : P α} {s s' : St} {a : α} (h : deGuardQ f s = .ok a s') :
    ∃ s2 l, f s.down = .ok a s2 ∧ s' = { s2 with limit := l } := by
  unfold deGuardQ at h
  split at h
  · cases h
  · show ∃ s2 l, f { s with limit := s.limit.map (· - 1) } = .ok a s2 ∧ _
    cases hf : f { s with limit := s.limit.map (· - 1) } with
    | ok b s2 => rw [hf] at h; cases h; exact ⟨s2, _, rfl, rfl⟩
    | err e s2 => rw [hf] at h; cases h

theorem deGuardR_inv {f : P α} {s s' : St} {a : α} (h : deGuardR f s = .ok a s') :
    ∃ s2 l, f s.down = .ok a s2 ∧ s' = { s2 with limit := l } := by
  unfold deGuardR at h
  split at h
  · cases h
  · show ∃ s2 l, f { s with limit := s.limit.map (· - 1) } = .ok a s2 ∧ _
    cases hf : f { s with limit := s.limit.map (· - 1) } with
    | ok b s2 => rw [hf] at h; cases h; exact ⟨s2, _, rfl, rfl⟩
    | err e s2 => rw [hf] at h; cases h

theorem mapErr_inv {f : P α} {g : Err → Err} {s s' : St} {a : α} (h : mapErr g f s = .ok a s') : f s = .ok a s' := by
  unfold mapErr at h
  cases hf : f s with
  | ok b s2 => rw [hf] at h; exact h
  | err e s2 => rw [hf] at h; cases h

/-- `f` has read exactly the text `t` as `a`. -/
def Took (x : Exts) (f : P α) (t : Text) (a : α) : Prop :=
  t ≠ [] ∧ ∃ s1 s2, s1.Inside ∧ s1.nv = false ∧ s1.exts = x ∧ s1.rest = t ++ s2.rest ∧ f s1 = .ok a s2

/-- Where a read ended. -/
structure After (s s' : St) : Prop where
  inside : s'.Inside
  nv : s'.nv = false
  exts : s'.exts = s.exts
  rest : s'.rest <:+ s.rest

theorem After.refl {s : St} (hi : s.Inside) (hn : s.nv = false) : After s s := ⟨hi, hn, rfl, List.suffix_refl _⟩
theorem After.trans {a b c : St} (h : After a b) (g : After b c) : After a c :=
  ⟨g.inside, g.nv, g.exts.trans h.exts, g.rest.trans h.rest⟩
theorem After.ne {s s' : St} (h : After s s') (hn : s'.rest ≠ []) : s.rest ≠ [] := by
  intro e
  have := h.rest
  rw [e, List.suffix_nil] at this
  exact hn this

theorem Safe.after {f : P α} {s s' : St} {a : α} (h : Safe f) (hi : s.Inside) (hn : s.nv = false) (e : f s = .ok a s') : After s s' := by
  have := h.from hi e
  exact ⟨this.inside, this.nv.trans hn, this.exts, this.rest⟩

theorem Fd.after {k : Bool} {f : P α} {s s' : St} {a : α} (h : Fd k f) (hi : s.Inside) (hn : s.nv = false) (e : f s = .ok a s') : After s s' := by
  have h1 := h.eat s hi hn
  have h2 := h.low s hi
  rw [e] at h1 h2
  exact ⟨h1.inside, h1.nv, h2.1.exts, h1.rest⟩

theorem Fd.took {f : P α} {s s' : St} {a : α} (h : Fd true f) (hi : s.Inside) (hn : s.nv = false) (e : f s = .ok a s') :
    ∃ t, s.rest = t ++ s'.rest ∧ Took s.exts f t a := by
  have h1 := h.eat s hi hn
  rw [e] at h1
  obtain ⟨t, ht⟩ := h1.rest
  refine ⟨t, ht.symm, ?_, s, s', hi, hn, rfl, ht.symm, e⟩
  rintro rfl
  have := h1.lt rfl
  rw [← ht] at this
  simp at this

theorem Fd.tookQ {f : P α} {s s' : St} {a : α} (h : Fd true f) (hi : s.Inside) (hn : s.nv = false) (e : deGuardQ f s = .ok a s') :
    (∃ t, s.rest = t ++ s'.rest ∧ Took s.exts f t a) ∧ After s s' := by
  obtain ⟨s2, l, h1, rfl⟩ := deGuardQ_inv e
  have ha := h.after hi.down (show s.down.nv = false from hn) h1
  exact ⟨h.took (s := s.down) (s' := s2) hi.down hn h1, ⟨⟨ha.inside.rest, ha.inside.prev, ha.inside.preWs⟩, ha.nv, ha.exts, ha.rest⟩⟩

theorem Fd.tookR {f : P α} {s s' : St} {a : α} (h : Fd true f) (hi : s.Inside) (hn : s.nv = false) (e : deGuardR f s = .ok a s') :
    (∃ t, s.rest = t ++ s'.rest ∧ Took s.exts f t a) ∧ After s s' := by
  obtain ⟨s2, l, h1, rfl⟩ := deGuardR_inv e
  have ha := h.after hi.down (show s.down.nv = false from hn) h1
  exact ⟨h.took (s := s.down) (s' := s2) hi.down hn h1, ⟨⟨ha.inside.rest, ha.inside.prev, ha.inside.preWs⟩, ha.nv, ha.exts, ha.rest⟩⟩

theorem Layout.head {c : Char} {l : Text} (h : Layout (c :: l)) : c ∈ ronWhitespace ∨ c = '/' := by
  generalize e : c :: l = t at h
  cases h with
  | nil => cases e
  | ws hc _ => cases e; exact .inl hc
  | line _ _ => cases e; exact .inr rfl
  | block _ _ => cases e; exact .inr rfl

/-- No layout stands before a character that begins none. -/
theorem Layout.none_before {c : Char} {l r t : Text} (h : Layout l) (e : c :: r = l ++ t) (hc : c ∉ ronWhitespace ∧ c ≠ '/') : l = [] := by
  cases l with
  | nil => rfl
  | cons d l =>
    simp only [List.cons_append, List.cons.injEq] at e
    rcases h.head with h | h
    · exact absurd (e.1 ▸ h) hc.1
    · exact absurd (e.1 ▸ h) hc.2

/-! ### Items -/

/-- What stands between the delimiters. -/
def Items (R : Text → α → Prop) (as : List α) (w : Text) : Prop :=
  ∃ ts, All2 R ts as ∧ ((ts = [] ∧ Layout w) ∨ ∃ a u t, Layout a ∧ Body ts u ∧ Tail t ∧ w = a ++ (u ++ t))

theorem Items.nil {R : Text → α → Prop} {w : Text} (h : Layout w) : Items R [] w := ⟨[], trivial, .inl ⟨rfl, h⟩⟩

theorem Items.last {R : Text → α → Prop} {a : α} {l t b : Text} (hl : Layout l) (ht : R t a) (hb : Tail b) :
    Items R [a] (l ++ (t ++ b)) := ⟨[t], ⟨ht, trivial⟩, .inr ⟨l, t, b, hl, .one, hb, rfl⟩⟩

theorem Items.cons {R : Text → α → Prop} {a : α} {as : List α} {l t b c w : Text} (hl : Layout l) (ht : R t a) (hb : Layout b)
    (hc : Layout c) (h : Items R as w) : Items R (a :: as) (l ++ (t ++ (b ++ ',' :: (c ++ w)))) := by
  obtain ⟨ts, h1, ⟨rfl, h2⟩ | ⟨a', u, t', h2, h3, h4, rfl⟩⟩ := h
  · cases as with
    | nil => exact .last hl ht (.comma hb (hc.append h2))
    | cons _ _ => exact h1.elim
  · refine ⟨t :: ts, ⟨ht, h1⟩, .inr ⟨l, t ++ (b ++ ',' :: ((c ++ a') ++ u)), t', hl, .cons hb (hc.append h2) h3, h4, ?_⟩⟩
    simp

theorem Items.delim {R : Text → α → Prop} {as : List α} {w : Text} {o c : Char} (h : Items R as w) :
    ∃ ts, All2 R ts as ∧ Delim o c ts (o :: (w ++ [c])) := by
  obtain ⟨ts, h1, ⟨rfl, h2⟩ | ⟨a', u, t', h2, h3, h4, rfl⟩⟩ := h
  · exact ⟨[], h1, .nil h2⟩
  · refine ⟨ts, h1, ?_⟩
    have := Delim.items (o := o) (c := c) h2 h3 h4
    simpa using this

theorem hasElement_inv {term : Char} {had b : Bool} {s s' : St} (h : hasElement term had s = .ok b s') :
    ∃ s1, skipWs s = .ok () s1 ∧ s' = s1 ∧ (b = false → ∃ r, s'.rest = term :: r) ∧ (b = true → had = true) := by
  unfold hasElement at h
  replace h := bind_ok h; obtain ⟨_, s1, h1, h⟩ := h
  replace h := bind_ok h; obtain ⟨c, s2, h2, h⟩ := h
  rw [checkChar_apply] at h2
  obtain ⟨rfl, rfl⟩ : startsWith s1.rest [term] = c ∧ s1 = s2 := by simpa using h2
  have key : startsWith s1.rest [term] = true → ∃ r, s1.rest = term :: r := fun h => by
    obtain ⟨r, hr⟩ := (startsWith_iff _ _).mp h
    exact ⟨r, hr⟩
  rcases ite_inv h with ⟨hh, h⟩ | ⟨hh, h⟩
  · obtain ⟨rfl, rfl⟩ : (!startsWith s1.rest [term]) = b ∧ s1 = s' := by simpa using h
    exact ⟨s1, h1, rfl, fun h => key (by simpa using h), fun _ => hh⟩
  · rcases ite_inv h with ⟨hc, h⟩ | ⟨hc, h⟩
    · obtain ⟨rfl, rfl⟩ : false = b ∧ s1 = s' := by simpa using h
      exact ⟨s1, h1, rfl, fun _ => key hc, by simp⟩
    · cases h

/-- After a comma or none, before something. -/
theorem comma_sound {s s' : St} {b : Bool} (h : comma s = .ok b s') (hne : s'.rest ≠ []) :
    (b = false ∧ ∃ l, s.rest = l ++ s'.rest ∧ Layout l) ∨
    (b = true ∧ ∃ l l', s.rest = l ++ ',' :: (l' ++ s'.rest) ∧ Layout l ∧ Layout l') := by
  obtain ⟨-, ⟨l, r, h1, h2, rfl, rfl, -⟩ | ⟨l, l', h1, h2, h3, rfl, -⟩ | ⟨h1, -⟩⟩ := comma_inv h
  · exact .inl ⟨rfl, l, h1, h2⟩
  · exact .inr ⟨rfl, l, l', h1, h2, h3⟩
  · exact absurd h1 hne

/-- One element of a sequence. -/
theorem nextElement_sound {f : P α} (hf : Fd true f) {term : Char} {had : Bool} {s s' : St} {r : Option (α × Bool)}
    (hi : s.Inside) (hn : s.nv = false) (h : nextElement term had f s = .ok r s') (hne : s'.rest ≠ []) :
    After s s' ∧ ((r = none ∧ ∃ l u, s.rest = l ++ s'.rest ∧ Layout l ∧ s'.rest = term :: u) ∨
    (had = true ∧ ∃ a l t, Layout l ∧ Took s.exts f t a ∧
      ((r = some (a, false) ∧ ∃ b, Layout b ∧ s.rest = l ++ (t ++ (b ++ s'.rest))) ∨
       (r = some (a, true) ∧ ∃ b c, Layout b ∧ Layout c ∧ s.rest = l ++ (t ++ (b ++ ',' :: (c ++ s'.rest))))))) := by
  unfold nextElement at h
  replace h := bind_ok h; obtain ⟨b, s1, h1, h⟩ := h
  obtain ⟨s1', w1, rfl, e1, e2⟩ := hasElement_inv h1
  have a1 := Safe.skipWs.after hi hn w1
  rcases ite_inv h with ⟨hb, h⟩ | ⟨hb, h⟩
  · replace h := bind_ok h; obtain ⟨a, s2, h2, h⟩ := h
    replace h := bind_ok h; obtain ⟨had', s3, h3, h⟩ := h
    cases h
    obtain ⟨⟨t, ht, tk⟩, a2⟩ := hf.tookQ a1.inside a1.nv h2
    have a3 := Safe.comma.after a2.inside a2.nv h3
    obtain ⟨-, l, hl, hl', -⟩ := skipWs_inv_ne w1 (a2.ne (a3.ne hne))
    refine ⟨a1.trans (a2.trans a3), .inr ⟨e2 hb, a, l, t, hl', a1.exts ▸ tk, ?_⟩⟩
    rcases comma_sound h3 hne with ⟨rfl, b', hb', hb''⟩ | ⟨rfl, b', c', hb', hb'', hc⟩
    · exact .inl ⟨rfl, b', hb'', by rw [hl, ht, hb']⟩
    · exact .inr ⟨rfl, b', c', hb'', hc, by rw [hl, ht, hb']⟩
  · cases h
    obtain ⟨u, hu⟩ := e1 (by simpa using hb)
    obtain ⟨-, l, hl, hl', -⟩ := skipWs_inv_ne w1 hne
    exact ⟨a1, .inl ⟨rfl, l, u, hl, hl', hu⟩⟩

theorem seqLoop_ends {f : P α} {term : Char} (n : Nat) : ∀ {had : Bool} {s s' : St} {as : List α},
    seqLoop term f n had s = .ok as s' → ∃ u, s'.rest = term :: u := by
  induction n with
  | zero => intro had s s' as h; cases h
  | succ n ih =>
    intro had s s' as h
    unfold seqLoop at h
    replace h := bind_ok h; obtain ⟨r, s1, h1, h⟩ := h
    cases r with
    | none =>
      cases h
      unfold nextElement at h1
      replace h1 := bind_ok h1; obtain ⟨b, s2, h2, h1⟩ := h1
      obtain ⟨s1', w1, rfl, e1, e2⟩ := hasElement_inv h2
      rcases ite_inv h1 with ⟨hb, h1⟩ | ⟨hb, h1⟩
      · replace h1 := bind_ok h1; obtain ⟨a, s2, -, h1⟩ := h1
        replace h1 := bind_ok h1; obtain ⟨had', s3, -, h1⟩ := h1
        cases h1
      · cases h1
        exact e1 (by simpa using hb)
    | some r =>
      obtain ⟨a, had'⟩ := r
      replace h := bind_ok h; obtain ⟨as', s2, h2, h⟩ := h
      cases h
      exact ih h2

theorem seqLoop_sound {f : P α} (hf : Fd true f) {term : Char} (n : Nat) : ∀ {had : Bool} {s s' : St} {as : List α}, s.Inside → s.nv = false →
    seqLoop term f n had s = .ok as s' →
    ∃ w u, s.rest = w ++ s'.rest ∧ s'.rest = term :: u ∧ After s s' ∧ Items (Took s.exts f) as w ∧ (had = false → as = [] ∧ Layout w) := by
  induction n with
  | zero => intro had s s' as _ _ h; cases h
  | succ n ih =>
    intro had s s' as hi hn h
    obtain ⟨u, hu⟩ := seqLoop_ends _ h
    have hne : s'.rest ≠ [] := by rw [hu]; simp
    unfold seqLoop at h
    replace h := bind_ok h; obtain ⟨r, s1, h1, h⟩ := h
    cases r with
    | none =>
      cases h
      obtain ⟨a1, ⟨-, l, v, hl, hl', hv⟩ | ⟨-, a, l, t, -, -, ⟨h, -⟩ | ⟨h, -⟩⟩⟩ := nextElement_sound hf hi hn h1 hne
      · exact ⟨l, u, hl, hu, a1, .nil hl', fun _ => ⟨rfl, hl'⟩⟩
      · cases h
      · cases h
    | some r =>
      obtain ⟨a, had'⟩ := r
      replace h := bind_ok h; obtain ⟨as', s2, h2, h⟩ := h
      cases h
      have hne1 : s1.rest ≠ [] := by
        intro e
        have hd : s1.Inside ∧ s1.nv = false := by
          unfold nextElement at h1
          replace h1 := bind_ok h1; obtain ⟨b, s2, h3, h1⟩ := h1
          obtain ⟨s1', w1, rfl, e1, e2⟩ := hasElement_inv h3
          have a1 := Safe.skipWs.after hi hn w1
          rcases ite_inv h1 with ⟨hb, h1⟩ | ⟨hb, h1⟩
          · replace h1 := bind_ok h1; obtain ⟨a, s4, h4, h1⟩ := h1
            replace h1 := bind_ok h1; obtain ⟨had', s5, h5, h1⟩ := h1
            cases h1
            obtain ⟨-, a2⟩ := hf.tookQ a1.inside a1.nv h4
            have a3 := Safe.comma.after a2.inside a2.nv h5
            exact ⟨a3.inside, a3.nv⟩
          · cases h1
        obtain ⟨w, u', e1, e2, -⟩ := ih hd.1 hd.2 h2
        rw [e] at e1
        rw [e2] at e1
        simp at e1
      obtain ⟨a1, ⟨h, -⟩ | ⟨hh, a', l, t, hl, tk, hc⟩⟩ := nextElement_sound hf hi hn h1 hne1
      · cases h
      · obtain ⟨w, u', e1, e2, a2, it, ef⟩ := ih a1.inside a1.nv h2
        rw [a1.exts] at it
        rcases hc with ⟨h, b, hb, hr⟩ | ⟨h, b, c, hb, hc, hr⟩
        · cases h
          obtain ⟨rfl, hw⟩ := ef rfl
          refine ⟨l ++ (t ++ (b ++ w)), u', by rw [hr, e1]; simp, e2, a1.trans a2, .last hl tk (.plain (hb.append hw)), by simp [hh]⟩
        · cases h
          refine ⟨l ++ (t ++ (b ++ ',' :: (c ++ w))), u', by rw [hr, e1]; simp, e2, a1.trans a2, .cons hl tk hb hc it, by simp [hh]⟩

theorem readSeq_sound {f : P α} (hf : Fd true f) {term : Char} {s s' : St} {as : List α} (hi : s.Inside) (hn : s.nv = false)
    (h : readSeq term f s = .ok as s') :
    ∃ w u, s.rest = w ++ s'.rest ∧ s'.rest = term :: u ∧ After s s' ∧ Items (Took s.exts f) as w := by
  unfold readSeq at h
  rw [getSt_bind] at h
  obtain ⟨w, u, h1, h2, h3, h4, -⟩ := seqLoop_sound hf _ hi hn h
  exact ⟨w, u, h1, h2, h3, h4⟩

/-- `skip_ws; consume_char(c)` in front of `c`. -/
theorem close_sound {α : Type} {c : Char} (hc : c ∉ ronWhitespace ∧ c ≠ '/') {v : α} {e : Err} {s s' : St} {a : α} {u : Text} (hu : s.rest = c :: u)
    (h : (do skipWs; if ← consumeChar c then pure v else fail e : P α) s = .ok a s') : a = v ∧ s.rest = c :: s'.rest := by
  replace h := bind_ok h; obtain ⟨_, s3, h3, h⟩ := h
  replace h := bind_ok h; obtain ⟨b, s4, h4, h⟩ := h
  rcases consumeChar_inv h4 with ⟨rfl, hr4, he4⟩ | ⟨rfl, -, -⟩
  · replace h := if_tt h
    cases h
    obtain ⟨-, l3, hl3, hl3', -⟩ := skipWs_inv_ne h3 (by rw [hr4]; simp)
    rw [hu] at hl3
    have := hl3'.none_before hl3 hc
    subst this
    exact ⟨rfl, by rw [hu, hl3, hr4]; rfl⟩
  · replace h := if_ff h
    cases h

/-- A sequence in brackets. -/
theorem deSeq_sound {f : P α} (hf : Fd true f) {s s' : St} {as : List α} (hi : s.Inside)
    (h : deSeq (readSeq ']' f) s = .ok as s') :
    ∃ ts w, s.rest = w ++ s'.rest ∧ Delim '[' ']' ts w ∧ All2 (Took s.exts f) ts as := by
  unfold deSeq at h
  rw [bind_apply, setNv_apply] at h
  simp only at h
  replace h := bind_ok h; obtain ⟨b, s1, h1, h⟩ := h
  rcases consumeChar_inv h1 with ⟨rfl, hr, he⟩ | ⟨rfl, -, -⟩
  · replace h := if_tt h
    have a1 := (Safe.consumeChar '[').after (s := { s with nv := false }) ⟨hi.rest, hi.prev, hi.preWs⟩ rfl h1
    replace h := bind_ok h; obtain ⟨as', s2, h2, h⟩ := h
    obtain ⟨s2', l, h2', rfl⟩ := deGuardQ_inv h2
    obtain ⟨w, u, e1, e2, a2, it⟩ := readSeq_sound hf a1.inside.down (show s1.down.nv = false from a1.nv) h2'
    obtain ⟨rfl, hc⟩ := close_sound (s := { s2' with limit := l }) (by decide) e2 h
    obtain ⟨ts, q1, q2⟩ := it.delim (o := '[') (c := ']')
    refine ⟨ts, _, ?_, q2, ?_⟩
    · have : s.rest = '[' :: s1.rest := hr
      have e1 : s1.rest = w ++ s2'.rest := e1
      have hc : s2'.rest = ']' :: s'.rest := hc
      rw [this, e1, hc]; simp
    · have : s1.down.exts = s.exts := a1.exts
      rw [this] at q1; exact q1
  · replace h := if_ff h
    cases h

/-! ### Entries -/

/-- `fk` and `fv` have read exactly the entry `t`. -/
def TookE {κ ν : Type} (x : Exts) (fk : P κ) (fv : P ν) (t : Text) (e : κ × ν) : Prop :=
  ∃ tk tv, Entry tk tv t ∧ Took x fk tk e.1 ∧ Took x fv tv e.2

theorem nextKey_sound {f : P α} (hf : Fd true f) {term : Char} {had : Bool} {s s' : St} {r : Option α}
    (hi : s.Inside) (hn : s.nv = false) (h : nextKey term had f s = .ok r s') :
    After s s' ∧ (s'.rest ≠ [] → ((r = none ∧ ∃ l u, s.rest = l ++ s'.rest ∧ Layout l ∧ s'.rest = term :: u) ∨
    (had = true ∧ ∃ a l t, Layout l ∧ Took s.exts f t a ∧ r = some a ∧ s.rest = l ++ (t ++ s'.rest)))) := by
  unfold nextKey at h
  replace h := bind_ok h; obtain ⟨b, s1, h1, h⟩ := h
  obtain ⟨s1', w1, rfl, e1, e2⟩ := hasElement_inv h1
  have a1 := Safe.skipWs.after hi hn w1
  rcases ite_inv h with ⟨hb, h⟩ | ⟨hb, h⟩
  · replace h := bind_ok h; obtain ⟨a, s2, h2, h⟩ := h
    cases h
    obtain ⟨⟨t, ht, tk⟩, a2⟩ := hf.tookR a1.inside a1.nv h2
    refine ⟨a1.trans a2, fun hne => ?_⟩
    obtain ⟨-, l, hl, hl', -⟩ := skipWs_inv_ne w1 (a2.ne hne)
    exact .inr ⟨e2 hb, a, l, t, hl', a1.exts ▸ tk, rfl, by rw [hl, ht]⟩
  · cases h
    obtain ⟨u, hu⟩ := e1 (by simpa using hb)
    refine ⟨a1, fun hne => ?_⟩
    obtain ⟨-, l, hl, hl', -⟩ := skipWs_inv_ne w1 hne
    exact .inl ⟨rfl, l, u, hl, hl', hu⟩

theorem nextKey_term {f : P α} {term : Char} {had : Bool} {s s' : St} (h : nextKey term had f s = .ok none s') :
    ∃ u, s'.rest = term :: u := by
  unfold nextKey at h
  replace h := bind_ok h; obtain ⟨b, s1, h1, h⟩ := h
  obtain ⟨s1', w1, rfl, e1, e2⟩ := hasElement_inv h1
  rcases ite_inv h with ⟨hb, h⟩ | ⟨hb, h⟩
  · replace h := bind_ok h; obtain ⟨a, s2, h2, h⟩ := h
    cases h
  · cases h
    exact e1 (by simpa using hb)

theorem nextValue_sound {f : P α} (hf : Fd true f) {s s' : St} {a : α} {had : Bool}
    (hi : s.Inside) (hn : s.nv = false) (h : nextValue f s = .ok (a, had) s') :
    After s s' ∧ s.rest ≠ [] ∧ (s'.rest ≠ [] → ∃ l l' t, Layout l ∧ Layout l' ∧ Took s.exts f t a ∧
      ((had = false ∧ ∃ b, Layout b ∧ s.rest = l ++ ':' :: (l' ++ (t ++ (b ++ s'.rest)))) ∨
       (had = true ∧ ∃ b c, Layout b ∧ Layout c ∧ s.rest = l ++ ':' :: (l' ++ (t ++ (b ++ ',' :: (c ++ s'.rest))))))) := by
  unfold nextValue at h
  replace h := bind_ok h; obtain ⟨_, s1, w1, h⟩ := h
  have a1 := Safe.skipWs.after hi hn w1
  replace h := bind_ok h; obtain ⟨b, s2, h2, h⟩ := h
  rcases consumeChar_inv h2 with ⟨rfl, hr, he⟩ | ⟨rfl, -, -⟩
  · replace h := if_tt h
    have a2 := (Safe.consumeChar ':').after a1.inside a1.nv h2
    replace h := bind_ok h; obtain ⟨_, s3, w3, h⟩ := h
    have a3 := Safe.skipWs.after a2.inside a2.nv w3
    replace h := bind_ok h; obtain ⟨v, s4, h4, h⟩ := h
    obtain ⟨⟨t, ht, tk⟩, a4⟩ := hf.tookQ a3.inside a3.nv h4
    replace h := bind_ok h; obtain ⟨hc, s5, h5, h⟩ := h
    have a5 := Safe.comma.after a4.inside a4.nv h5
    cases h
    have hne1 : s1.rest ≠ [] := by rw [hr]; simp
    obtain ⟨-, l, hl, hl', -⟩ := skipWs_inv_ne w1 hne1
    refine ⟨a1.trans (a2.trans (a3.trans (a4.trans a5))), a1.ne hne1, fun hne => ?_⟩
    obtain ⟨-, l', hl2, hl2', -⟩ := skipWs_inv_ne w3 (a4.ne (a5.ne hne))
    refine ⟨l, l', t, hl', hl2', (a1.trans (a2.trans a3)).exts ▸ tk, ?_⟩
    rcases comma_sound h5 hne with ⟨rfl, b', hb', hb''⟩ | ⟨rfl, b', c', hb', hb'', hc⟩
    · exact .inl ⟨rfl, b', hb'', by rw [hl, hr, hl2, ht, hb']⟩
    · exact .inr ⟨rfl, b', c', hb'', hc, by rw [hl, hr, hl2, ht, hb']⟩
  · replace h := if_ff h
    cases h

theorem mapLoop_sound {κ ν : Type} {fk : P κ} {fv : P ν} (hk : Fd true fk) (hv : Fd true fv) {term : Char} (n : Nat) :
    ∀ {had : Bool} {s s' : St} {as : List (κ × ν)}, s.Inside → s.nv = false →
    mapLoop term fk fv n had s = .ok as s' →
    ∃ w u, s.rest = w ++ s'.rest ∧ s'.rest = term :: u ∧ After s s' ∧ Items (TookE s.exts fk fv) as w ∧ (had = false → as = [] ∧ Layout w) := by
  induction n with
  | zero => intro had s s' as _ _ h; cases h
  | succ n ih =>
    intro had s s' as hi hn h
    unfold mapLoop at h
    replace h := bind_ok h; obtain ⟨r, s1, h1, h⟩ := h
    obtain ⟨a1, hk1⟩ := nextKey_sound hk hi hn h1
    cases r with
    | none =>
      cases h
      obtain ⟨u, hu⟩ := nextKey_term h1
      rcases hk1 (by rw [hu]; simp) with ⟨-, l, v, hl, hl', hv⟩ | ⟨-, a, l, t, -, -, h, -⟩
      · exact ⟨l, u, hl, hu, a1, .nil hl', fun _ => ⟨rfl, hl'⟩⟩
      · cases h
    | some k =>
      replace h := bind_ok h; obtain ⟨⟨v, had'⟩, s2, h2, h⟩ := h
      obtain ⟨a2, hne1, hv2⟩ := nextValue_sound hv a1.inside a1.nv h2
      replace h := bind_ok h; obtain ⟨es, s3, h3, h⟩ := h
      cases h
      obtain ⟨w, u, e1, e2, a3, it, ef⟩ := ih a2.inside a2.nv h3
      have hne2 : s2.rest ≠ [] := by rw [e1, e2]; simp
      rcases hk1 hne1 with ⟨h, -⟩ | ⟨hh, k', l, tk, hl, kk, h, hr⟩
      · cases h
      · cases h
        obtain ⟨m, m', tv, hm, hm', vv, hc⟩ := hv2 hne2
        rw [a1.exts] at vv
        rw [a2.exts, a1.exts] at it
        have hR : TookE s.exts fk fv (tk ++ (m ++ ':' :: (m' ++ tv))) (k, v) := ⟨tk, tv, .mk hm hm', kk, vv⟩
        rcases hc with ⟨rfl, b, hb, hr2⟩ | ⟨rfl, b, c, hb, hc, hr2⟩
        · obtain ⟨rfl, hw⟩ := ef rfl
          refine ⟨_, u, ?_, e2, a1.trans (a2.trans a3), .last hl hR (.plain (hb.append hw)), by simp [hh]⟩
          rw [hr, hr2, e1]; simp
        · refine ⟨_, u, ?_, e2, a1.trans (a2.trans a3), .cons hl hR hb hc it, by simp [hh]⟩
          rw [hr, hr2, e1]; simp

/-- A map in braces. -/
theorem deMap_sound {κ ν : Type} {fk : P κ} {fv : P ν} (hk : Fd true fk) (hv : Fd true fv) {s s' : St} {as : List (κ × ν)} (hi : s.Inside)
    (h : deMap (readMap '}' fk fv) s = .ok as s') :
    ∃ ts w, s.rest = w ++ s'.rest ∧ Delim '{' '}' ts w ∧ All2 (TookE s.exts fk fv) ts as := by
  unfold deMap at h
  rw [bind_apply, setNv_apply] at h
  simp only at h
  replace h := bind_ok h; obtain ⟨b, s1, h1, h⟩ := h
  rcases consumeChar_inv h1 with ⟨rfl, hr, he⟩ | ⟨rfl, -, -⟩
  · replace h := if_tt h
    have a1 := (Safe.consumeChar '{').after (s := { s with nv := false }) ⟨hi.rest, hi.prev, hi.preWs⟩ rfl h1
    replace h := bind_ok h; obtain ⟨as', s2, h2, h⟩ := h
    obtain ⟨s2', l, h2', rfl⟩ := deGuardQ_inv h2
    unfold readMap at h2'
    rw [getSt_bind] at h2'
    obtain ⟨w, u, e1, e2, a2, it, -⟩ := mapLoop_sound hk hv _ a1.inside.down (show s1.down.nv = false from a1.nv) h2'
    obtain ⟨rfl, hc⟩ := close_sound (s := { s2' with limit := l }) (by decide) e2 h
    obtain ⟨ts, q1, q2⟩ := it.delim (o := '{') (c := '}')
    refine ⟨ts, _, ?_, q2, ?_⟩
    · have : s.rest = '{' :: s1.rest := hr
      have e1 : s1.rest = w ++ s2'.rest := e1
      have hc : s2'.rest = '}' :: s'.rest := hc
      rw [this, e1, hc]; simp
    · have : s1.down.exts = s.exts := a1.exts
      rw [this] at q1; exact q1
  · replace h := if_ff h
    cases h

/-! ### Tuples -/

theorem Tail.snoc {t l : Text} (h : Tail t) (hl : Layout l) : Tail (t ++ l) := by
  cases h with
  | plain hb => exact .plain (hb.append hl)
  | comma hb hc => rw [List.append_assoc, List.cons_append]; exact .comma hb (hc.append hl)

theorem Items.snoc {R : Text → α → Prop} {as : List α} {w l : Text} (h : Items R as w) (hl : Layout l) : Items R as (w ++ l) := by
  obtain ⟨ts, h1, ⟨rfl, h2⟩ | ⟨a', u, t', h2, h3, h4, rfl⟩⟩ := h
  · exact ⟨[], h1, .inl ⟨rfl, h2.append hl⟩⟩
  · exact ⟨ts, h1, .inr ⟨a', u, t' ++ l, h2, h3, h4.snoc hl, by simp⟩⟩

/-- The reader of an item with the value it has read. -/
def TookP (x : Exts) (t : Text) (e : P SVal × SVal) : Prop := Took x e.1 t e.2

theorem nextElement_after {f : P α} (hf : Fd true f) {term : Char} {had : Bool} {s s' : St} {r : Option (α × Bool)}
    (hi : s.Inside) (hn : s.nv = false) (h1 : nextElement term had f s = .ok r s') : After s s' := by
  unfold nextElement at h1
  replace h1 := bind_ok h1; obtain ⟨b, s2, h3, h1⟩ := h1
  obtain ⟨s1', w1, rfl, e1, e2⟩ := hasElement_inv h3
  have a1 := Safe.skipWs.after hi hn w1
  rcases ite_inv h1 with ⟨hb, h1⟩ | ⟨hb, h1⟩
  · replace h1 := bind_ok h1; obtain ⟨a, s4, h4, h1⟩ := h1
    replace h1 := bind_ok h1; obtain ⟨had', s5, h5, h1⟩ := h1
    cases h1
    obtain ⟨-, a2⟩ := hf.tookQ a1.inside a1.nv h4
    have a3 := Safe.comma.after a2.inside a2.nv h5
    exact a1.trans (a2.trans a3)
  · cases h1
    exact a1

theorem tupleLoop_sound {e : Text} (fs : List (P SVal)) (hf : ∀ f ∈ fs, Fd true f) :
    ∀ {i : Nat} {had : Bool} {s s' : St} {as : List SVal}, s.Inside → s.nv = false →
    tupleLoop e fs i had s = .ok as s' →
    After s s' ∧ as.length = fs.length ∧ (s'.rest ≠ [] → (had = false → fs = []) ∧ ∃ w, s.rest = w ++ s'.rest ∧ Items (TookP s.exts) (fs.zip as) w ∧ (fs = [] → w = [])) := by
  induction fs with
  | nil =>
    intro i had s s' as hi hn h
    cases h
    exact ⟨.refl hi hn, rfl, fun _ => ⟨fun _ => rfl, [], rfl, .nil .nil, fun _ => rfl⟩⟩
  | cons f fs ih =>
    intro i had s s' as hi hn h
    unfold tupleLoop at h
    replace h := bind_ok h; obtain ⟨r, s1, h1, h⟩ := h
    have a1 := nextElement_after (hf f (by simp)) hi hn h1
    cases r with
    | none => cases h
    | some r =>
      obtain ⟨a, had'⟩ := r
      replace h := bind_ok h; obtain ⟨as', s2, h2, h⟩ := h
      cases h
      obtain ⟨a2, hlen, hh⟩ := ih (fun g hg => hf g (by simp [hg])) a1.inside a1.nv h2
      refine ⟨a1.trans a2, by simp [hlen], fun hne => ?_⟩
      obtain ⟨h3, w, e1, it, hw⟩ := hh hne
      obtain ⟨-, ⟨h, -⟩ | ⟨ht, a', l, t, hl, tk, hc⟩⟩ := nextElement_sound (hf f (by simp)) hi hn h1 (a2.ne hne)
      · cases h
      · rw [a1.exts] at it
        refine ⟨by simp [ht], ?_⟩
        rcases hc with ⟨h, b, hb, hr⟩ | ⟨h, b, c, hb, hc, hr⟩
        · cases h
          have := h3 rfl
          subst this
          have := hw rfl
          subst this
          refine ⟨l ++ (t ++ b), by rw [hr, e1]; simp, ?_, by simp⟩
          rw [List.zip_cons_cons, List.zip_nil_left]
          exact .last (R := TookP s.exts) (a := (f, a)) hl tk (.plain hb)
        · cases h
          refine ⟨l ++ (t ++ (b ++ ',' :: (c ++ w))), by rw [hr, e1]; simp, ?_, by simp⟩
          rw [List.zip_cons_cons]
          exact .cons (R := TookP s.exts) (a := (f, a)) hl tk hb hc it

/-- `skip_ws; consume_char(c)`. -/
theorem close_layout {α : Type} {c : Char} {v : α} {e : Err} {s s' : St} {a : α}
    (h : (do skipWs; if ← consumeChar c then pure v else fail e : P α) s = .ok a s') : a = v ∧ ∃ l, Layout l ∧ s.rest = l ++ c :: s'.rest := by
  replace h := bind_ok h; obtain ⟨_, s3, h3, h⟩ := h
  replace h := bind_ok h; obtain ⟨b, s4, h4, h⟩ := h
  rcases consumeChar_inv h4 with ⟨rfl, hr4, he4⟩ | ⟨rfl, -, -⟩
  · replace h := if_tt h
    cases h
    obtain ⟨-, l3, hl3, hl3', -⟩ := skipWs_inv_ne h3 (by rw [hr4]; simp)
    exact ⟨rfl, l3, hl3', by rw [hl3, hr4]⟩
  · replace h := if_ff h
    cases h

/-- Something in parentheses. -/
theorem deTuple_inv {visit : P α} {s s' : St} {a : α} (hi : s.Inside) (hn : s.nv = false) (h : deTuple visit s = .ok a s') :
    ∃ s1 s2 l, s1.Inside ∧ s1.nv = false ∧ s1.exts = s.exts ∧ s.rest = '(' :: s1.rest ∧ visit s1 = .ok a s2 ∧ Layout l ∧ s2.rest = l ++ ')' :: s'.rest := by
  unfold deTuple at h
  rw [getSt_bind] at h
  simp only [hn, Bool.false_eq_true, ↓reduceIte] at h
  replace h := bind_ok h; obtain ⟨b, s1, h1, h⟩ := h
  rcases consumeChar_inv h1 with ⟨rfl, hr, he⟩ | ⟨rfl, -, -⟩
  · replace h := if_tt h
    have a1 := (Safe.consumeChar '(').after hi hn h1
    rw [bind_apply, setNv_apply] at h
    simp only at h
    replace h := bind_ok h; obtain ⟨as', s2, h2, h⟩ := h
    obtain ⟨s2', l, h2', rfl⟩ := deGuardQ_inv h2
    obtain ⟨rfl, l', hl, hc⟩ := close_layout h
    exact ⟨_, s2', l', St.Inside.down (s := { s1 with nv := false }) ⟨a1.inside.rest, a1.inside.prev, a1.inside.preWs⟩, rfl, a1.exts, hr, h2', hl, hc⟩
  · replace h := if_ff h
    cases h

/-- A tuple in parentheses. -/
theorem deTuple_sound {e : Text} {fs : List (P SVal)} (hf : ∀ f ∈ fs, Fd true f) {s s' : St} {as : List SVal} (hi : s.Inside) (hn : s.nv = false)
    (h : deTuple (tupleLoop e fs 0 true) s = .ok as s') :
    ∃ ts w, s.rest = w ++ s'.rest ∧ Delim '(' ')' ts w ∧ as.length = fs.length ∧ All2 (TookP s.exts) ts (fs.zip as) := by
  obtain ⟨s1, s2, l, i1, n1, x1, r1, h1, hl, r2⟩ := deTuple_inv hi hn h
  obtain ⟨a, hlen, hh⟩ := tupleLoop_sound fs hf i1 n1 h1
  obtain ⟨-, w, e1, it, -⟩ := hh (by rw [r2]; simp)
  obtain ⟨ts, q1, q2⟩ := (it.snoc hl).delim (o := '(') (c := ')')
  rw [x1] at q1
  exact ⟨ts, _, by rw [r1, e1, r2]; simp, q2, hlen, q1⟩

/-! ### Structs -/

section
variable [Env]

/-- The text of a field: `k` is the name of a field of the struct, or `none` for an unknown field whose value is ignored. -/
def TookF (x : Exts) (rec : Ty → P SVal) (deny : Bool) (fields : List (Text × Ty)) (t : Text) (k : Option Text) : Prop :=
  ∃ tk tv, Entry tk tv t ∧ Took x (fieldKey deny (fields.map Prod.fst)) tk k ∧
    (k = none → ∃ u, Took x deIgnored tv u) ∧ ∀ key, k = some key → ∃ T v, (key, T) ∈ fields ∧ Took x (rec T) tv v

theorem structLoop_sound {rec : Ty → P SVal} (hr : ∀ T, Fd true (rec T)) {deny : Bool} {fields : List (Text × Ty)} (n : Nat) :
    ∀ {had : Bool} {g g' : Text → Option SVal} {s s' : St}, s.Inside → s.nv = false →
    structLoop rec deIgnored deny fields n had g s = .ok g' s' →
    ∃ ks w u, s.rest = w ++ s'.rest ∧ s'.rest = ')' :: u ∧ After s s' ∧ Items (TookF s.exts rec deny fields) ks w ∧ (had = false → ks = [] ∧ Layout w) := by
  induction n with
  | zero => intro had g g' s s' _ _ h; cases h
  | succ n ih =>
    intro had g g' s s' hi hn h
    unfold structLoop at h
    replace h := bind_ok h; obtain ⟨r, s1, h1, h⟩ := h
    obtain ⟨a1, hk1⟩ := nextKey_sound fieldKey_Fd hi hn h1
    have more : ∀ {ν : Type} {fv : P ν} (hv : Fd true fv) {k : Option Text} {v : ν} {had' : Bool} {s2 : St} {g2 : Text → Option SVal},
        r = some k → nextValue fv s1 = .ok (v, had') s2 → structLoop rec deIgnored deny fields n had' g2 s2 = .ok g' s' →
        (∀ t, Took s.exts fv t v → (k = none → ∃ u, Took s.exts deIgnored t u) ∧ ∀ key, k = some key → ∃ T v, (key, T) ∈ fields ∧ Took s.exts (rec T) t v) →
        ∃ ks w u, s.rest = w ++ s'.rest ∧ s'.rest = ')' :: u ∧ After s s' ∧ Items (TookF s.exts rec deny fields) ks w ∧ (had = false → ks = [] ∧ Layout w) := by
      intro ν fv hv k v had' s2 g2 hk h2 h3 hR
      obtain ⟨a2, hne1, hv2⟩ := nextValue_sound hv a1.inside a1.nv h2
      obtain ⟨ks, w, u, e1, e2, a3, it, ef⟩ := ih a2.inside a2.nv h3
      have hne2 : s2.rest ≠ [] := by rw [e1, e2]; simp
      subst hk
      rcases hk1 hne1 with ⟨h, -⟩ | ⟨hh, k', l, tk, hl, kk, h, hr⟩
      · cases h
      · cases h
        obtain ⟨m, m', tv, hm, hm', vv, hc⟩ := hv2 hne2
        rw [a1.exts] at vv
        rw [a2.exts, a1.exts] at it
        have hR : TookF s.exts rec deny fields (tk ++ (m ++ ':' :: (m' ++ tv))) k := ⟨tk, tv, .mk hm hm', kk, hR tv vv⟩
        rcases hc with ⟨rfl, b, hb, hr2⟩ | ⟨rfl, b, c, hb, hc, hr2⟩
        · obtain ⟨rfl, hw⟩ := ef rfl
          refine ⟨[k], _, u, ?_, e2, a1.trans (a2.trans a3), .last hl hR (.plain (hb.append hw)), by simp [hh]⟩
          rw [hr, hr2, e1]; simp
        · refine ⟨k :: ks, _, u, ?_, e2, a1.trans (a2.trans a3), .cons hl hR hb hc it, by simp [hh]⟩
          rw [hr, hr2, e1]; simp
    cases r with
    | none =>
      cases h
      obtain ⟨u, hu⟩ := nextKey_term h1
      rcases hk1 (by rw [hu]; simp) with ⟨-, l, v, hl, hl', hv⟩ | ⟨-, a, l, t, -, -, h, -⟩
      · exact ⟨[], l, u, hl, hu, a1, .nil hl', fun _ => ⟨rfl, hl'⟩⟩
      · cases h
    | some k =>
      cases k with
      | none =>
        replace h := bind_ok h; obtain ⟨⟨v, had'⟩, s2, h2, h⟩ := h
        exact more deIgnored_Fd rfl h2 h fun t ht => ⟨fun _ => ⟨_, ht⟩, by simp⟩
      | some key =>
        rcases ite_inv h with ⟨-, h⟩ | ⟨-, h⟩
        · cases h
        · revert h
          cases hfd : fields.find? (fun e => e.1 = key) with
          | none => intro h; cases h
          | some e =>
            obtain ⟨key', T⟩ := e
            intro h
            replace h := bind_ok h; obtain ⟨⟨v, had'⟩, s2, h2, h⟩ := h
            have hm := List.mem_of_find?_eq_some hfd
            have hk := List.find?_some hfd
            simp only [decide_eq_true_eq] at hk
            subst hk
            exact more (hr T) rfl h2 h fun t ht => ⟨by simp, fun key hk => by cases hk; exact ⟨T, v, hm, ht⟩⟩

/-- The fields of a struct in parentheses. -/
theorem structAfterName_sound {rec : Ty → P SVal} (hr : ∀ T, Fd true (rec T)) {isOption : Ty → Bool} {name : Text} {deny : Bool} {fields : List (Text × Ty)}
    {s s' : St} {fs : List (Text × SVal)} (hi : s.Inside) (hn : s.nv = false)
    (h : structAfterName name (visitStruct rec isOption deny fields) s = .ok fs s') :
    ∃ ks ts w, s.rest = w ++ s'.rest ∧ Delim '(' ')' ts w ∧ All2 (TookF s.exts rec deny fields) ts ks := by
  unfold structAfterName at h
  rw [getSt_bind] at h
  simp only [hn, Bool.false_eq_true, ↓reduceIte] at h
  replace h := bind_ok h; obtain ⟨b, s1, h1, h⟩ := h
  rcases consumeChar_inv h1 with ⟨rfl, hr1, he⟩ | ⟨rfl, -, -⟩
  · replace h := if_tt h
    have a1 := (Safe.consumeChar '(').after hi hn h1
    rw [bind_apply, setNv_apply] at h
    simp only at h
    replace h := bind_ok h; obtain ⟨as', s2, h2, h⟩ := h
    obtain ⟨s2', l, h2', rfl⟩ := deGuardQ_inv h2
    replace h2' := mapErr_inv h2'
    unfold visitStruct at h2'
    rw [getSt_bind] at h2'
    replace h2' := bind_ok h2'; obtain ⟨g, s3, h3, h2'⟩ := h2'
    obtain ⟨ks, w, u, e1, e2, a2, it, -⟩ := structLoop_sound hr _
      (St.Inside.down (s := { s1 with nv := false }) ⟨a1.inside.rest, a1.inside.prev, a1.inside.preWs⟩) rfl h3
    have hs : s2' = s3 := by
      revert h2'
      generalize collectFields isOption g fields = c
      cases c <;> intro h <;> cases h
      rfl
    subst hs
    obtain ⟨rfl, l', hl, hc⟩ := close_layout h
    obtain ⟨ts, q1, q2⟩ := (it.snoc hl).delim (o := '(') (c := ')')
    have ex : ({ s1 with nv := false } : St).down.exts = s.exts := a1.exts
    rw [ex] at q1
    refine ⟨ks, ts, _, ?_, q2, q1⟩
    have e1 : s1.rest = w ++ s2'.rest := e1
    have hc : s2'.rest = l' ++ ')' :: s'.rest := hc
    rw [hr1, e1, hc]; simp
  · replace h := if_ff h
    rcases ite_inv h with ⟨-, h⟩ | ⟨-, h⟩ <;> cases h

end

end Ron
