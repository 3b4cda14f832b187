import Verif.Model.De
import Verif.Spec.Ron
import Verif.Lemmas.Attr
/-! Reading delimited lists. -/

set_option linter.unusedSimpArgs false

namespace Ron

/-- `s'` differs from `s` in the cursor, the last identifier and possibly a cleared newtype flag. -/
structure KeepsD (s s' : St) : Prop where
  src : s'.src = s.src
  exts : s'.exts = s.exts
  limit : s'.limit = s.limit
  nv : s.nv = false → s'.nv = false

theorem KeepsD.refl (s : St) : KeepsD s s := ⟨rfl, rfl, rfl, id⟩
theorem KeepsD.trans {a b c : St} (h : KeepsD a b) (g : KeepsD b c) : KeepsD a c :=
  ⟨g.src.trans h.src, g.exts.trans h.exts, g.limit.trans h.limit, fun e => g.nv (h.nv e)⟩
theorem Keeps.toD {s s' : St} (h : Keeps s s') : KeepsD s s' := ⟨h.src, h.exts, h.limit, fun e => h.nv.trans e⟩
theorem KeepsW.toD {s s' : St} (h : KeepsW s s') : KeepsD s s' := h.toKeeps.toD
theorem KeepsD.step (s : St) (p r : Text) : KeepsD s { s with prev := p, rest := r } := ⟨rfl, rfl, rfl, id⟩

/-- At least `n` levels of recursion are left. -/
def Budget (s : St) (n : Nat) : Prop := ∀ m, s.limit = some m → n ≤ m

theorem Budget.keep {s s' : St} {n : Nat} (h : Budget s n) (k : KeepsD s s') : Budget s' n := by
  intro m hm; exact h m (k.limit ▸ hm)
theorem Budget.mono {s : St} {n m : Nat} (h : Budget s n) (hm : m ≤ n) : Budget s m :=
  fun k hk => Nat.le_trans hm (h k hk)

/-- A guarded action with one level more. -/
theorem deGuardQ_ok {α : Type} {f : P α} {s : St} {n : Nat} (hb : Budget s (n + 1)) {a : α} {s' : St}
    (h : f { s with limit := s.limit.map (· - 1) } = .ok a s') (hk : KeepsD { s with limit := s.limit.map (· - 1) } s') :
    deGuardQ f s = .ok a { s' with limit := s.limit } ∧ KeepsD s { s' with limit := s.limit } := by
  refine ⟨?_, ⟨hk.src, hk.exts, rfl, hk.nv⟩⟩
  unfold deGuardQ
  have hl := hk.limit
  simp only at hl
  cases hs : s.limit with
  | none => rw [hs] at h hl; simp only [Option.map_none] at h hl ⊢; simp only [h, hl, Option.map_none]
  | some m =>
    have := hb m hs
    cases m with
    | zero => omega
    | succ m =>
      rw [hs] at h hl
      simp only [h, hl]; rfl

theorem deGuardR_ok {α : Type} {f : P α} {s : St} {n : Nat} (hb : Budget s (n + 1)) {a : α} {s' : St}
    (h : f { s with limit := s.limit.map (· - 1) } = .ok a s') (hk : KeepsD { s with limit := s.limit.map (· - 1) } s') :
    deGuardR f s = .ok a { s' with limit := s.limit } ∧ KeepsD s { s' with limit := s.limit } := by
  refine ⟨?_, ⟨hk.src, hk.exts, rfl, hk.nv⟩⟩
  unfold deGuardR
  have hl := hk.limit
  simp only at hl
  cases hs : s.limit with
  | none => rw [hs] at h hl; simp only [Option.map_none] at h hl ⊢; simp only [h, hl, Option.map_none]
  | some m =>
    have := hb m hs
    cases m with
    | zero => omega
    | succ m =>
      rw [hs] at h hl
      simp only [h, hl]; rfl

theorem Budget.lower {s : St} {n : Nat} (hb : Budget s (n + 1)) : Budget { s with limit := s.limit.map (· - 1) } n := by
  intro m hm
  cases hs : s.limit with
  | none => rw [hs] at hm; cases hm
  | some k =>
    have := hb k hs
    rw [hs] at hm
    simp at hm
    omega

/-- What may follow a value after layout. -/
def Stop (q : Text) : Prop := q = [] ∨ ∃ c q', q = c :: q' ∧ c ∈ [',', ')', ']', '}', ':']

/-- The text begins like a token, not like layout or a delimiter. -/
def TokStart (t : Text) : Prop := ∃ c t', t = c :: t' ∧ c ∉ ronWhitespace ∧ c ∉ ['/', ',', ')', ']', '}', ':', '#']

theorem TokStart.noLayout {t : Text} (h : TokStart t) (r : Text) : NoLayoutStart (t ++ r) := by
  obtain ⟨c, t', rfl, h1, h2⟩ := h
  intro d r' e
  simp only [List.cons_append, List.cons.injEq] at e
  obtain ⟨rfl, -⟩ := e
  exact ⟨h1, fun e => h2 (by simp [e])⟩

theorem TokStart.ne {t : Text} (h : TokStart t) : t ≠ [] := by obtain ⟨c, t', rfl, -⟩ := h; simp

theorem TokStart.append {t : Text} (h : TokStart t) (r : Text) : TokStart (t ++ r) := by
  obtain ⟨c, t', rfl, h1, h2⟩ := h
  exact ⟨c, t' ++ r, rfl, h1, h2⟩

theorem TokStart.notDelim {t : Text} (h : TokStart t) (r : Text) {c : Char} (hc : c ∈ [',', ')', ']', '}', ':']) :
    startsWith (t ++ r) [c] = false := by
  obtain ⟨d, t', rfl, h1, h2⟩ := h
  simp only [List.cons_append, startsWith_cons, startsWith_nil_right, Bool.and_true, beq_eq_false_iff_ne]
  rintro rfl
  exact h2 (by revert hc; simp only [List.mem_cons]; rintro (h | h | h | h | h | h) <;> simp_all)

theorem Stop.noLayout {q : Text} (h : Stop q) : NoLayoutStart q := by
  intro d r' e
  rcases h with rfl | ⟨c, q', rfl, hc⟩
  · cases e
  · simp only [List.cons.injEq] at e
    obtain ⟨rfl, -⟩ := e
    have : ∀ c ∈ [',', ')', ']', '}', ':'], c ∉ ronWhitespace ∧ c ≠ '/' := by decide
    exact this c hc

theorem stop_cons {c : Char} {q : Text} (h : c ∈ [',', ')', ']', '}', ':']) : Stop (c :: q) := .inr ⟨c, q, rfl, h⟩

theorem stop_ne {q : Text} (h : Stop q) {c : Char} (hc : c ∉ [',', ')', ']', '}', ':']) : startsWith q [c] = false := by
  rcases h with rfl | ⟨d, q', rfl, hd⟩
  · simp
  · simp only [startsWith_cons, startsWith_nil_right, Bool.and_true, beq_eq_false_iff_ne]
    rintro rfl; exact hc hd

/-- `f` succeeds with `v` and leaves at most layout before `q`. -/
def RunsTo {α : Type} (f : P α) (d : St) (v : α) (q : Text) : Prop :=
  ∃ s' l, f d = .ok v s' ∧ s'.rest = l ++ q ∧ Layout l ∧ KeepsD d s'

/-- The state in which an element is read. -/
structure Pre (x : Exts) (k : Nat) (d : St) : Prop where
  nv : d.nv = false
  exts : d.exts = x
  budget : Budget d k

theorem Pre.keep {x : Exts} {k : Nat} {d d' : St} (h : Pre x k d) (g : KeepsD d d') : Pre x k d' :=
  ⟨g.nv h.nv, g.exts.trans h.exts, h.budget.keep g⟩
theorem Pre.mono {x : Exts} {k k' : Nat} {d : St} (h : Pre x k d) (hk : k' ≤ k) : Pre x k' d :=
  ⟨h.nv, h.exts, h.budget.mono hk⟩
theorem Pre.lower {x : Exts} {k : Nat} {d : St} (h : Pre x (k + 1) d) :
    Pre x k { d with limit := d.limit.map (· - 1) } := ⟨h.nv, h.exts, h.budget.lower⟩

/-- `seed` reads the text `t` as `v` wherever a value may stand. -/
def Reads {α : Type} (x : Exts) (k : Nat) (seed : P α) (t : Text) (v : α) : Prop :=
  TokStart t ∧ ∀ d l q, Pre x k d → d.rest = t ++ (l ++ q) → Layout l → Stop q → RunsTo seed d v q

theorem Reads.mono {α : Type} {x : Exts} {k k' : Nat} {seed : P α} {t : Text} {v : α} (h : Reads x k seed t v) (hk : k ≤ k') :
    Reads x k' seed t v := ⟨h.1, fun d l q hp => h.2 d l q (hp.mono hk)⟩

/-- A guarded element. -/
theorem Reads.guardQ {α : Type} {x : Exts} {k : Nat} {seed : P α} {t : Text} {v : α} (h : Reads x k seed t v) :
    Reads x (k + 1) (deGuardQ seed) t v := by
  refine ⟨h.1, fun d l q hp hd hl hq => ?_⟩
  obtain ⟨s', l', h1, h2, h3, h4⟩ := h.2 { d with limit := d.limit.map (· - 1) } l q hp.lower hd hl hq
  obtain ⟨g1, g2⟩ := deGuardQ_ok hp.budget h1 h4
  exact ⟨_, l', g1, h2, h3, g2⟩

theorem Reads.guardR {α : Type} {x : Exts} {k : Nat} {seed : P α} {t : Text} {v : α} (h : Reads x k seed t v) :
    Reads x (k + 1) (deGuardR seed) t v := by
  refine ⟨h.1, fun d l q hp hd hl hq => ?_⟩
  obtain ⟨s', l', h1, h2, h3, h4⟩ := h.2 { d with limit := d.limit.map (· - 1) } l q hp.lower hd hl hq
  obtain ⟨g1, g2⟩ := deGuardR_ok hp.budget h1 h4
  exact ⟨_, l', g1, h2, h3, g2⟩

/-- `skip_ws` before a token, as equation. -/
theorem skipWs_tok {d : St} {l r : Text} (hd : d.rest = l ++ r) (hl : Layout l) (hr : NoLayoutStart r) :
    ∃ s', skipWs d = .ok () s' ∧ s'.rest = r ∧ KeepsD d s' := by
  obtain ⟨s', h1, h2, h3⟩ := skipWs_ok hd hl hr
  exact ⟨s', h1, h2, h3.toD⟩

theorem layout_nil : Layout [] := .nil

/-- `has_element` before an element. -/
theorem hasElement_more {term : Char} {d : St} {l r : Text} (hd : d.rest = l ++ r) (hl : Layout l) (hr : NoLayoutStart r)
    (ht : startsWith r [term] = false) : ∃ s', hasElement term true d = .ok true s' ∧ s'.rest = r ∧ KeepsD d s' := by
  obtain ⟨s', h1, h2, h3⟩ := skipWs_tok hd hl hr
  refine ⟨s', ?_, h2, h3⟩
  unfold hasElement
  simp only [bind_apply, h1, checkChar_apply, h2, ht, ↓reduceIte]
  rfl

/-- `has_element` at the end. -/
theorem hasElement_end {term : Char} (had : Bool) {d : St} {l r : Text} (hd : d.rest = l ++ term :: r) (hl : Layout l)
    (ht : term ∉ ronWhitespace ∧ term ≠ '/') : ∃ s', hasElement term had d = .ok false s' ∧ s'.rest = term :: r ∧ KeepsD d s' := by
  obtain ⟨s', h1, h2, h3⟩ := skipWs_tok hd hl (fun c r' e => by cases e; exact ht)
  refine ⟨s', ?_, h2, h3⟩
  unfold hasElement
  simp only [bind_apply, h1, checkChar_apply, h2]
  cases had <;> simp

/-- The comma (or not) between the last item and the end. -/
theorem comma_tail {d : St} {t r : Text} {term : Char} (hd : d.rest = t ++ term :: r) (ht : Tail t)
    (hterm : term ∈ [')', ']', '}']) : ∃ b s', comma d = .ok b s' ∧ s'.rest = term :: r ∧ KeepsD d s' := by
  have hn : NoLayoutStart (term :: r) := (stop_cons (by revert hterm; simp; rintro (rfl | rfl | rfl) <;> simp)).noLayout
  cases ht with
  | plain hb =>
    obtain ⟨s', h1, h2, h3⟩ := comma_none hd hb hn (by revert hterm; simp; rintro (rfl | rfl | rfl) <;> simp)
    exact ⟨false, s', h1, h2, h3.toD⟩
  | comma hb hc =>
    obtain ⟨s', h1, h2, h3⟩ := comma_some (by simpa using hd) hb hc hn
    exact ⟨true, s', h1, h2, h3.toD⟩

/-- After an element whose reader may have left layout: the tail. -/
theorem tail_split {t r : Text} (ht : Tail t) {term : Char} : ∃ l q, Layout l ∧ t ++ term :: r = l ++ q ∧
    ((q = term :: r) ∨ (∃ c, Layout c ∧ q = ',' :: (c ++ term :: r))) := by
  cases ht with
  | plain hb => exact ⟨_, _, hb, rfl, .inl rfl⟩
  | @comma b c hb hc => exact ⟨b, ',' :: (c ++ term :: r), hb, by simp, .inr ⟨c, hc, rfl⟩⟩

theorem body_ne {ts : List Text} {u : Text} (h : Body ts u) : ts ≠ [] := by cases h <;> simp

theorem Body.tokStart {ts : List Text} {u : Text} (h : Body ts u) (ht : ∀ t ∈ ts, TokStart t) : TokStart u := by
  cases h with
  | one => exact ht _ (by simp)
  | cons => exact (ht _ (by simp)).append _

theorem Body.length {ts : List Text} {u : Text} (h : Body ts u) (ht : ∀ t ∈ ts, TokStart t) : ts.length ≤ u.length := by
  induction h with
  | one =>
    have := List.length_pos_iff.mpr (ht _ (List.mem_cons_self)).ne
    simp; omega
  | @cons t b a u ts hb ha hu ih =>
    have := ih (fun t h => ht t (List.mem_cons_of_mem _ h))
    simp; omega

theorem All2.tokStart {α : Type} {x : Exts} {k : Nat} {seed : P α} {ts : List Text} {vs : List α}
    (h : All2 (Reads x k seed) ts vs) : ∀ t ∈ ts, TokStart t := by
  induction ts generalizing vs with
  | nil => simp
  | cons t ts ih =>
    cases vs with
    | nil => exact h.elim
    | cons v vs =>
      intro t' ht'
      simp only [List.mem_cons] at ht'
      rcases ht' with rfl | ht'
      · exact h.1.1
      · exact ih h.2 t' ht'

/-- A list element followed by more. -/
theorem nextElement_more {α : Type} {x : Exts} {k : Nat} {term : Char} {seed : P α} {d : St} {l t b a r : Text} {v : α}
    (hp : Pre x (k + 1) d) (hterm : term ∈ [')', ']', '}']) (ht : Reads x k seed t v)
    (hd : d.rest = l ++ (t ++ (b ++ ',' :: (a ++ r)))) (hl : Layout l) (hb : Layout b) (ha : Layout a) (hr : NoLayoutStart r) :
    ∃ s', nextElement term true seed d = .ok (some (v, true)) s' ∧ s'.rest = r ∧ KeepsD d s' := by
  obtain ⟨s1, h1, h2, h3⟩ := hasElement_more (term := term) hd hl (ht.1.noLayout _)
    (ht.1.notDelim _ (by revert hterm; simp; rintro (rfl | rfl | rfl) <;> simp))
  obtain ⟨s2, l2, g1, g2, g3, g4⟩ := ht.guardQ.2 s1 b (',' :: (a ++ r)) (hp.keep h3) h2 hb (stop_cons (by simp))
  obtain ⟨s3, k1, k2, k3⟩ := comma_some (by simpa using g2) g3 ha hr
  refine ⟨s3, ?_, k2, h3.trans (g4.trans k3.toD)⟩
  unfold nextElement
  simp only [bind_apply, h1, ↓reduceIte, g1, k1, pure_apply]

/-- The last element of a list. -/
theorem nextElement_last {α : Type} {x : Exts} {k : Nat} {term : Char} {seed : P α} {d : St} {l t b r : Text} {v : α}
    (hp : Pre x (k + 1) d) (hterm : term ∈ [')', ']', '}']) (ht : Reads x k seed t v)
    (hd : d.rest = l ++ (t ++ (b ++ term :: r))) (hl : Layout l) (hb : Tail b) :
    ∃ had s', nextElement term true seed d = .ok (some (v, had)) s' ∧ s'.rest = term :: r ∧ KeepsD d s' := by
  have hterm' : term ∈ [',', ')', ']', '}', ':'] := by revert hterm; simp; rintro (rfl | rfl | rfl) <;> simp
  obtain ⟨s1, h1, h2, h3⟩ := hasElement_more (term := term) hd hl (ht.1.noLayout _) (ht.1.notDelim _ hterm')
  obtain ⟨b1, q, hb1, e, hq⟩ := tail_split (r := r) (term := term) hb
  have hstop : Stop q := by
    rcases hq with rfl | ⟨c, -, rfl⟩
    · exact stop_cons hterm'
    · exact stop_cons (by simp)
  obtain ⟨s2, l2, g1, g2, g3, g4⟩ := ht.guardQ.2 s1 b1 q (hp.keep h3) (by rw [h2, e]) hb1 hstop
  have htail : ∃ b2, Tail b2 ∧ s2.rest = b2 ++ term :: r := by
    rcases hq with rfl | ⟨c, hc, rfl⟩
    · exact ⟨l2, .plain g3, g2⟩
    · exact ⟨l2 ++ ',' :: c, .comma g3 hc, by rw [g2]; simp⟩
  obtain ⟨b2, hb2, g2'⟩ := htail
  obtain ⟨had, s3, k1, k2, k3⟩ := comma_tail g2' hb2 hterm
  refine ⟨had, s3, ?_, k2, h3.trans (g4.trans k3)⟩
  unfold nextElement
  simp only [bind_apply, h1, ↓reduceIte, g1, k1, pure_apply]

/-- No further element. -/
theorem nextElement_end {α : Type} {term : Char} {seed : P α} {d : St} {l r : Text} (had : Bool)
    (hterm : term ∈ [')', ']', '}']) (hd : d.rest = l ++ term :: r) (hl : Layout l) :
    ∃ s', nextElement term had seed d = .ok none s' ∧ s'.rest = term :: r ∧ KeepsD d s' := by
  have : ∀ c ∈ [')', ']', '}'], c ∉ ronWhitespace ∧ c ≠ '/' := by decide
  obtain ⟨s1, h1, h2, h3⟩ := hasElement_end had hd hl (this _ hterm)
  refine ⟨s1, ?_, h2, h3⟩
  unfold nextElement
  simp only [bind_apply, h1, ↓reduceIte, pure_apply, Bool.false_eq_true]

/-- The elements of a list. -/
theorem seqLoop_body {α : Type} {x : Exts} {k : Nat} {term : Char} {seed : P α} (hterm : term ∈ [')', ']', '}'])
    {ts : List Text} {u : Text} (hu : Body ts u) : ∀ (f : Nat) (vs : List α) (d : St) (l b r : Text),
    All2 (Reads x k seed) ts vs → Pre x (k + 1) d → d.rest = l ++ (u ++ (b ++ term :: r)) → Layout l → Tail b → ts.length < f →
    ∃ s', seqLoop term seed f true d = .ok vs s' ∧ s'.rest = term :: r ∧ KeepsD d s' := by
  induction hu with
  | @one t =>
    intro f vs d l b r h2 hp hd hl hb hf
    obtain ⟨f, rfl⟩ : ∃ g, f = g + 1 + 1 := ⟨f - 2, by simp at hf; omega⟩
    match vs, h2 with
    | [v], h2 =>
      obtain ⟨had, s1, h1, h3, h4⟩ := nextElement_last hp hterm h2.1 hd hl hb
      obtain ⟨s2, g1, g3, g4⟩ := nextElement_end (seed := seed) had hterm (l := []) h3 layout_nil
      refine ⟨s2, ?_, g3, h4.trans g4⟩
      rw [seqLoop]
      simp only [bind_apply, h1]
      rw [seqLoop]
      simp only [bind_apply, g1, pure_apply]
    | [], h2 => exact h2.elim
    | _ :: _ :: _, h2 => exact h2.2.elim
  | @cons t b' a u ts hb' ha hu ih =>
    intro f vs d l b r h2 hp hd hl hb hf
    obtain ⟨f, rfl⟩ : ∃ g, f = g + 1 := ⟨f - 1, by simp at hf; omega⟩
    match vs, h2 with
    | v :: vs, h2 =>
      have hts := All2.tokStart h2.2
      obtain ⟨s1, h1, h3, h4⟩ := nextElement_more (r := u ++ (b ++ term :: r)) hp hterm h2.1 (by simpa using hd) hl hb' ha
        ((hu.tokStart hts).noLayout _)
      obtain ⟨s2, g1, g3, g4⟩ := ih f vs s1 [] b r h2.2 (hp.keep h4) (by simpa using h3) layout_nil hb
        (by simp at hf; omega)
      refine ⟨s2, ?_, g3, h4.trans g4⟩
      rw [seqLoop]
      simp only [bind_apply, h1, g1, pure_apply]
    | [], h2 => exact h2.elim

/-- A list in delimiters, after the opening one. -/
inductive Inner (c : Char) : List Text → Text → Prop
  | nil {a : Text} : Layout a → Inner c [] (a ++ [c])
  | items {a u t : Text} {ts : List Text} : Layout a → Body ts u → Tail t → Inner c ts (a ++ (u ++ (t ++ [c])))

theorem delim_inner {o c : Char} {ts : List Text} {w : Text} (h : Delim o c ts w) : ∃ w', w = o :: w' ∧ Inner c ts w' := by
  cases h with
  | nil ha => exact ⟨_, rfl, .nil ha⟩
  | items ha hu ht => exact ⟨_, rfl, .items ha hu ht⟩

theorem readSeq_inner {α : Type} {x : Exts} {k : Nat} {term : Char} {seed : P α} (hterm : term ∈ [')', ']', '}'])
    {ts : List Text} {w : Text} (hw : Inner term ts w) {vs : List α} {d : St} {r : Text}
    (h2 : All2 (Reads x k seed) ts vs) (hp : Pre x (if ts = [] then 0 else k + 1) d) (hd : d.rest = w ++ r) :
    ∃ s', readSeq term seed d = .ok vs s' ∧ s'.rest = term :: r ∧ KeepsD d s' := by
  unfold readSeq
  simp only [bind_apply, getSt_apply]
  cases hw with
  | @nil a ha =>
    match vs, h2 with
    | [], h2 =>
      obtain ⟨s2, g1, g3, g4⟩ := nextElement_end (seed := seed) true hterm (l := a) (r := r) (by simpa using hd) ha
      refine ⟨s2, ?_, g3, g4⟩
      rw [seqLoop]
      simp only [bind_apply, g1, pure_apply]
    | _ :: _, h2 => exact h2.elim
  | @items a u t _ ha hu ht =>
    rw [if_neg (body_ne hu)] at hp
    have hlen := hu.length (All2.tokStart h2)
    exact seqLoop_body hterm hu _ vs d a t r h2 hp (by simpa using hd) ha ht (by rw [hd]; simp; omega)

/-! ### Entries -/

theorem nextKey_ok {α : Type} {x : Exts} {k : Nat} {term : Char} {key : P α} {d : St} {l t b r : Text} {v : α}
    (hp : Pre x (k + 1) d) (hterm : term ∈ [')', ']', '}']) (ht : Reads x k key t v)
    (hd : d.rest = l ++ (t ++ (b ++ ':' :: r))) (hl : Layout l) (hb : Layout b) :
    ∃ s' b', nextKey term true key d = .ok (some v) s' ∧ s'.rest = b' ++ ':' :: r ∧ Layout b' ∧ KeepsD d s' := by
  have hterm' : term ∈ [',', ')', ']', '}', ':'] := by revert hterm; simp; rintro (rfl | rfl | rfl) <;> simp
  obtain ⟨s1, h1, h2, h3⟩ := hasElement_more (term := term) hd hl (ht.1.noLayout _) (ht.1.notDelim _ hterm')
  obtain ⟨s2, l2, g1, g2, g3, g4⟩ := ht.guardR.2 s1 b (':' :: r) (hp.keep h3) h2 hb (stop_cons (by simp))
  refine ⟨s2, l2, ?_, g2, g3, h3.trans g4⟩
  unfold nextKey
  simp only [bind_apply, h1, ↓reduceIte, g1, pure_apply]

theorem nextKey_end {α : Type} {term : Char} {key : P α} {d : St} {l r : Text} (had : Bool)
    (hterm : term ∈ [')', ']', '}']) (hd : d.rest = l ++ term :: r) (hl : Layout l) :
    ∃ s', nextKey term had key d = .ok none s' ∧ s'.rest = term :: r ∧ KeepsD d s' := by
  have : ∀ c ∈ [')', ']', '}'], c ∉ ronWhitespace ∧ c ≠ '/' := by decide
  obtain ⟨s1, h1, h2, h3⟩ := hasElement_end had hd hl (this _ hterm)
  refine ⟨s1, ?_, h2, h3⟩
  unfold nextKey
  simp only [bind_apply, h1, ↓reduceIte, pure_apply, Bool.false_eq_true]

theorem noLayout_colon (r : Text) : NoLayoutStart (':' :: r) := (stop_cons (c := ':') (by simp)).noLayout

theorem nextValue_more {α : Type} {x : Exts} {k : Nat} {seed : P α} {d : St} {l l' t b a r : Text} {v : α}
    (hp : Pre x (k + 1) d) (ht : Reads x k seed t v)
    (hd : d.rest = l ++ ':' :: (l' ++ (t ++ (b ++ ',' :: (a ++ r))))) (hl : Layout l) (hl' : Layout l') (hb : Layout b)
    (ha : Layout a) (hr : NoLayoutStart r) :
    ∃ s', nextValue seed d = .ok (v, true) s' ∧ s'.rest = r ∧ KeepsD d s' := by
  obtain ⟨s1, h1, h2, h3⟩ := skipWs_tok hd hl (noLayout_colon _)
  obtain ⟨s2, g1, g2, g3⟩ := skipWs_tok (d := { s1 with prev := s1.rest, rest := l' ++ (t ++ (b ++ ',' :: (a ++ r))) }) rfl hl'
    (ht.1.noLayout _)
  have hk2 : KeepsD d s2 := h3.trans ((KeepsD.step _ _ _).trans g3)
  obtain ⟨s3, l3, k1, k2, k3, k4⟩ := ht.guardQ.2 s2 b (',' :: (a ++ r)) (hp.keep hk2) g2 hb (stop_cons (by simp))
  obtain ⟨s4, m1, m2, m3⟩ := comma_some (by simpa using k2) k3 ha hr
  refine ⟨s4, ?_, m2, hk2.trans (k4.trans m3.toD)⟩
  unfold nextValue
  simp only [bind_apply, h1, consumeChar_true h2, ↓reduceIte, g1, k1, m1, pure_apply]

theorem nextValue_last {α : Type} {x : Exts} {k : Nat} {term : Char} {seed : P α} {d : St} {l l' t b r : Text} {v : α}
    (hp : Pre x (k + 1) d) (hterm : term ∈ [')', ']', '}']) (ht : Reads x k seed t v)
    (hd : d.rest = l ++ ':' :: (l' ++ (t ++ (b ++ term :: r)))) (hl : Layout l) (hl' : Layout l') (hb : Tail b) :
    ∃ had s', nextValue seed d = .ok (v, had) s' ∧ s'.rest = term :: r ∧ KeepsD d s' := by
  have hterm' : term ∈ [',', ')', ']', '}', ':'] := by revert hterm; simp; rintro (rfl | rfl | rfl) <;> simp
  obtain ⟨s1, h1, h2, h3⟩ := skipWs_tok hd hl (noLayout_colon _)
  obtain ⟨s2, g1, g2, g3⟩ := skipWs_tok (d := { s1 with prev := s1.rest, rest := l' ++ (t ++ (b ++ term :: r)) }) rfl hl'
    (ht.1.noLayout _)
  have hk2 : KeepsD d s2 := h3.trans ((KeepsD.step _ _ _).trans g3)
  obtain ⟨b1, q, hb1, e, hq⟩ := tail_split (r := r) (term := term) hb
  have hstop : Stop q := by
    rcases hq with rfl | ⟨c, -, rfl⟩
    · exact stop_cons hterm'
    · exact stop_cons (by simp)
  obtain ⟨s3, l3, k1, k2, k3, k4⟩ := ht.guardQ.2 s2 b1 q (hp.keep hk2) (by rw [g2, e]) hb1 hstop
  have htail : ∃ b2, Tail b2 ∧ s3.rest = b2 ++ term :: r := by
    rcases hq with rfl | ⟨c, hc, rfl⟩
    · exact ⟨l3, .plain k3, k2⟩
    · exact ⟨l3 ++ ',' :: c, .comma k3 hc, by rw [k2]; simp⟩
  obtain ⟨b2, hb2, k2'⟩ := htail
  obtain ⟨had, s4, m1, m2, m3⟩ := comma_tail k2' hb2 hterm
  refine ⟨had, s4, ?_, m2, hk2.trans (k4.trans m3)⟩
  unfold nextValue
  simp only [bind_apply, h1, consumeChar_true h2, ↓reduceIte, g1, k1, m1, pure_apply]

/-- An entry is read as a key and a value. -/
def ReadsEntry {κ ν : Type} (x : Exts) (k : Nat) (key : P κ) (val : P ν) (e : Text) (kv : κ × ν) : Prop :=
  ∃ kt vt, Reads x k key kt kv.1 ∧ Reads x k val vt kv.2 ∧ Entry kt vt e

theorem ReadsEntry.tokStart {κ ν : Type} {x : Exts} {k : Nat} {key : P κ} {val : P ν} {e : Text} {kv : κ × ν}
    (h : ReadsEntry x k key val e kv) : TokStart e := by
  obtain ⟨kt, vt, h1, -, h3⟩ := h
  cases h3 with
  | mk _ _ => exact h1.1.append _

theorem All2.mem_left {α β : Type} {R : α → β → Prop} {as : List α} {bs : List β} (h : All2 R as bs) :
    ∀ a ∈ as, ∃ b ∈ bs, R a b := by
  induction as generalizing bs with
  | nil => simp
  | cons a as ih =>
    cases bs with
    | nil => exact h.elim
    | cons b bs =>
      intro a' ha'
      simp only [List.mem_cons] at ha'
      rcases ha' with rfl | ha'
      · exact ⟨b, by simp, h.1⟩
      · obtain ⟨b', hb', hr⟩ := ih h.2 a' ha'
        exact ⟨b', by simp [hb'], hr⟩

theorem All2.mono {α β : Type} {R S : α → β → Prop} {as : List α} {bs : List β} (h : All2 R as bs)
    (hRS : ∀ a ∈ as, ∀ b ∈ bs, R a b → S a b) : All2 S as bs := by
  induction as generalizing bs with
  | nil => cases bs with
    | nil => trivial
    | cons _ _ => exact h.elim
  | cons a as ih =>
    cases bs with
    | nil => exact h.elim
    | cons b bs =>
      exact ⟨hRS a (by simp) b (by simp) h.1, ih h.2 fun a' ha b' hb => hRS a' (by simp [ha]) b' (by simp [hb])⟩

theorem mapLoop_body {κ ν : Type} {x : Exts} {k : Nat} {term : Char} {key : P κ} {val : P ν} (hterm : term ∈ [')', ']', '}'])
    {ts : List Text} {u : Text} (hu : Body ts u) : ∀ (f : Nat) (vs : List (κ × ν)) (d : St) (l b r : Text),
    All2 (ReadsEntry x k key val) ts vs → Pre x (k + 1) d → d.rest = l ++ (u ++ (b ++ term :: r)) → Layout l → Tail b →
    ts.length < f →
    ∃ s', mapLoop term key val f true d = .ok vs s' ∧ s'.rest = term :: r ∧ KeepsD d s' := by
  induction hu with
  | @one t =>
    intro f vs d l b r h2 hp hd hl hb hf
    obtain ⟨f, rfl⟩ : ∃ g, f = g + 1 + 1 := ⟨f - 2, by simp at hf; omega⟩
    match vs, h2 with
    | [v], h2 =>
      obtain ⟨⟨kt, vt, hk, hv, he⟩, -⟩ := h2
      cases he with
      | @mk l1 l2 hl1 hl2 =>
        obtain ⟨s1, b1, h1, h3, h4, h5⟩ := nextKey_ok (r := l2 ++ (vt ++ (b ++ term :: r))) hp hterm hk (by simpa using hd) hl hl1
        obtain ⟨had, s2, g1, g3, g4⟩ := nextValue_last (hp.keep h5) hterm hv h3 h4 hl2 hb
        obtain ⟨s3, m1, m3, m4⟩ := nextKey_end (key := key) had hterm (l := []) g3 layout_nil
        refine ⟨s3, ?_, m3, h5.trans (g4.trans m4)⟩
        rw [mapLoop]
        simp only [bind_apply, h1, g1]
        rw [mapLoop]
        simp only [bind_apply, m1, pure_apply]
    | [], h2 => exact h2.elim
    | _ :: _ :: _, h2 => exact h2.2.elim
  | @cons t b' a u ts hb' ha hu ih =>
    intro f vs d l b r h2 hp hd hl hb hf
    obtain ⟨f, rfl⟩ : ∃ g, f = g + 1 := ⟨f - 1, by simp at hf; omega⟩
    match vs, h2 with
    | v :: vs, h2 =>
      obtain ⟨⟨kt, vt, hk, hv, he⟩, h2'⟩ := h2
      have hts : ∀ t ∈ ts, TokStart t := fun t ht => by
        obtain ⟨_, _, h⟩ := h2'.mem_left t ht; exact h.tokStart
      cases he with
      | @mk l1 l2 hl1 hl2 =>
        obtain ⟨s1, b1, h1, h3, h4, h5⟩ := nextKey_ok (r := l2 ++ (vt ++ (b' ++ ',' :: (a ++ (u ++ (b ++ term :: r))))))
          hp hterm hk (by simpa using hd) hl hl1
        obtain ⟨s2, g1, g3, g4⟩ := nextValue_more (hp.keep h5) hv h3 h4 hl2 hb' ha ((hu.tokStart hts).noLayout _)
        obtain ⟨s3, m1, m3, m4⟩ := ih f vs s2 [] b r h2' (hp.keep (h5.trans g4)) (by simpa using g3) layout_nil hb
          (by simp at hf; omega)
        refine ⟨s3, ?_, m3, h5.trans (g4.trans m4)⟩
        rw [mapLoop]
        simp only [bind_apply, h1, g1, m1, pure_apply]
    | [], h2 => exact h2.elim

theorem readMap_inner {κ ν : Type} {x : Exts} {k : Nat} {term : Char} {key : P κ} {val : P ν} (hterm : term ∈ [')', ']', '}'])
    {ts : List Text} {w : Text} (hw : Inner term ts w) {vs : List (κ × ν)} {d : St} {r : Text}
    (h2 : All2 (ReadsEntry x k key val) ts vs) (hp : Pre x (if ts = [] then 0 else k + 1) d) (hd : d.rest = w ++ r) :
    ∃ s', readMap term key val d = .ok vs s' ∧ s'.rest = term :: r ∧ KeepsD d s' := by
  unfold readMap
  simp only [bind_apply, getSt_apply]
  cases hw with
  | @nil a ha =>
    match vs, h2 with
    | [], h2 =>
      obtain ⟨s2, g1, g3, g4⟩ := nextKey_end (key := key) true hterm (l := a) (r := r) (by simpa using hd) ha
      refine ⟨s2, ?_, g3, g4⟩
      rw [mapLoop]
      simp only [bind_apply, g1, pure_apply]
    | _ :: _, h2 => exact h2.elim
  | @items a u t _ ha hu ht =>
    rw [if_neg (body_ne hu)] at hp
    have hlen := hu.length (fun t ht => by obtain ⟨_, _, h⟩ := h2.mem_left t ht; exact h.tokStart)
    exact mapLoop_body hterm hu _ vs d a t r h2 hp (by simpa using hd) ha ht (by rw [hd]; simp; omega)

/-! ### Compounds -/

theorem setNv_apply (b : Bool) (s : St) : setNv b s = .ok () { s with nv := b } := rfl

/-- Clearing the newtype flag. -/
theorem KeepsD.clear (s : St) : KeepsD s { s with nv := false } := ⟨rfl, rfl, rfl, fun _ => rfl⟩

theorem deSeq_ok {α : Type} {x : Exts} {k : Nat} {visit : P α} {v : α} {d : St} {w r : Text}
    (hx : d.exts = x) (hb : Budget d (k + 1)) (hd : d.rest = '[' :: (w ++ r))
    (hv : ∀ d : St, Pre x k d → d.rest = w ++ r → ∃ s', visit d = .ok v s' ∧ s'.rest = ']' :: r ∧ KeepsD d s') :
    ∃ s', deSeq visit d = .ok v s' ∧ s'.rest = r ∧ KeepsD d s' ∧ s'.nv = false := by
  let d1 : St := { d with nv := false, prev := d.rest, rest := w ++ r }
  have hk1 : KeepsD d d1 := ⟨rfl, rfl, rfl, fun _ => rfl⟩
  have hp1 : Pre x (k + 1) d1 := ⟨rfl, hx, hb.keep hk1⟩
  obtain ⟨s1, h1, h2, h3⟩ := hv _ hp1.lower rfl
  obtain ⟨g1, g2⟩ := deGuardQ_ok hp1.budget h1 h3
  have hc : startsWith (']' :: r) [']'] = true := by simp
  obtain ⟨s2, k1, k2, k3⟩ := skipWs_tok (d := { s1 with limit := d1.limit }) (l := []) (r := ']' :: r) h2 layout_nil
    (stop_cons (by simp)).noLayout
  refine ⟨{ s2 with prev := s2.rest, rest := r }, ?_, rfl, hk1.trans (g2.trans (k3.trans (KeepsD.step _ _ _))), ?_⟩
  · unfold deSeq
    have e0 : consumeChar '[' { d with nv := false } = .ok true d1 := consumeChar_true (s := { d with nv := false }) hd
    simp only [bind_apply, setNv_apply, e0, ↓reduceIte]
    rw [g1]
    simp only [k1, consumeChar_true k2, ↓reduceIte, pure_apply]
  · exact k3.nv (g2.nv rfl)

theorem deMap_ok {α : Type} {x : Exts} {k : Nat} {visit : P α} {v : α} {d : St} {w r : Text}
    (hx : d.exts = x) (hb : Budget d (k + 1)) (hd : d.rest = '{' :: (w ++ r))
    (hv : ∀ d : St, Pre x k d → d.rest = w ++ r → ∃ s', visit d = .ok v s' ∧ s'.rest = '}' :: r ∧ KeepsD d s') :
    ∃ s', deMap visit d = .ok v s' ∧ s'.rest = r ∧ KeepsD d s' ∧ s'.nv = false := by
  let d1 : St := { d with nv := false, prev := d.rest, rest := w ++ r }
  have hk1 : KeepsD d d1 := ⟨rfl, rfl, rfl, fun _ => rfl⟩
  have hp1 : Pre x (k + 1) d1 := ⟨rfl, hx, hb.keep hk1⟩
  obtain ⟨s1, h1, h2, h3⟩ := hv _ hp1.lower rfl
  obtain ⟨g1, g2⟩ := deGuardQ_ok hp1.budget h1 h3
  obtain ⟨s2, k1, k2, k3⟩ := skipWs_tok (d := { s1 with limit := d1.limit }) (l := []) (r := '}' :: r) h2 layout_nil
    (stop_cons (by simp)).noLayout
  refine ⟨{ s2 with prev := s2.rest, rest := r }, ?_, rfl, hk1.trans (g2.trans (k3.trans (KeepsD.step _ _ _))), ?_⟩
  · unfold deMap
    have e0 : consumeChar '{' { d with nv := false } = .ok true d1 := consumeChar_true (s := { d with nv := false }) hd
    simp only [bind_apply, setNv_apply, e0, ↓reduceIte]
    rw [g1]
    simp only [k1, consumeChar_true k2, ↓reduceIte, pure_apply]
  · exact k3.nv (g2.nv rfl)

/-- A tuple in parentheses. -/
theorem deTuple_ok {α : Type} {x : Exts} {k : Nat} {visit : P α} {v : α} {d : St} {w r : Text}
    (hp : Pre x (k + 1) d) (hd : d.rest = '(' :: (w ++ r))
    (hv : ∀ d : St, Pre x k d → d.rest = w ++ r →
      ∃ s' l, visit d = .ok v s' ∧ s'.rest = l ++ ')' :: r ∧ Layout l ∧ KeepsD d s') :
    ∃ s', deTuple visit d = .ok v s' ∧ s'.rest = r ∧ KeepsD d s' := by
  have hnv := hp.nv
  let d1 : St := { d with nv := false, prev := d.rest, rest := w ++ r }
  have hk1 : KeepsD d d1 := ⟨rfl, rfl, rfl, fun _ => rfl⟩
  have hp1 : Pre x (k + 1) d1 := ⟨rfl, hp.exts, hp.budget.keep hk1⟩
  obtain ⟨s1, l, h1, h2, hl, h3⟩ := hv _ hp1.lower rfl
  obtain ⟨g1, g2⟩ := deGuardQ_ok hp1.budget h1 h3
  obtain ⟨s2, k1, k2, k3⟩ := skipWs_tok (d := { s1 with limit := d1.limit }) (l := l) (r := ')' :: r) h2 hl
    (stop_cons (by simp)).noLayout
  refine ⟨{ s2 with prev := s2.rest, rest := r }, ?_, rfl, hk1.trans (g2.trans (k3.trans (KeepsD.step _ _ _)))⟩
  unfold deTuple
  have e0 : consumeChar '(' d = .ok true { d with prev := d.rest, rest := w ++ r } := consumeChar_true hd
  have e1 : ({ d with prev := d.rest, rest := w ++ r, nv := false } : St) = d1 := rfl
  simp only [bind_apply, getSt_apply, hnv, Bool.false_eq_true, ↓reduceIte, e0, setNv_apply]
  rw [e1, g1]
  simp only [k1, consumeChar_true k2, ↓reduceIte, pure_apply]

/-- A tuple without parentheses, inside an unwrapped newtype variant. -/
theorem deTuple_nv {α : Type} {x : Exts} {k : Nat} {visit : P α} {v : α} {d : St} {w : Text} {Q : Text → Prop}
    (hnv : d.nv = true) (hx : d.exts = x) (hb : Budget d (k + 1)) (hd : d.rest = w)
    (hv : ∀ d : St, Pre x k d → d.rest = w →
      ∃ s' l q, visit d = .ok v s' ∧ s'.rest = l ++ q ∧ Layout l ∧ NoLayoutStart q ∧ Q q ∧ KeepsD d s') :
    ∃ s', deTuple visit d = .ok v s' ∧ Q s'.rest ∧ KeepsD d s' ∧ s'.nv = false := by
  let d1 : St := { d with nv := false }
  have hk1 : KeepsD d d1 := ⟨rfl, rfl, rfl, fun _ => rfl⟩
  have hp1 : Pre x (k + 1) d1 := ⟨rfl, hx, hb.keep hk1⟩
  obtain ⟨s1, l, q, h1, h2, hl, hq, hQ, h3⟩ := hv _ hp1.lower hd
  obtain ⟨g1, g2⟩ := deGuardQ_ok hp1.budget h1 h3
  obtain ⟨s2, k1, k2, k3⟩ := skipWs_tok (d := { s1 with limit := d1.limit }) h2 hl hq
  refine ⟨s2, ?_, k2 ▸ hQ, hk1.trans (g2.trans k3), k3.nv (g2.nv rfl)⟩
  unfold deTuple
  have e1 : ({ d with nv := false } : St) = d1 := rfl
  simp only [bind_apply, getSt_apply, hnv, ↓reduceIte, setNv_apply, pure_apply]
  rw [e1, g1]
  simp only [k1]

/-- A struct in parentheses. -/
theorem structAfterName_ok {α : Type} {x : Exts} {k : Nat} {visit : P α} {v : α} {d : St} {w r : Text} (name : Text)
    (hp : Pre x (k + 1) d) (hd : d.rest = '(' :: (w ++ r))
    (hv : ∀ d : St, Pre x k d → d.rest = w ++ r →
      ∃ s' l, visit d = .ok v s' ∧ s'.rest = l ++ ')' :: r ∧ Layout l ∧ KeepsD d s') :
    ∃ s', structAfterName name visit d = .ok v s' ∧ s'.rest = r ∧ KeepsD d s' := by
  have hnv := hp.nv
  let d1 : St := { d with nv := false, prev := d.rest, rest := w ++ r }
  have hk1 : KeepsD d d1 := ⟨rfl, rfl, rfl, fun _ => rfl⟩
  have hp1 : Pre x (k + 1) d1 := ⟨rfl, hp.exts, hp.budget.keep hk1⟩
  obtain ⟨s1, l, h1, h2, hl, h3⟩ := hv _ hp1.lower rfl
  obtain ⟨g1, g2⟩ := deGuardQ_ok (f := mapErr (structErrorName (if !false && !name.isEmpty then some name else none)) visit)
    hp1.budget (by simp only [mapErr_apply]; rw [h1]) h3
  obtain ⟨s2, k1, k2, k3⟩ := skipWs_tok (d := { s1 with limit := d1.limit }) (l := l) (r := ')' :: r) h2 hl
    (stop_cons (by simp)).noLayout
  refine ⟨{ s2 with prev := s2.rest, rest := r }, ?_, rfl, hk1.trans (g2.trans (k3.trans (KeepsD.step _ _ _)))⟩
  unfold structAfterName
  have e0 : consumeChar '(' d = .ok true { d with prev := d.rest, rest := w ++ r } := consumeChar_true hd
  have e1 : ({ d with prev := d.rest, rest := w ++ r, nv := false } : St) = d1 := rfl
  simp only [bind_apply, getSt_apply, hnv, Bool.false_eq_true, ↓reduceIte, e0, setNv_apply]
  rw [e1, g1]
  simp only [k1, consumeChar_true k2, ↓reduceIte, pure_apply]

/-- A struct without parentheses, inside an unwrapped newtype variant. -/
theorem structAfterName_nv {α : Type} {x : Exts} {k : Nat} {visit : P α} {v : α} {d : St} {w : Text} {Q : Text → Prop} (name : Text)
    (hnv : d.nv = true) (hx : d.exts = x) (hb : Budget d (k + 1)) (hd : d.rest = w)
    (hv : ∀ d : St, Pre x k d → d.rest = w →
      ∃ s' l q, visit d = .ok v s' ∧ s'.rest = l ++ q ∧ Layout l ∧ NoLayoutStart q ∧ Q q ∧ KeepsD d s') :
    ∃ s', structAfterName name visit d = .ok v s' ∧ Q s'.rest ∧ KeepsD d s' ∧ s'.nv = false := by
  let d1 : St := { d with nv := false }
  have hk1 : KeepsD d d1 := ⟨rfl, rfl, rfl, fun _ => rfl⟩
  have hp1 : Pre x (k + 1) d1 := ⟨rfl, hx, hb.keep hk1⟩
  obtain ⟨s1, l, q, h1, h2, hl, hq, hQ, h3⟩ := hv _ hp1.lower hd
  obtain ⟨g1, g2⟩ := deGuardQ_ok (f := mapErr (structErrorName (if !true && !name.isEmpty then some name else none)) visit)
    hp1.budget (by simp only [mapErr_apply]; rw [h1]) h3
  obtain ⟨s2, k1, k2, k3⟩ := skipWs_tok (d := { s1 with limit := d1.limit }) h2 hl hq
  refine ⟨s2, ?_, k2 ▸ hQ, hk1.trans (g2.trans k3), k3.nv (g2.nv rfl)⟩
  unfold structAfterName
  have e1 : ({ d with nv := false } : St) = d1 := rfl
  simp only [bind_apply, getSt_apply, hnv, ↓reduceIte, setNv_apply, pure_apply]
  rw [e1, g1]
  simp only [k1]

end Ron
