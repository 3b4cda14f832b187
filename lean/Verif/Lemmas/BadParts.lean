import Verif.Lemmas.Closed
import Verif.Lemmas.BadStrings
import Verif.Lemmas.BadNumbers
import Verif.Lemmas.BadFloats
import Verif.Spec.BadTy
/-!
Malformed lists, tuples, maps and fields: the error and the place.
-/

set_option linter.unusedSimpArgs false

namespace Ron

variable [Env]

/-- Wherever `seed` reads `u` it fails with `e`, and `r` is left. -/
def ErrsD {α : Type} (x : Exts) (n : Nat) (seed : P α) (u : Text) (e : Err) (r : Text) : Prop :=
  ∀ d, Pre x n d → d.rest = u → ∃ s', seed d = .err e s' ∧ s'.rest = r ∧ s'.src = d.src

/-- The same for one state. -/
def ErrsAt {α : Type} (seed : P α) (d : St) (e : Err) (r : Text) : Prop := ∃ s', seed d = .err e s' ∧ s'.rest = r ∧ s'.src = d.src

/-- `seed` reads a value at `u`, and `q` is left after the layout. -/
def RunsAt {α : Type} (x : Exts) (n : Nat) (seed : P α) (u q : Text) : Prop :=
  NoLayoutStart q ∧ ∀ d, Pre x n d → d.rest = u → ∃ v s' l, seed d = .ok v s' ∧ s'.rest = l ++ q ∧ Layout l ∧ KeepsD d s'

omit [Env] in
theorem ErrsAt.keep {α : Type} {f g : P α} {d d' : St} {e : Err} {r : Text} (h : ErrsAt f d' e r) (hs : d'.src = d.src) (hfg : ∀ s', f d' = .err e s' → g d = .err e s') :
    ErrsAt g d e r := by
  obtain ⟨s', h1, h2, h3⟩ := h
  exact ⟨s', hfg _ h1, h2, h3.trans hs⟩

omit [Env] in
theorem ErrsAt.keepB {α β : Type} {f : P α} {g : P β} {d d' : St} {e : Err} {r : Text} (h : ErrsAt f d' e r) (hs : d'.src = d.src)
    (hfg : ∀ s', f d' = .err e s' → g d = .err e s') : ErrsAt g d e r := by
  obtain ⟨s', h1, h2, h3⟩ := h
  exact ⟨s', hfg _ h1, h2, h3.trans hs⟩

omit [Env] in
theorem ErrsAt.bind {α β : Type} {f : P α} {g : α → P β} {d : St} {e : Err} {r : Text} (h : ErrsAt f d e r) : ErrsAt (f >>= g) d e r := by
  obtain ⟨s', h1, h2⟩ := h
  exact ⟨s', by simp only [bind_apply, h1], h2⟩

omit [Env] in
theorem ErrsAt.mapErr {α : Type} {f : P α} {d : St} {e : Err} {r : Text} (h : ErrsAt f d e r) (g : Err → Err) : ErrsAt (mapErr g f) d (g e) r := by
  obtain ⟨s', h1, h2⟩ := h
  exact ⟨s', by simp only [mapErr_apply, h1], h2⟩

omit [Env] in
theorem ErrsAt.guardQ {α : Type} {f : P α} {x : Exts} {n : Nat} {d : St} {e : Err} {r : Text} (hp : Pre x (n + 1) d)
    (h : ErrsAt f { d with limit := d.limit.map (· - 1) } e r) : ErrsAt (deGuardQ f) d e r := by
  obtain ⟨s', h1, h2, h3⟩ := h
  refine ⟨s', ?_, h2, h3⟩
  have := hp.budget
  unfold deGuardQ
  split
  · next h0 => have := this 0 h0; omega
  · rw [h1]

omit [Env] in
theorem ErrsAt.guardR {α : Type} {f : P α} {x : Exts} {n : Nat} {d : St} {e : Err} {r : Text} (hp : Pre x (n + 1) d)
    (h : ErrsAt f { d with limit := d.limit.map (· - 1) } e r) : ErrsAt (deGuardR f) d e r := by
  obtain ⟨s', h1, h2, h3⟩ := h
  refine ⟨{ s' with limit := s'.limit.map (· + 1) }, ?_, h2, h3⟩
  have := hp.budget
  unfold deGuardR
  split
  · next h0 => have := this 0 h0; omega
  · rw [h1]

omit [Env] in
theorem ErrsD.guardQ {α : Type} {f : P α} {x : Exts} {n : Nat} {u : Text} {e : Err} {r : Text} (h : ErrsD x n f u e r) : ErrsD x (n + 1) (deGuardQ f) u e r :=
  fun d hp hd => ErrsAt.guardQ hp (h _ hp.lower hd)

omit [Env] in
theorem ErrsD.guardR {α : Type} {f : P α} {x : Exts} {n : Nat} {u : Text} {e : Err} {r : Text} (h : ErrsD x n f u e r) : ErrsD x (n + 1) (deGuardR f) u e r :=
  fun d hp hd => ErrsAt.guardR hp (h _ hp.lower hd)

omit [Env] in
theorem ErrsD.bind {α β : Type} {f : P α} {g : α → P β} {x : Exts} {n : Nat} {u : Text} {e : Err} {r : Text} (h : ErrsD x n f u e r) : ErrsD x n (f >>= g) u e r :=
  fun d hp hd => ErrsAt.bind (h d hp hd)

omit [Env] in
theorem ErrsD.mono {α : Type} {f : P α} {x : Exts} {n m : Nat} {u : Text} {e : Err} {r : Text} (h : ErrsD x n f u e r) (hm : n ≤ m) : ErrsD x m f u e r :=
  fun d hp hd => h d (hp.mono hm) hd

omit [Env] in
theorem RunsAt.guardQ {α : Type} {f : P α} {x : Exts} {n : Nat} {u q : Text} (h : RunsAt x n f u q) : RunsAt x (n + 1) (deGuardQ f) u q := by
  refine ⟨h.1, fun d hp hd => ?_⟩
  obtain ⟨v, s', l, h1, h2, h3, h4⟩ := h.2 _ hp.lower hd
  obtain ⟨g1, g2⟩ := deGuardQ_ok hp.budget h1 h4
  exact ⟨v, _, l, g1, h2, h3, g2⟩

omit [Env] in
theorem RunsAt.guardR {α : Type} {f : P α} {x : Exts} {n : Nat} {u q : Text} (h : RunsAt x n f u q) : RunsAt x (n + 1) (deGuardR f) u q := by
  refine ⟨h.1, fun d hp hd => ?_⟩
  obtain ⟨v, s', l, h1, h2, h3, h4⟩ := h.2 _ hp.lower hd
  obtain ⟨g1, g2⟩ := deGuardR_ok hp.budget h1 h4
  exact ⟨v, _, l, g1, h2, h3, g2⟩

omit [Env] in
theorem head_start {u : Text} {c : Char} (h : u.head? ≠ some c) : startsWith u [c] = false := by
  cases u with
  | nil => simp
  | cons a u =>
    simp only [startsWith_cons, startsWith_nil_right, Bool.and_true, beq_eq_false_iff_ne]
    rintro rfl
    exact h rfl

omit [Env] in
/-- An item that fails. -/
theorem nextElement_errs {α : Type} {x : Exts} {k : Nat} {term : Char} {seed : P α} {d : St} {l u r : Text} {e : Err} (hp : Pre x (k + 1) d)
    (hd : d.rest = l ++ u) (hl : Layout l) (hu : Place term u) (h : ErrsD x k seed u e r) : ErrsAt (nextElement term true seed) d e r := by
  obtain ⟨s1, h1, h2, h3⟩ := hasElement_more (term := term) hd hl hu.1 (head_start hu.2)
  obtain ⟨s2, g1, g2, g3⟩ := h.guardQ s1 (hp.keep h3) h2
  refine ⟨s2, ?_, g2, g3.trans h3.src⟩
  unfold nextElement
  simp only [bind_apply, h1, ↓reduceIte, g1]

omit [Env] in
/-- An item with neither a comma nor the closing bracket after it. -/
theorem nextElement_sep {α : Type} {x : Exts} {k : Nat} {term : Char} {seed : P α} {d : St} {l u q : Text} (hp : Pre x (k + 1) d)
    (hd : d.rest = l ++ u) (hl : Layout l) (hu : Place term u) (h : RunsAt x k seed u q) (hq : NoSep term q) :
    ∃ v s', nextElement term true seed d = .ok (some (v, false)) s' ∧ s'.rest = q ∧ KeepsD d s' := by
  obtain ⟨s1, h1, h2, h3⟩ := hasElement_more (term := term) hd hl hu.1 (head_start hu.2)
  obtain ⟨v, s2, b, g1, g2, hb, g3⟩ := h.guardQ.2 s1 (hp.keep h3) h2
  obtain ⟨s3, c1, c2, c3⟩ := comma_none g2 hb h.1 (head_start hq.1)
  refine ⟨v, s3, ?_, c2, (h3.trans g3).trans c3.toD⟩
  unfold nextElement
  simp only [bind_apply, h1, ↓reduceIte, g1, c1, pure_apply]

omit [Env] in
theorem hasElement_sep {term : Char} {d : St} {q : Text} (hd : d.rest = q) (hn : NoLayoutStart q) (hq : NoSep term q) :
    ErrsAt (hasElement term false) d .expectedComma q := by
  obtain ⟨s1, h1, h2, h3⟩ := skipWs_tok (l := []) (by simpa using hd) .nil hn
  refine ⟨s1, ?_, h2, h3.src⟩
  unfold hasElement
  simp only [bind_apply, h1, checkChar_apply, h2, head_start hq.2, Bool.false_eq_true, ↓reduceIte, fail_apply]

/-! ### Lists -/

omit [Env] in
theorem seqLoop_prefix {α : Type} {x : Exts} {k : Nat} {term : Char} {seed : P α} (hterm : term ∈ [')', ']', '}'])
    {ts : List Text} {u : Text} (hu : Body ts u) : ∀ (vs : List α) (d : St) (l b a r : Text),
    All2 (Reads x k seed) ts vs → Pre x (k + 1) d → d.rest = l ++ (u ++ (b ++ ',' :: (a ++ r))) → Layout l → Layout b → Layout a → NoLayoutStart r →
    ∃ s', s'.rest = r ∧ KeepsD d s' ∧ ∀ f e s'', seqLoop term seed f true s' = .err e s'' → seqLoop term seed (f + ts.length) true d = .err e s'' := by
  induction hu with
  | @one t =>
    intro vs d l b a r h2 hp hd hl hb ha hr
    match vs, h2 with
    | [v], h2 =>
      obtain ⟨s1, h1, h3, h4⟩ := nextElement_more hp hterm h2.1 hd hl hb ha hr
      refine ⟨s1, h3, h4, fun f e s'' h => ?_⟩
      rw [List.length_singleton, seqLoop]
      simp only [bind_apply, h1, h]
  | @cons t b' a' u ts hb' ha' hu ih =>
    intro vs d l b a r h2 hp hd hl hb ha hr
    match vs, h2 with
    | v :: vs, h2 =>
      have hnl := (hu.tokStart (All2.tokStart h2.2)).noLayout (b ++ ',' :: (a ++ r))
      obtain ⟨s1, h1, h3, h4⟩ := nextElement_more (r := u ++ (b ++ ',' :: (a ++ r))) hp hterm h2.1 (by rw [hd]; simp) hl hb' ha' hnl
      obtain ⟨s2, g1, g2, g3⟩ := ih vs s1 [] b a r h2.2 (hp.keep h4) (by simpa using h3) .nil hb ha hr
      refine ⟨s2, g1, h4.trans g2, fun f e s'' h => ?_⟩
      rw [List.length_cons, ← Nat.add_assoc, seqLoop]
      simp only [bind_apply, h1, g3 f e s'' h]

omit [Env] in
/-- Up to a place in a list. -/
theorem readSeq_upto {α : Type} {x : Exts} {k : Nat} {term : Char} {seed : P α} (hterm : term ∈ [')', ']', '}']) {ts : List Text} {p : Text} (hb : Before ts p)
    {vs : List α} (h2 : All2 (Reads x k seed) ts vs) {d : St} {u : Text} (hp : Pre x (k + 1) d) (hd : d.rest = p ++ u) (hu : NoLayoutStart u) :
    ∃ s' l, s'.rest = l ++ u ∧ Layout l ∧ KeepsD d s' ∧
      ∀ e r, (∀ f, ErrsAt (seqLoop term seed (f + 2) true) s' e r) → ErrsAt (readSeq term seed) d e r := by
  cases hb with
  | nil ha =>
    refine ⟨d, p, hd, ha, .refl _, fun e r h => ?_⟩
    obtain ⟨s'', h1, h3⟩ := h d.rest.length
    exact ⟨s'', by simp only [readSeq, bind_apply, getSt_apply]; exact h1, h3⟩
  | @items a b a' w ts ha hw hb ha' =>
    obtain ⟨s', h1, h3, h4⟩ := seqLoop_prefix hterm hw vs d a b a' u h2 hp (by rw [hd]; simp) ha hb ha' hu
    refine ⟨s', [], by simpa using h1, .nil, h3, fun e r h => ?_⟩
    have hlen := hw.length (All2.tokStart h2)
    obtain ⟨f, hf⟩ : ∃ f, d.rest.length + 2 = (f + 2) + ts.length := ⟨d.rest.length - ts.length, by rw [hd]; simp; omega⟩
    obtain ⟨s'', g1, g2, g3⟩ := h f
    refine ⟨s'', ?_, g2, g3.trans h3.src⟩
    simp only [readSeq, bind_apply, getSt_apply]
    rw [hf]
    exact h4 _ _ _ g1

omit [Env] in
theorem deSeq_errs {α : Type} {x : Exts} {k : Nat} {visit : P α} {u r : Text} {e : Err} (h : ErrsD x k visit u e r) : ErrsD x (k + 1) (deSeq visit) ('[' :: u) e r := by
  intro d hp hd
  let d1 : St := { d with nv := false, prev := d.rest, rest := u }
  have hp1 : Pre x (k + 1) d1 := ⟨rfl, hp.exts, hp.budget⟩
  obtain ⟨s1, h1, h2, h3⟩ := h.guardQ d1 hp1 rfl
  refine ⟨s1, ?_, h2, h3⟩
  have e0 : consumeChar '[' { d with nv := false } = .ok true d1 := consumeChar_true hd
  unfold deSeq
  simp only [bind_apply, setNv_apply, e0, ↓reduceIte, h1]

omit [Env] in
theorem deMap_errs {α : Type} {x : Exts} {k : Nat} {visit : P α} {u r : Text} {e : Err} (h : ErrsD x k visit u e r) : ErrsD x (k + 1) (deMap visit) ('{' :: u) e r := by
  intro d hp hd
  let d1 : St := { d with nv := false, prev := d.rest, rest := u }
  have hp1 : Pre x (k + 1) d1 := ⟨rfl, hp.exts, hp.budget⟩
  obtain ⟨s1, h1, h2, h3⟩ := h.guardQ d1 hp1 rfl
  refine ⟨s1, ?_, h2, h3⟩
  have e0 : consumeChar '{' { d with nv := false } = .ok true d1 := consumeChar_true hd
  unfold deMap
  simp only [bind_apply, setNv_apply, e0, ↓reduceIte, h1]

omit [Env] in
theorem badSeq_errs {α : Type} {x : Exts} {seed : P α} {L : Nat → Text → α → Prop} {I : Nat → Text → Text → Prop} {B : Nat → Text → Err → Text → Prop}
    (hL : ∀ n t v, L n t v → Reads x n seed t v) (hI : ∀ n u q, I n u q → RunsAt x n seed u q) (hB : ∀ n u e r, B n u e r → ErrsD x n seed u e r)
    {n : Nat} {u r : Text} {e : Err} (h : BadSeq L I B n u e r) : ErrsD x n (deSeq (readSeq ']' seed)) u e r := by
  cases h with
  | opening h =>
    intro d hp hd
    refine ⟨{ d with nv := false }, ?_, hd, rfl⟩
    have e0 : consumeChar '[' { d with nv := false } = .ok false { d with nv := false } := consumeChar_false (by simpa [hd] using head_start h)
    unfold deSeq
    simp only [bind_apply, setNv_apply, e0, Bool.false_eq_true, ↓reduceIte, fail_apply]
  | item hb h2 hu hbad =>
    refine deSeq_errs fun d hp hd => ?_
    obtain ⟨s1, l, h3, hl, h4, h5⟩ := readSeq_upto (term := ']') (by simp) hb (h2.imp fun t v h => hL _ _ _ h) hp hd hu.1
    refine h5 _ _ fun f => ?_
    exact ErrsAt.bind (nextElement_errs (hp.keep h4) h3 hl hu (hB _ _ _ _ hbad))
  | comma hb h2 hu hi hq =>
    refine deSeq_errs fun d hp hd => ?_
    obtain ⟨s1, l, h3, hl, h4, h5⟩ := readSeq_upto (term := ']') (by simp) hb (h2.imp fun t v h => hL _ _ _ h) hp hd hu.1
    refine h5 _ _ fun f => ?_
    obtain ⟨v, s2, g1, g2, g3⟩ := nextElement_sep (hp.keep h4) h3 hl hu (hI _ _ _ hi) hq
    have h6 : ErrsAt (seqLoop ']' seed (f + 1) false) s2 .expectedComma r :=
      ErrsAt.bind (ErrsAt.bind (hasElement_sep g2 (hI _ _ _ hi).1 hq))
    refine h6.keep g3.src fun s' h => ?_
    rw [seqLoop]
    simp only [bind_apply, g1, h]

/-! ### Tuples -/

omit [Env] in
theorem tupleLoop_prefix {x : Exts} {k : Nat} (ex : Text) {ts : List Text} {u : Text} (hu : Body ts u) :
    ∀ (ss : List (P SVal)) (vs : List SVal) (i : Nat) (d : St) (l b a r : Text),
    Reads3 x k ss ts vs → Pre x (k + 1) d → d.rest = l ++ (u ++ (b ++ ',' :: (a ++ r))) → Layout l → Layout b → Layout a → NoLayoutStart r →
    ∃ s', s'.rest = r ∧ KeepsD d s' ∧ (∀ ss' e s'', tupleLoop ex ss' (i + ts.length) true s' = .err e s'' → tupleLoop ex (ss ++ ss') i true d = .err e s'') ∧
      (∀ ss' vs' s'', tupleLoop ex ss' (i + ts.length) true s' = .ok vs' s'' → tupleLoop ex (ss ++ ss') i true d = .ok (vs ++ vs') s'') := by
  induction hu with
  | @one t =>
    intro ss vs i d l b a r h3 hp hd hl hb ha hr
    match ss, vs, h3 with
    | s :: ss, v :: vs, h3 =>
      match ss, vs, h3.2 with
      | [], [], _ =>
      obtain ⟨s1, h1, g3, h4⟩ := nextElement_more (term := ')') hp (by simp) h3.1 hd hl hb ha hr
      refine ⟨s1, g3, h4, fun ss' e s'' h => ?_, fun ss' e s'' h => ?_⟩
      all_goals
        rw [List.cons_append, tupleLoop]
        simp only [bind_apply, h1, List.nil_append]
        rw [List.length_singleton] at h
        rw [h]
      rfl
  | @cons t b' a' u ts hb' ha' hu ih =>
    intro ss vs i d l b a r h3 hp hd hl hb ha hr
    match ss, vs, h3 with
    | s :: ss, v :: vs, h3 =>
      have hts : ∀ t ∈ ts, TokStart t := h3.2.tokStart
      have hnl := (hu.tokStart hts).noLayout (b ++ ',' :: (a ++ r))
      obtain ⟨s1, h1, g3, h4⟩ := nextElement_more (term := ')') (r := u ++ (b ++ ',' :: (a ++ r))) hp (by simp) h3.1 (by rw [hd]; simp) hl hb' ha' hnl
      obtain ⟨s2, k1, k2, k3, k4⟩ := ih ss vs (i + 1) s1 [] b a r h3.2 (hp.keep h4) (by simpa using g3) .nil hb ha hr
      refine ⟨s2, k1, h4.trans k2, fun ss' e s'' h => ?_, fun ss' e s'' h => ?_⟩
      · rw [List.cons_append, tupleLoop]
        simp only [bind_apply, h1]
        rw [k3 ss' e s'' (by rw [List.length_cons] at h; rw [show i + 1 + ts.length = i + (ts.length + 1) by omega]; exact h)]
      · rw [List.cons_append, tupleLoop]
        simp only [bind_apply, h1]
        rw [k4 ss' e s'' (by rw [List.length_cons] at h; rw [show i + 1 + ts.length = i + (ts.length + 1) by omega]; exact h)]
        rfl

omit [Env] in
/-- Up to a place in a tuple. -/
theorem tupleLoop_upto {x : Exts} {k : Nat} (ex : Text) {ts : List Text} {p : Text} (hb : Before ts p) {ss : List (P SVal)} {vs : List SVal}
    (h3 : Reads3 x k ss ts vs) {d : St} {u : Text} (hp : Pre x (k + 1) d) (hd : d.rest = p ++ u) (hu : NoLayoutStart u) :
    ∃ s' l, s'.rest = l ++ u ∧ Layout l ∧ KeepsD d s' ∧
      (∀ ss' e r, ErrsAt (tupleLoop ex ss' ts.length true) s' e r → ErrsAt (tupleLoop ex (ss ++ ss') 0 true) d e r) ∧
      (∀ ss' vs' s'', tupleLoop ex ss' ts.length true s' = .ok vs' s'' → tupleLoop ex (ss ++ ss') 0 true d = .ok (vs ++ vs') s'') := by
  cases hb with
  | nil ha =>
    match ss, vs, h3 with
    | [], [], _ => exact ⟨d, p, hd, ha, .refl _, fun ss' e r h => h, fun ss' vs' s'' h => h⟩
  | @items a b a' w ts ha hw hb ha' =>
    obtain ⟨s', h1, h2, h4, h5⟩ := tupleLoop_prefix ex hw ss vs 0 d a b a' u h3 hp (by rw [hd]; simp) ha hb ha' hu
    refine ⟨s', [], by simpa using h1, .nil, h2, fun ss' e r h => ?_, fun ss' vs' s'' h => h5 ss' vs' s'' (by rw [Nat.zero_add]; exact h)⟩
    obtain ⟨s'', g1, g2, g3⟩ := h
    exact ⟨s'', h4 ss' e s'' (by rw [Nat.zero_add]; exact g1), g2, g3.trans h2.src⟩

omit [Env] in
theorem tupleLoop_short {x : Exts} {k : Nat} (ex : Text) {ts : List Text} {u : Text} (hu : Body ts u) (s0 : P SVal) (ss' : List (P SVal)) :
    ∀ (ss : List (P SVal)) (vs : List SVal) (i : Nat) (d : St) (l b r : Text),
    Reads3 x k ss ts vs → Pre x (k + 1) d → d.rest = l ++ (u ++ (b ++ ')' :: r)) → Layout l → Tail b →
    ErrsAt (tupleLoop ex (ss ++ s0 :: ss') i true) d (.expectedDifferentLength ex (i + ts.length)) (')' :: r) := by
  induction hu with
  | @one t =>
    intro ss vs i d l b r h3 hp hd hl hb
    match ss, vs, h3 with
    | s :: ss, v :: vs, h3 =>
      match ss, vs, h3.2 with
      | [], [], _ =>
      obtain ⟨had, s1, h1, h2, h4⟩ := nextElement_last hp (by simp) h3.1 hd hl hb
      obtain ⟨s2, g1, g2, g3⟩ := nextElement_end (term := ')') (seed := s0) (l := []) had (by simp) (by simpa using h2) .nil
      refine ⟨s2, ?_, g2, g3.src.trans h4.src⟩
      simp only [List.cons_append, List.nil_append, tupleLoop, bind_apply, h1, g1, fail_apply, List.length_singleton]
  | @cons t b' a u ts hb' ha hu ih =>
    intro ss vs i d l b r h3 hp hd hl hb
    match ss, vs, h3 with
    | s :: ss, v :: vs, h3 =>
      obtain ⟨s1, h1, h2, h4⟩ := nextElement_more (term := ')') (r := u ++ (b ++ ')' :: r)) hp (by simp) h3.1 (by rw [hd]; simp) hl hb' ha
        ((hu.tokStart h3.2.tokStart).noLayout _)
      obtain ⟨s2, g1, g2, g3⟩ := ih ss vs (i + 1) s1 [] b r h3.2 (hp.keep h4) (by simpa using h2) .nil hb
      refine ⟨s2, ?_, g2, g3.trans h4.src⟩
      rw [List.length_cons, show i + (ts.length + 1) = i + 1 + ts.length by omega]
      simp only [List.cons_append, tupleLoop, bind_apply, h1, g1]

omit [Env] in
theorem deTuple_errs {α : Type} {x : Exts} {k : Nat} {visit : P α} {u r : Text} {e : Err} (h : ErrsD x k visit u e r) : ErrsD x (k + 1) (deTuple visit) ('(' :: u) e r := by
  intro d hp hd
  let d1 : St := { d with nv := false, prev := d.rest, rest := u }
  have hp1 : Pre x (k + 1) d1 := ⟨rfl, hp.exts, hp.budget⟩
  obtain ⟨s1, h1, h2, h3⟩ := h.guardQ d1 hp1 rfl
  refine ⟨s1, ?_, h2, h3⟩
  have e0 : consumeChar '(' d = .ok true { d with prev := d.rest, rest := u } := consumeChar_true hd
  have e1 : ({ d with prev := d.rest, rest := u, nv := false } : St) = d1 := rfl
  unfold deTuple
  simp only [bind_apply, getSt_apply, hp.nv, Bool.false_eq_true, ↓reduceIte, setNv_apply, e0]
  rw [e1, h1]

omit [Env] in
/-- A tuple that does not end. -/
theorem deTuple_open {α : Type} {x : Exts} {k : Nat} {visit : P α} {u q : Text} (h : RunsAt x k visit u q) (hq : q.head? ≠ some ')') :
    ErrsD x (k + 1) (deTuple visit) ('(' :: u) .expectedStructLikeEnd q := by
  intro d hp hd
  let d1 : St := { d with nv := false, prev := d.rest, rest := u }
  have hp1 : Pre x (k + 1) d1 := ⟨rfl, hp.exts, hp.budget⟩
  obtain ⟨v, s1, l, h1, h2, h3, h4⟩ := h.guardQ.2 d1 hp1 rfl
  obtain ⟨s2, g1, g2, g3⟩ := skipWs_tok h2 h3 h.1
  refine ⟨s2, ?_, g2, g3.src.trans h4.src⟩
  have e0 : consumeChar '(' d = .ok true { d with prev := d.rest, rest := u } := consumeChar_true hd
  have e1 : ({ d with prev := d.rest, rest := u, nv := false } : St) = d1 := rfl
  have e2 : consumeChar ')' s2 = .ok false s2 := consumeChar_false (by rw [g2]; exact head_start hq)
  unfold deTuple
  simp only [bind_apply, getSt_apply, hp.nv, Bool.false_eq_true, ↓reduceIte, setNv_apply, e0]
  rw [e1, h1]
  simp only [g1, e2, Bool.false_eq_true, ↓reduceIte, fail_apply]

omit [Env] in
theorem all3_reads3 {x : Exts} {n : Nat} {rec : Ty → P SVal} {L : Ty → Nat → Text → SVal → Prop} (hL : ∀ T n t v, L T n t v → Reads x n (rec T) t v) :
    ∀ {Ts : List Ty} {ts : List Text} {vs : List SVal}, All3 (fun T => L T n) Ts ts vs → Reads3 x n (Ts.map rec) ts vs
  | [], [], [], _ => trivial
  | _ :: _, _ :: _, _ :: _, h => ⟨hL _ _ _ _ h.1, all3_reads3 hL h.2⟩
  | [], [], _ :: _, h => h.elim
  | [], _ :: _, _, h => h.elim
  | _ :: _, [], _, h => h.elim
  | _ :: _, _ :: _, [], h => h.elim

omit [Env] in
theorem badTuple_open {L : Ty → Nat → Text → SVal → Prop} {I : Ty → Nat → Text → Text → Prop} {B : Ty → Nat → Text → Err → Text → Prop} {called : Text}
    {Ts : List Ty} {n : Nat} {u r : Text} {e : Err} (h : BadTuple L I B called Ts n u e r) : ∃ w, u = '(' :: w := by
  cases h with
  | @short n Ts Ts' T ts vs w r hd h3 =>
    obtain ⟨w', h1, -⟩ := delim_inner hd
    cases w with
    | nil => cases h1
    | cons c w => simp only [List.cons_append, List.cons.injEq] at h1; exact ⟨w ++ ')' :: r, by rw [h1.1]; rfl⟩
  | _ => exact ⟨_, rfl⟩

omit [Env] in
theorem delim_close {w : Text} {ts : List Text} (h : Delim '(' ')' ts (w ++ [')'])) :
    (∃ a, Layout a ∧ ts = [] ∧ w = '(' :: a) ∨ ∃ a u t, Layout a ∧ Body ts u ∧ Tail t ∧ w = '(' :: (a ++ (u ++ t)) := by
  generalize hw : w ++ [')'] = w' at h
  cases h with
  | @nil a ha =>
    refine .inl ⟨a, ha, rfl, ?_⟩
    have : w ++ [')'] = ('(' :: a) ++ [')'] := by rw [hw]; simp
    exact List.append_cancel_right this
  | @items a u t ts ha hu ht =>
    refine .inr ⟨a, u, t, ha, hu, ht, ?_⟩
    have : w ++ [')'] = ('(' :: (a ++ (u ++ t))) ++ [')'] := by rw [hw]; simp
    exact List.append_cancel_right this

omit [Env] in
theorem badTuple_errs {x : Exts} {rec : Ty → P SVal} {L : Ty → Nat → Text → SVal → Prop} {I : Ty → Nat → Text → Text → Prop}
    {B : Ty → Nat → Text → Err → Text → Prop} {called : Text} (hL : ∀ T n t v, L T n t v → Reads x n (rec T) t v)
    (hI : ∀ T n u q, I T n u q → RunsAt x n (rec T) u q) (hB : ∀ T n u e r, B T n u e r → ErrsD x n (rec T) u e r)
    {Ts : List Ty} {n : Nat} {u r : Text} {e : Err} (h : BadTuple L I B called Ts n u e r) :
    ErrsD x n (deTuple (tupleLoop called (Ts.map rec) 0 true)) u e r := by
  cases h with
  | item hb h3 hu hbad =>
    refine deTuple_errs fun d hp hd => ?_
    obtain ⟨s1, l, g1, hl, g2, g3, -⟩ := tupleLoop_upto called hb (all3_reads3 hL h3) hp hd hu.1
    rw [List.map_append, List.map_cons]
    refine g3 _ _ _ ?_
    exact ErrsAt.bind (nextElement_errs (hp.keep g2) g1 hl hu (hB _ _ _ _ _ hbad))
  | comma hb h3 hu hi hq =>
    refine deTuple_errs fun d hp hd => ?_
    obtain ⟨s1, l, g1, hl, g2, g3, -⟩ := tupleLoop_upto called hb (all3_reads3 hL h3) hp hd hu.1
    rw [List.map_append, List.map_cons, List.map_cons]
    refine g3 _ _ _ ?_
    obtain ⟨v, s2, k1, k2, k3⟩ := nextElement_sep (hp.keep g2) g1 hl hu (hI _ _ _ _ hi) hq
    obtain ⟨s3, j1, j2, j3⟩ := hasElement_sep k2 (hI _ _ _ _ hi).1 hq
    refine ⟨s3, ?_, j2, j3.trans k3.src⟩
    rw [tupleLoop]
    simp only [bind_apply, k1]
    rw [tupleLoop]
    simp only [bind_apply, nextElement, j1]
  | @short n Ts Ts' T ts vs w r hd h3 =>
    have h3' := all3_reads3 hL h3
    rcases delim_close hd with ⟨a, ha, rfl, rfl⟩ | ⟨a, u, t, ha, hu, ht, rfl⟩
    · refine deTuple_errs (u := a ++ ')' :: r) fun d hp hd => ?_
      rw [List.map_append, List.map_cons]
      generalize Ts.map rec = ss at h3'
      match ss, vs, h3' with
      | [], [], _ =>
        obtain ⟨s2, g1, g2, g3⟩ := nextElement_end (term := ')') (seed := rec T) true (by simp) hd ha
        refine ⟨s2, ?_, g2, g3.src⟩
        simp only [List.nil_append, tupleLoop, bind_apply, g1, fail_apply, List.length_nil]
    · rw [show '(' :: (a ++ (u ++ t)) ++ ')' :: r = '(' :: (a ++ (u ++ (t ++ ')' :: r))) by simp]
      refine deTuple_errs fun d hp hd => ?_
      rw [List.map_append, List.map_cons]
      have := tupleLoop_short called hu (rec T) (Ts'.map rec) _ vs 0 d a t r h3' hp hd ha ht
      rwa [Nat.zero_add] at this
  | close hb h3 hu hi hq =>
    refine deTuple_open ⟨(hI _ _ _ _ hi).1, fun d hp hd => ?_⟩ hq.2
    obtain ⟨s1, l, g1, hl, g2, -, g4⟩ := tupleLoop_upto called hb (all3_reads3 hL h3) hp hd hu.1
    obtain ⟨v, s2, k1, k2, k3⟩ := nextElement_sep (hp.keep g2) g1 hl hu (hI _ _ _ _ hi) hq
    rw [List.map_append, List.map_cons, List.map_nil]
    refine ⟨_, s2, [], g4 _ [v] s2 ?_, by simpa using k2, .nil, g2.trans k3⟩
    simp only [tupleLoop, bind_apply, k1, pure_apply]
  | long hb h3 hu =>
    refine deTuple_open ⟨hu.1, fun d hp hd => ?_⟩ hu.2
    obtain ⟨s1, l, g1, hl, g2, -, g4⟩ := tupleLoop_upto called hb (all3_reads3 hL h3) hp hd hu.1
    have h4 := g4 [] [] s1 rfl
    rw [List.append_nil, List.append_nil] at h4
    exact ⟨_, s1, l, h4, g1, hl, g2⟩

/-! ### Maps -/

omit [Env] in
theorem nextKey_errs {α : Type} {x : Exts} {k : Nat} {term : Char} {seed : P α} {d : St} {l u r : Text} {e : Err} (hp : Pre x (k + 1) d)
    (hd : d.rest = l ++ u) (hl : Layout l) (hu : Place term u) (h : ErrsD x k seed u e r) : ErrsAt (nextKey term true seed) d e r := by
  obtain ⟨s1, h1, h2, h3⟩ := hasElement_more (term := term) hd hl hu.1 (head_start hu.2)
  obtain ⟨s2, g1, g2, g3⟩ := h.guardR s1 (hp.keep h3) h2
  refine ⟨s2, ?_, g2, g3.trans h3.src⟩
  unfold nextKey
  simp only [bind_apply, h1, ↓reduceIte, g1]

omit [Env] in
theorem nextKey_runs {α : Type} {x : Exts} {k : Nat} {term : Char} {seed : P α} {d : St} {l u q : Text} (hp : Pre x (k + 1) d)
    (hd : d.rest = l ++ u) (hl : Layout l) (hu : Place term u) (h : RunsAt x k seed u q) :
    ∃ v s' l', nextKey term true seed d = .ok (some v) s' ∧ s'.rest = l' ++ q ∧ Layout l' ∧ KeepsD d s' := by
  obtain ⟨s1, h1, h2, h3⟩ := hasElement_more (term := term) hd hl hu.1 (head_start hu.2)
  obtain ⟨v, s2, b, g1, g2, hb, g3⟩ := h.guardR.2 s1 (hp.keep h3) h2
  refine ⟨v, s2, b, ?_, g2, hb, h3.trans g3⟩
  unfold nextKey
  simp only [bind_apply, h1, ↓reduceIte, g1, pure_apply]

omit [Env] in
theorem nextValue_colon {α : Type} {seed : P α} {d : St} {l q : Text} (hd : d.rest = l ++ q) (hl : Layout l) (hn : NoLayoutStart q)
    (hq : q.head? ≠ some ':') : ErrsAt (nextValue seed) d .expectedMapColon q := by
  obtain ⟨s1, h1, h2, h3⟩ := skipWs_tok hd hl hn
  refine ⟨s1, ?_, h2, h3.src⟩
  have e0 : consumeChar ':' s1 = .ok false s1 := consumeChar_false (by rw [h2]; exact head_start hq)
  unfold nextValue
  simp only [bind_apply, h1, e0, Bool.false_eq_true, ↓reduceIte, fail_apply]

omit [Env] in
theorem nextValue_errs {α : Type} {x : Exts} {k : Nat} {seed : P α} {d : St} {l l' u r : Text} {e : Err} (hp : Pre x (k + 1) d)
    (hd : d.rest = l ++ ':' :: (l' ++ u)) (hl : Layout l) (hl' : Layout l') (hn : NoLayoutStart u) (h : ErrsD x k seed u e r) :
    ErrsAt (nextValue seed) d e r := by
  obtain ⟨s1, h1, h2, h3⟩ := skipWs_tok hd hl (noLayout_colon _)
  obtain ⟨s2, g1, g2, g3⟩ := skipWs_tok (d := { s1 with prev := s1.rest, rest := l' ++ u }) rfl hl' hn
  have hk : KeepsD d s2 := (h3.trans (KeepsD.step s1 _ _)).trans g3
  obtain ⟨s3, k1, k2, k3⟩ := h.guardQ s2 (hp.keep hk) g2
  refine ⟨s3, ?_, k2, k3.trans hk.src⟩
  unfold nextValue
  simp only [bind_apply, h1, consumeChar_true h2, ↓reduceIte, g1, k1]

omit [Env] in
theorem nextValue_sep {α : Type} {x : Exts} {k : Nat} {term : Char} {seed : P α} {d : St} {l l' u q : Text} (hp : Pre x (k + 1) d)
    (hd : d.rest = l ++ ':' :: (l' ++ u)) (hl : Layout l) (hl' : Layout l') (hn : NoLayoutStart u) (h : RunsAt x k seed u q) (hq : NoSep term q) :
    ∃ v s', nextValue seed d = .ok (v, false) s' ∧ s'.rest = q ∧ KeepsD d s' := by
  obtain ⟨s1, h1, h2, h3⟩ := skipWs_tok hd hl (noLayout_colon _)
  obtain ⟨s2, g1, g2, g3⟩ := skipWs_tok (d := { s1 with prev := s1.rest, rest := l' ++ u }) rfl hl' hn
  have hk : KeepsD d s2 := (h3.trans (KeepsD.step s1 _ _)).trans g3
  obtain ⟨v, s3, b, k1, k2, hb, k3⟩ := h.guardQ.2 s2 (hp.keep hk) g2
  obtain ⟨s4, c1, c2, c3⟩ := comma_none k2 hb h.1 (head_start hq.1)
  refine ⟨v, s4, ?_, c2, (hk.trans k3).trans c3.toD⟩
  unfold nextValue
  simp only [bind_apply, h1, consumeChar_true h2, ↓reduceIte, g1, k1, c1, pure_apply]

omit [Env] in
theorem mapLoop_prefix {κ ν : Type} {x : Exts} {k : Nat} {term : Char} {key : P κ} {val : P ν} (hterm : term ∈ [')', ']', '}'])
    {ts : List Text} {u : Text} (hu : Body ts u) : ∀ (vs : List (κ × ν)) (d : St) (l b a r : Text),
    All2 (ReadsEntry x k key val) ts vs → Pre x (k + 1) d → d.rest = l ++ (u ++ (b ++ ',' :: (a ++ r))) → Layout l → Layout b → Layout a → NoLayoutStart r →
    ∃ s', s'.rest = r ∧ KeepsD d s' ∧ ∀ f e s'', mapLoop term key val f true s' = .err e s'' → mapLoop term key val (f + ts.length) true d = .err e s'' := by
  induction hu with
  | @one t =>
    intro vs d l b a r h2 hp hd hl hb ha hr
    match vs, h2 with
    | [v], h2 =>
      obtain ⟨kt, vt, h3, h4, h5⟩ := h2.1
      cases h5 with
      | @mk m m' hm hm' =>
      obtain ⟨s1, b1, a1, a2, a3, a4⟩ := nextKey_ok (term := term) (b := m) (r := m' ++ (vt ++ (b ++ ',' :: (a ++ r)))) hp hterm h3 (by rw [hd]; simp) hl hm
      obtain ⟨s2, c1, c2, c3⟩ := nextValue_more (hp.keep a4) h4 a2 a3 hm' hb ha hr
      refine ⟨s2, c2, a4.trans c3, fun f e s'' h => ?_⟩
      rw [List.length_singleton, mapLoop]
      simp only [bind_apply, a1, c1, h]
  | @cons t b' a' u ts hb' ha' hu ih =>
    intro vs d l b a r h2 hp hd hl hb ha hr
    match vs, h2 with
    | v :: vs, h2 =>
      have hts : ∀ t ∈ ts, TokStart t := by
        intro t ht
        obtain ⟨g, -, hg⟩ := All2.mem_left h2.2 t ht
        exact hg.tokStart
      have hnl := (hu.tokStart hts).noLayout (b ++ ',' :: (a ++ r))
      obtain ⟨kt, vt, h3, h4, h5⟩ := h2.1
      cases h5 with
      | @mk m m' hm hm' =>
      obtain ⟨s1, b1, a1, a2, a3, a4⟩ := nextKey_ok (term := term) (b := m) (r := m' ++ (vt ++ (b' ++ ',' :: (a' ++ (u ++ (b ++ ',' :: (a ++ r))))))) hp hterm h3
        (by rw [hd]; simp) hl hm
      obtain ⟨s2, c1, c2, c3⟩ := nextValue_more (hp.keep a4) h4 a2 a3 hm' hb' ha' hnl
      obtain ⟨s3, g1, g2, g3⟩ := ih vs s2 [] b a r h2.2 ((hp.keep a4).keep c3) (by simpa using c2) .nil hb ha hr
      refine ⟨s3, g1, (a4.trans c3).trans g2, fun f e s'' h => ?_⟩
      rw [List.length_cons, ← Nat.add_assoc, mapLoop]
      simp only [bind_apply, a1, c1, g3 f e s'' h]

omit [Env] in
/-- Up to a place in a map. -/
theorem readMap_upto {κ ν : Type} {x : Exts} {k : Nat} {term : Char} {key : P κ} {val : P ν} (hterm : term ∈ [')', ']', '}']) {ts : List Text} {p : Text}
    (hb : Before ts p) {vs : List (κ × ν)} (h2 : All2 (ReadsEntry x k key val) ts vs) {d : St} {u : Text} (hp : Pre x (k + 1) d) (hd : d.rest = p ++ u)
    (hu : NoLayoutStart u) :
    ∃ s' l, s'.rest = l ++ u ∧ Layout l ∧ KeepsD d s' ∧
      ∀ e r, (∀ f, (u ≠ [] → 1 ≤ f) → ErrsAt (mapLoop term key val (f + 1) true) s' e r) → ErrsAt (readMap term key val) d e r := by
  cases hb with
  | nil ha =>
    refine ⟨d, p, hd, ha, .refl _, fun e r h => ?_⟩
    obtain ⟨s'', h1, h3⟩ := h d.rest.length fun hu => by
      have := List.length_pos_iff.mpr hu
      rw [hd, List.length_append]; omega
    exact ⟨s'', by simp only [readMap, bind_apply, getSt_apply]; exact h1, h3⟩
  | @items a b a' w ts ha hw hb ha' =>
    obtain ⟨s', h1, h3, h4⟩ := mapLoop_prefix hterm hw vs d a b a' u h2 hp (by rw [hd]; simp) ha hb ha' hu
    refine ⟨s', [], by simpa using h1, .nil, h3, fun e r h => ?_⟩
    have hlen := hw.length (fun t ht => by
      obtain ⟨g, -, hg⟩ := All2.mem_left h2 t ht
      exact hg.tokStart)
    obtain ⟨f, hf0, hf⟩ : ∃ f, 1 ≤ f ∧ d.rest.length + 1 = (f + 1) + ts.length :=
      ⟨d.rest.length - ts.length, by rw [hd]; simp; omega, by rw [hd]; simp; omega⟩
    obtain ⟨s'', g1, g2, g3⟩ := h f fun _ => hf0
    refine ⟨s'', ?_, g2, g3.trans h3.src⟩
    simp only [readMap, bind_apply, getSt_apply]
    rw [hf]
    exact h4 _ _ _ g1

omit [Env] in
theorem place_tok {t r : Text} (h : TokStart t) {c : Char} (hc : c ∈ [',', ')', ']', '}', ':']) : Place c (t ++ r) := by
  refine ⟨h.noLayout r, ?_⟩
  obtain ⟨d, t', rfl, h1, h2⟩ := h
  simp only [List.cons_append, List.head?_cons, ne_eq, Option.some.injEq]
  rintro rfl
  exact h2 (by revert hc; simp only [List.mem_cons]; rintro (h | h | h | h | h | h) <;> simp_all)

omit [Env] in
theorem badMap_errs {x : Exts} {fk fv : P SVal} {K V : Nat → Text → SVal → Prop} {IK IV : Nat → Text → Text → Prop} {BK BV : Nat → Text → Err → Text → Prop}
    (hK : ∀ n t v, K n t v → Reads x n fk t v) (hV : ∀ n t v, V n t v → Reads x n fv t v) (hIK : ∀ n u q, IK n u q → RunsAt x n fk u q)
    (hIV : ∀ n u q, IV n u q → RunsAt x n fv u q) (hBK : ∀ n u e r, BK n u e r → ErrsD x n fk u e r) (hBV : ∀ n u e r, BV n u e r → ErrsD x n fv u e r)
    {n : Nat} {u r : Text} {e : Err} (h : BadMap K V IK IV BK BV n u e r) : ErrsD x n (deMap (readMap '}' fk fv)) u e r := by
  have hE : ∀ {n : Nat} {ts : List Text} {es : List (SVal × SVal)}, All2 (fun t e => ∃ k v, K n k e.1 ∧ V n v e.2 ∧ Entry k v t) ts es →
      All2 (ReadsEntry x n fk fv) ts es := fun h => h.imp fun t e ⟨k, v, h1, h2, h3⟩ => ⟨k, v, hK _ _ _ h1, hV _ _ _ h2, h3⟩
  cases h with
  | opening h =>
    intro d hp hd
    refine ⟨{ d with nv := false }, ?_, hd, rfl⟩
    have e0 : consumeChar '{' { d with nv := false } = .ok false { d with nv := false } := consumeChar_false (by simpa [hd] using head_start h)
    unfold deMap
    simp only [bind_apply, setNv_apply, e0, Bool.false_eq_true, ↓reduceIte, fail_apply]
  | key hb h2 hu hbad =>
    refine deMap_errs fun d hp hd => ?_
    obtain ⟨s1, l, h3, hl, h4, h5⟩ := readMap_upto (term := '}') (by simp) hb (hE h2) hp hd hu.1
    refine h5 _ _ fun f _ => ?_
    exact ErrsAt.bind (nextKey_errs (hp.keep h4) h3 hl hu (hBK _ _ _ _ hbad))
  | colon hb h2 hu hi hq =>
    refine deMap_errs fun d hp hd => ?_
    obtain ⟨s1, l, h3, hl, h4, h5⟩ := readMap_upto (term := '}') (by simp) hb (hE h2) hp hd hu.1
    refine h5 _ _ fun f _ => ?_
    obtain ⟨v, s2, l', g1, g2, g3, g4⟩ := nextKey_runs (hp.keep h4) h3 hl hu (hIK _ _ _ hi)
    refine (nextValue_colon (seed := fv) g2 g3 (hIK _ _ _ hi).1 hq).keepB g4.src fun s' h => ?_
    rw [mapLoop]
    simp only [bind_apply, g1, h]
  | @value n ts es p k l0 l' u r vk e hb h2 hk hl0 hl' hu hbad =>
    refine deMap_errs fun d hp hd => ?_
    have hpl := place_tok (r := l0 ++ ':' :: (l' ++ u)) (hK _ _ _ hk).1 (c := '}') (by simp)
    obtain ⟨s1, l, h3, hl, h4, h5⟩ := readMap_upto (term := '}') (by simp) hb (hE h2) hp hd hpl.1
    refine h5 _ _ fun f _ => ?_
    obtain ⟨s2, b1, a1, a2, a3, a4⟩ := nextKey_ok (term := '}') (hp.keep h4) (by simp) (hK _ _ _ hk) h3 hl hl0
    refine (nextValue_errs ((hp.keep h4).keep a4) a2 a3 hl' hu (hBV _ _ _ _ hbad)).keepB a4.src fun s' h => ?_
    rw [mapLoop]
    simp only [bind_apply, a1, h]
  | @comma n ts es p k l0 l' u q vk hb h2 hk hl0 hl' hu hi hq =>
    refine deMap_errs fun d hp hd => ?_
    have hpl := place_tok (r := l0 ++ ':' :: (l' ++ u)) (hK _ _ _ hk).1 (c := '}') (by simp)
    obtain ⟨s1, l, h3, hl, h4, h5⟩ := readMap_upto (term := '}') (by simp) hb (hE h2) hp hd hpl.1
    refine h5 _ _ fun f hf => ?_
    obtain ⟨f, rfl⟩ : ∃ g, f = g + 1 := ⟨f - 1, by have := hf (by simp); omega⟩
    obtain ⟨s2, b1, a1, a2, a3, a4⟩ := nextKey_ok (term := '}') (hp.keep h4) (by simp) (hK _ _ _ hk) h3 hl hl0
    obtain ⟨v, s3, g1, g2, g3⟩ := nextValue_sep ((hp.keep h4).keep a4) a2 a3 hl' hu (hIV _ _ _ hi) hq
    obtain ⟨s4, j1, j2, j3⟩ := hasElement_sep g2 (hIV _ _ _ hi).1 hq
    refine ⟨s4, ?_, j2, j3.trans (g3.src.trans a4.src)⟩
    rw [mapLoop]
    simp only [bind_apply, a1, g1]
    rw [mapLoop]
    simp only [bind_apply, nextKey, j1]

/-! ### One value in parentheses -/

omit [Env] in
/-- What reading one value in parentheses comes to. -/
theorem badParens_steps {x : Exts} {seed : P SVal} {L : Nat → Text → SVal → Prop} {I : Nat → Text → Text → Prop} {B : Nat → Text → Err → Text → Prop} {close : Err}
    (hL : ∀ n t v, L n t v → Reads x n seed t v) (hI : ∀ n u q, I n u q → RunsAt x n seed u q) (hB : ∀ n u e r, B n u e r → ErrsD x n seed u e r)
    {n : Nat} {u r : Text} {e : Err} (h : BadParens L I B close n u e r) : ∃ w, u = '(' :: w ∧ ∀ d, Pre x n d → d.rest = w →
      ∃ s1, skipWs d = .ok () s1 ∧ KeepsD d s1 ∧ ((∃ s2, deGuardQ seed s1 = .err e s2 ∧ s2.rest = r ∧ s2.src = s1.src) ∨
        ∃ v s2 b s3, e = close ∧ deGuardQ seed s1 = .ok v s2 ∧ KeepsD s1 s2 ∧ comma s2 = .ok b s3 ∧ KeepsD s2 s3 ∧ s3.rest = r ∧ consumeChar ')' s3 = .ok false s3) := by
  cases h with
  | item ha hu hbad =>
    refine ⟨_, rfl, fun d hp hd => ?_⟩
    obtain ⟨s1, h1, h2, h3⟩ := skipWs_tok hd ha hu
    exact ⟨s1, h1, h3, .inl ((hB _ _ _ _ hbad).guardQ s1 (hp.keep h3) h2)⟩
  | close ha hu hi hq =>
    refine ⟨_, rfl, fun d hp hd => ?_⟩
    obtain ⟨s1, h1, h2, h3⟩ := skipWs_tok hd ha hu
    obtain ⟨v, s2, b, g1, g2, hb, g3⟩ := (hI _ _ _ hi).guardQ.2 s1 (hp.keep h3) h2
    obtain ⟨s3, c1, c2, c3⟩ := comma_none g2 hb (hI _ _ _ hi).1 (head_start hq.1)
    exact ⟨s1, h1, h3, .inr ⟨v, s2, _, s3, rfl, g1, g3, c1, c3.toD, c2, consumeChar_false (by rw [c2]; exact head_start hq.2)⟩⟩
  | @more n a t b c u v ha ht hb hc hu =>
    refine ⟨_, rfl, fun d hp hd => ?_⟩
    obtain ⟨s1, h1, h2, h3⟩ := skipWs_tok hd ha ((hL _ _ _ ht).1.noLayout _)
    obtain ⟨s2, b', g1, g2, hb', g3⟩ := (hL _ _ _ ht).guardQ.2 s1 b _ (hp.keep h3) h2 hb (stop_cons (by simp))
    obtain ⟨s3, c1, c2, c3⟩ := comma_some g2 hb' hc hu.1
    exact ⟨s1, h1, h3, .inr ⟨v, s2, _, s3, rfl, g1, g3, c1, c3.toD, c2, consumeChar_false (by rw [c2]; exact head_start hu.2)⟩⟩

omit [Env] in
theorem nv_same {s : St} {b : Bool} (h : s.nv = b) : { s with nv := b } = s := by rw [← h]

theorem badSome_errs {x : Exts} (hx : x.unwrapVariantNewtypes = false) {seed : P SVal} {vn : SVal} {L : Nat → Text → SVal → Prop} {I : Nat → Text → Text → Prop}
    {B : Nat → Text → Err → Text → Prop} (hL : ∀ n t v, L n t v → Reads x n seed t v) (hI : ∀ n u q, I n u q → RunsAt x n seed u q)
    (hB : ∀ n u e r, B n u e r → ErrsD x n seed u e r) {n : Nat} {l u r : Text} {e : Err} (hl : Layout l) (h : BadParens L I B .expectedOptionEnd n u e r) :
    ErrsD x n (deOption vn seed) (c!"Some" ++ (l ++ u)) e r := by
  intro d hp hd
  obtain ⟨w, rfl, hw⟩ := badParens_steps hL hI hB h
  have hfol : NoIdentStart (l ++ '(' :: w) := (layout_follow hl (parenOpen_follow _)).xid
  have h0 : consumeIdent c!"None" d = .ok false d :=
    consumeIdent_false (by rw [hd]; exact keyword_other (by simp [reservedNames]) (by simp [reservedNames]) hfol (by decide))
  have h1 := consumeIdent_true hd hfol
  obtain ⟨s1, g1, g2, g3⟩ := skipWs_tok (d := { d with prev := d.rest, rest := l ++ '(' :: w }) rfl hl (noLayout_paren _)
  have g4 := consumeChar_true g2
  have hk0 : KeepsD d { s1 with prev := s1.rest, rest := w } := ((KeepsD.step d _ _).trans g3).trans (KeepsD.step s1 _ _)
  obtain ⟨s2, k1, k2, k3⟩ := hw _ (hp.keep hk0) rfl
  have hp2 := (hp.keep hk0).keep k2
  have e2 : { s2 with nv := s2.exts.unwrapVariantNewtypes } = s2 := nv_same (by rw [hp2.nv, hp2.exts, hx])
  rcases k3 with ⟨s3, j1, j2, j3⟩ | ⟨v, s3, b, s4, rfl, j1, j2, j3, j4, j5, j6⟩
  · refine ⟨s3, ?_, j2, j3.trans (hk0.trans k2).src⟩
    unfold deOption
    simp only [bind_apply, h0, h1, ↓reduceIte, Bool.false_eq_true, g1, g4, k1, modSt_apply]
    rw [e2, j1]
  · refine ⟨s4, ?_, j5, ((hk0.trans k2).trans (j2.trans j4)).src⟩
    have e3 : { s3 with nv := false } = s3 := nv_same (j2.nv hp2.nv)
    unfold deOption
    simp only [bind_apply, h0, h1, ↓reduceIte, Bool.false_eq_true, g1, g4, k1, modSt_apply]
    rw [e2, j1]
    simp only [setNv_apply, e3, j3, j6, Bool.false_eq_true, ↓reduceIte, fail_apply]

theorem badNewtype_errs {x : Exts} (hu : x.unwrapNewtypes = false) {seed : P SVal} {name : Text} {L : Nat → Text → SVal → Prop} {I : Nat → Text → Text → Prop}
    {B : Nat → Text → Err → Text → Prop} (hL : ∀ n t v, L n t v → Reads x n seed t v) (hI : ∀ n u q, I n u q → RunsAt x n seed u q)
    (hB : ∀ n u e r, B n u e r → ErrsD x n seed u e r) {n : Nat} {p u r : Text} {e : Err} (hn : NamePre x name p)
    (h : BadParens L I B .expectedStructLikeEnd n u e r) : ErrsD x n (deNewtype name seed) (p ++ u) e r := by
  intro d hp hd
  obtain ⟨w, rfl, hw⟩ := badParens_steps hL hI hB h
  obtain ⟨b0, s0, h1, ⟨l, hl, h2⟩, h3⟩ := structKey_opt (d := d) (u := w) hn hp.exts hd
  obtain ⟨s1, g1, g2, g3⟩ := skipWs_tok h2 hl (noLayout_paren _)
  have g4 := consumeChar_true g2
  have hk0 : KeepsD d { s1 with prev := s1.rest, rest := w } := (h3.trans g3).trans (KeepsD.step s1 _ _)
  obtain ⟨s2, k1, k2, k3⟩ := hw _ (hp.keep hk0) rfl
  rcases k3 with ⟨s3, j1, j2, j3⟩ | ⟨v, s3, b, s4, rfl, j1, j2, j3, j4, j5, j6⟩
  · refine ⟨s3, ?_, j2, j3.trans (hk0.trans k2).src⟩
    unfold deNewtype
    simp only [bind_apply, getSt_apply, hp.exts, hu, hp.nv, Bool.or_self, Bool.false_eq_true, ↓reduceIte, h1, g1, g4, k1, j1]
  · refine ⟨s4, ?_, j5, ((hk0.trans k2).trans (j2.trans j4)).src⟩
    unfold deNewtype
    simp only [bind_apply, getSt_apply, hp.exts, hu, hp.nv, Bool.or_self, Bool.false_eq_true, ↓reduceIte, h1, g1, g4, k1, j1, j3, j6, fail_apply]

omit [Env] in
/-- The data of a newtype variant. -/
theorem badNewtypeVariant_errs {x : Exts} (hx : x.unwrapVariantNewtypes = false) {seed : P SVal} {id : Text} {L : Nat → Text → SVal → Prop} {I : Nat → Text → Text → Prop}
    {B : Nat → Text → Err → Text → Prop} (hL : ∀ n t v, L n t v → Reads x n (mapErr (structErrorName (some id)) seed) t v)
    (hI : ∀ n u q, I n u q → RunsAt x n (mapErr (structErrorName (some id)) seed) u q)
    (hB : ∀ n u e r, B n u e r → ErrsD x n (mapErr (structErrorName (some id)) seed) u e r) {n : Nat} {l u r : Text} {e : Err} (hl : Layout l)
    (h : BadParens L I B .expectedStructLikeEnd n u e r) {d : St} (hp : Pre x n d) (hd : d.rest = l ++ u) (hi : d.lastIdent = some id) :
    ErrsAt (newtypeVariant seed) d e r := by
  obtain ⟨w, rfl, hw⟩ := badParens_steps hL hI hB h
  obtain ⟨s1, g1, g2, g3⟩ := skipWs_tok hd hl (noLayout_paren _)
  have g4 := consumeChar_true g2
  have hk0 : KeepsD d { s1 with prev := s1.rest, rest := w } := g3.trans (KeepsD.step s1 _ _)
  obtain ⟨s2, k1, k2, k3⟩ := hw _ (hp.keep hk0) rfl
  have hp2 := (hp.keep hk0).keep k2
  have e2 : { s2 with nv := s2.exts.unwrapVariantNewtypes } = s2 := nv_same (by rw [hp2.nv, hp2.exts, hx])
  rcases k3 with ⟨s3, j1, j2, j3⟩ | ⟨v, s3, b, s4, rfl, j1, j2, j3, j4, j5, j6⟩
  · refine ⟨s3, ?_, j2, j3.trans (hk0.trans k2).src⟩
    unfold newtypeVariant
    simp only [bind_apply, getSt_apply, ↓reduceIte, Bool.false_eq_true, g1, g4, k1, modSt_apply, hi]
    rw [e2, j1]
  · refine ⟨s4, ?_, j5, ((hk0.trans k2).trans (j2.trans j4)).src⟩
    have e3 : { s3 with nv := false } = s3 := nv_same (j2.nv hp2.nv)
    unfold newtypeVariant
    simp only [bind_apply, getSt_apply, ↓reduceIte, Bool.false_eq_true, g1, g4, k1, modSt_apply, hi]
    rw [e2, j1]
    simp only [setNv_apply, e3, j3, j6, Bool.false_eq_true, ↓reduceIte, fail_apply]

end Ron
