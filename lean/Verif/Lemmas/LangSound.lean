import Verif.Lemmas.LangX
import Verif.Lemmas.WsTrack
/-!
# The untyped reader accepts nothing but the language

What is read as a value is a text of `LangX`, followed by what the reader leaves and perhaps layout.
-/

namespace Ron

/-- A state between two tokens, with the extensions `x` and the recursion limit `L`. -/
structure Spot (x : Exts) (L : Option Nat) (s : St) : Prop where
  inside : s.Inside
  tracked : Tracked s
  nv : s.nv = false
  exts : s.exts = x
  limit : s.limit = L

variable [Env]

/-- `u` stood behind the text `t` of a value.  It is what is left; or `t` is a name (or, with `implicit_some`, perhaps `Some` and a name),
and layout behind it, perhaps with a comment that is never ended, has been skipped. -/
def Behind (i : Bool) (t u : Text) (s : St) : Prop :=
  (u = s.rest ∧ Moved s) ∨ ((i = true ∨ ∃ n, NameTok n t) ∧ s.preWs = u ∧
    ((∃ l k, Layout l ∧ u = l ++ s.rest ∧ s.lastWs = some k ∧ u.length ≤ s.rest.length + k) ∨
      (s.rest = [] ∧ s.lastWs = none ∧ ∃ l o, Layout l ∧ OpenLine o ∧ u = l ++ o)))

/-- What `f` reads, where there is no layout, is related by `R` to the text it has taken. -/
def Snd {α : Type} (x : Exts) (L : Option Nat) (f : P α) (R : Text → α → Prop) : Prop :=
  ∀ s a s', Spot x L s → NoLayoutStart s.rest → f s = .ok a s' → Spot x L s' ∧ s'.rest <:+ s.rest ∧
    (Ends s'.rest → ∃ t u, s.rest = t ++ u ∧ Behind x.implicitSome t u s' ∧ R t a)

omit [Env] in
theorem skipWs_noLayout {s s' : St} (h : skipWs s = .ok () s') : NoLayoutStart s'.rest := by
  obtain ⟨-, ⟨l, -, -, h⟩ | ⟨h, -⟩⟩ := skipWs_inv h
  · exact h
  · rw [h]; intro c r e; cases e

omit [Env] in
theorem strLit_ne {t v : Text} (h : StrLit t v) : t ≠ [] := by
  rintro rfl
  have := h.form []
  simp at this

omit [Env] in
theorem bytesLit_ne {t : Text} {v : List UInt8} (h : BytesLit t v) : t ≠ [] := by
  rintro rfl
  have := h.form []
  simp at this

omit [Env] in
theorem charLit_ne {t : Text} {c : Char} (h : CharLit t c) : t ≠ [] := by
  obtain ⟨u, rfl⟩ := h.form
  simp

theorem keyTok_ne {n t : Text} (h : KeyTok n t) : t ≠ [] := by
  rcases h with ⟨hn, rfl | ⟨rfl, -⟩⟩
  · simp
  · exact hn.1

omit [Env] in
theorem reserved_ne {w : Text} (h : w ∈ reservedNames) : w ≠ [] := by
  rintro rfl
  revert h
  decide

theorem Snd.imp {α : Type} {x : Exts} {L : Option Nat} {f : P α} {R R' : Text → α → Prop} (h : Snd x L f R) (hr : ∀ t a, R t a → R' t a) :
    Snd x L f R' := fun s a s' hc hn e => by
  obtain ⟨h1, h2, h3⟩ := h s a s' hc hn e
  refine ⟨h1, h2, fun he => ?_⟩
  obtain ⟨t, u, g1, g2, g3⟩ := h3 he
  exact ⟨t, u, g1, g2, hr _ _ g3⟩

theorem Sf.spot {α : Type} {f : P α} {x : Exts} {L : Option Nat} {s s' : St} {a : α} (h : Sf f) (hc : Spot x L s) (e : f s = .ok a s') :
    Spot x L s' ∧ s'.rest <:+ s.rest := by
  have := h.safe.from hc.inside e
  exact ⟨⟨this.inside, h.tr hc.inside hc.tracked e, this.nv.trans hc.nv, this.exts.trans hc.exts, this.limit.trans hc.limit⟩, this.rest⟩

/-- One level less. -/
def lower (L : Option Nat) : Option Nat := L.map (· - 1)

theorem lower_up {L : Option Nat} (h : L ≠ some 0) : (lower L).map (· + 1) = L := by
  cases L with
  | none => rfl
  | some n => cases n with
    | zero => exact absurd rfl h
    | succ n => rfl

theorem Snd.guardQ {α : Type} {x : Exts} {L : Option Nat} {f : P α} {R : Text → α → Prop} (h : Snd x (lower L) f R) :
    Snd x L (deGuardQ f) (fun t a => L ≠ some 0 ∧ R t a) := fun s a s' hc hn e => by
  unfold deGuardQ at e
  rw [hc.limit] at e
  have hL : L ≠ some 0 := by rintro rfl; cases e
  have e : (match f { s with limit := L.map (· - 1) } with
    | .ok a s' => .ok a { s' with limit := s'.limit.map (· + 1) }
    | .err e s' => .err e s' : Res α) = .ok a s' := by
    revert e
    split
    · intro e; cases e
    · exact id
  generalize hf : f { s with limit := L.map (· - 1) } = r at e
  cases r with
  | err _ _ => cases e
  | ok b t =>
    cases e
    obtain ⟨h1, h2, h3⟩ := h { s with limit := lower L } _ _ ⟨⟨hc.inside.rest, hc.inside.prev, hc.inside.preWs⟩, hc.tracked, hc.nv, hc.exts, rfl⟩ hn hf
    refine ⟨⟨⟨h1.inside.rest, h1.inside.prev, h1.inside.preWs⟩, h1.tracked, h1.nv, h1.exts, by simp only [h1.limit, lower_up hL]⟩, h2, fun he => ?_⟩
    obtain ⟨t', u, g1, g2, g3⟩ := h3 he
    exact ⟨t', u, g1, g2, hL, g3⟩

theorem guardR_iff {α : Type} {f : P α} {s s' : St} {a : α} : deGuardR f s = .ok a s' ↔ deGuardQ f s = .ok a s' := by
  unfold deGuardR deGuardQ
  split
  · simp
  · split <;> simp

theorem Snd.guardR {α : Type} {x : Exts} {L : Option Nat} {f : P α} {R : Text → α → Prop} (h : Snd x (lower L) f R) :
    Snd x L (deGuardR f) (fun t a => L ≠ some 0 ∧ R t a) := fun s a s' hc hn e => h.guardQ s a s' hc hn (guardR_iff.mp e)

/-- Before something, there is only layout. -/
theorem Behind.ne {i : Bool} {t u : Text} {s : St} (h : Behind i t u s) (hne : s.rest ≠ []) : ∃ l, Layout l ∧ u = l ++ s.rest := by
  rcases h with ⟨h, -⟩ | ⟨-, -, ⟨l, -, h1, h2, -⟩ | ⟨h, -⟩⟩
  · exact ⟨[], .nil, h⟩
  · exact ⟨l, h1, h2⟩
  · exact absurd h hne

theorem ends_stop {c : Char} {l r t : Text} (hl : Layout l) (hc : c ∈ [',', ')', ']', '}', ':']) (e : t = l ++ c :: r) : Ends t := by
  rw [e]; exact ends_follow hl (.inr ⟨c, r, rfl, hc⟩)

/-! ### Items -/

theorem nextElement_snd {α : Type} {f : P α} {x : Exts} {L : Option Nat} {R : Text → α → Prop} (hf : Snd x L (deGuardQ f) R) {term : Char}
    {had : Bool} {s s' : St} {r : Option (α × Bool)} (hc : Spot x L s) (h : nextElement term had f s = .ok r s') :
    Spot x L s' ∧ s'.rest <:+ s.rest ∧ ((r = none ∧ ∃ l u, s.rest = l ++ s'.rest ∧ Layout l ∧ s'.rest = term :: u) ∨
    (had = true ∧ ∃ a, (r = some (a, false) ∧ ∀ w u, s'.rest = w ++ term :: u → Layout w → term ∈ [',', ')', ']', '}', ':'] →
        ∃ l t b, Layout l ∧ R t a ∧ Layout b ∧ s.rest = l ++ (t ++ (b ++ s'.rest))) ∨
      (r = some (a, true) ∧ (s'.rest ≠ [] → 
        ∃ l t b c, Layout l ∧ R t a ∧ Layout b ∧ Layout c ∧ s.rest = l ++ (t ++ (b ++ ',' :: (c ++ s'.rest))))))) := by
  unfold nextElement at h
  replace h := bind_ok h; obtain ⟨b, s1, h1, h⟩ := h
  obtain ⟨s1', w1, rfl, e1, e2⟩ := hasElement_inv h1
  obtain ⟨c1, x1⟩ := Sf.skipWs.spot hc w1
  rcases ite_inv h with ⟨hb, h⟩ | ⟨hb, h⟩
  · replace h := bind_ok h; obtain ⟨a, s2, h2, h⟩ := h
    replace h := bind_ok h; obtain ⟨had', s3, h3, h⟩ := h
    cases h
    obtain ⟨c2, x2, rd⟩ := hf _ _ _ c1 (skipWs_noLayout w1) h2
    obtain ⟨c3, x3⟩ := Sf.comma.spot c2 h3
    refine ⟨c3, x3.trans (x2.trans x1), .inr ⟨e2 hb, a, ?_⟩⟩
    cases had' with
    | false =>
      refine .inl ⟨rfl, fun w u e hw ht => ?_⟩
      have hne : s'.rest ≠ [] := by rw [e]; simp
      rcases comma_sound h3 hne with ⟨-, b', hb', hb''⟩ | ⟨h, -⟩
      · have he : Ends s2.rest := ends_stop (r := u) (hb''.append hw) ht (by rw [hb', e]; simp)
        obtain ⟨t, v, g1, g2, g3⟩ := rd he
        obtain ⟨m, hm, rfl⟩ := g2.ne (suffix_ne x3 hne)
        obtain ⟨-, l, hl, hl', -⟩ := skipWs_inv_ne w1 (suffix_ne x2 (suffix_ne x3 hne))
        exact ⟨l, t, m ++ b', hl', g3, hm.append hb'', by rw [hl, g1, hb']; simp⟩
      · cases h
    | true =>
      refine .inr ⟨rfl, fun hne => ?_⟩
      rcases comma_sound h3 hne with ⟨h, -⟩ | ⟨-, b', c', hb', hb'', hc'⟩
      · cases h
      · have he : Ends s2.rest := ends_stop hb'' (by simp) hb'
        obtain ⟨t, v, g1, g2, g3⟩ := rd he
        obtain ⟨m, hm, rfl⟩ := g2.ne (suffix_ne x3 hne)
        obtain ⟨-, l, hl, hl', -⟩ := skipWs_inv_ne w1 (suffix_ne x2 (suffix_ne x3 hne))
        exact ⟨l, t, m ++ b', c', hl', g3, hm.append hb'', hc', by rw [hl, g1, hb']; simp⟩
  · cases h
    obtain ⟨u, hu⟩ := e1 (by simpa using hb)
    obtain ⟨-, l, hl, hl', -⟩ := skipWs_inv_ne w1 (by rw [hu]; simp)
    exact ⟨c1, x1, .inl ⟨rfl, l, u, hl, hl', hu⟩⟩

theorem seqLoop_snd {α : Type} {f : P α} {x : Exts} {L : Option Nat} {R : Text → α → Prop} (hf : Snd x L (deGuardQ f) R) {term : Char}
    (ht : term ∈ [',', ')', ']', '}', ':']) (n : Nat) : ∀ {had : Bool} {s s' : St} {as : List α}, Spot x L s →
    seqLoop term f n had s = .ok as s' →
    Spot x L s' ∧ ∃ w u, s.rest = w ++ s'.rest ∧ s'.rest = term :: u ∧ Items R as w ∧ (had = false → as = [] ∧ Layout w) := by
  induction n with
  | zero => intro had s s' as _ h; cases h
  | succ n ih =>
    intro had s s' as hc h
    unfold seqLoop at h
    replace h := bind_ok h; obtain ⟨r, s1, h1, h⟩ := h
    obtain ⟨c1, x1, ⟨rfl, l, v, hl, hl', hv⟩ | ⟨hh, a, ⟨rfl, hr⟩ | ⟨rfl, hr⟩⟩⟩ := nextElement_snd hf hc h1
    · cases h
      exact ⟨c1, l, v, hl, hv, .nil hl', fun _ => ⟨rfl, hl'⟩⟩
    · replace h := bind_ok h; obtain ⟨as', s2, h2, h⟩ := h
      cases h
      obtain ⟨c2, w, u, e1, e2, it, ef⟩ := ih c1 h2
      obtain ⟨rfl, hw⟩ := ef rfl
      obtain ⟨l, t, b, hl, rd, hb, hr⟩ := hr w u (by rw [e1, e2]) hw ht
      exact ⟨c2, l ++ (t ++ (b ++ w)), u, by rw [hr, e1]; simp, e2, .last hl rd (.plain (hb.append hw)), by simp [hh]⟩
    · replace h := bind_ok h; obtain ⟨as', s2, h2, h⟩ := h
      cases h
      obtain ⟨c2, w, u, e1, e2, it, ef⟩ := ih c1 h2
      obtain ⟨l, t, b, c, hl, rd, hb, hc', hr⟩ := hr (by rw [e1, e2]; simp)
      exact ⟨c2, l ++ (t ++ (b ++ ',' :: (c ++ w))), u, by rw [hr, e1]; simp, e2, .cons hl rd hb hc' it, by simp [hh]⟩

theorem readSeq_snd {α : Type} {f : P α} {x : Exts} {L : Option Nat} {R : Text → α → Prop} (hf : Snd x L (deGuardQ f) R) {term : Char}
    (ht : term ∈ [',', ')', ']', '}', ':']) {s s' : St} {as : List α} (hc : Spot x L s) (h : readSeq term f s = .ok as s') :
    Spot x L s' ∧ ∃ w u, s.rest = w ++ s'.rest ∧ s'.rest = term :: u ∧ Items R as w := by
  unfold readSeq at h
  rw [getSt_bind] at h
  obtain ⟨c, w, u, h1, h2, h3, -⟩ := seqLoop_snd hf ht _ hc h
  exact ⟨c, w, u, h1, h2, h3⟩

/-! ### Entries -/

/-- An entry with key and value. -/
def EntryR {κ ν : Type} (K : Text → κ → Prop) (V : Text → ν → Prop) (t : Text) (e : κ × ν) : Prop :=
  ∃ k v, K k e.1 ∧ V v e.2 ∧ Entry k v t

theorem nextKey_snd {α : Type} {f : P α} {x : Exts} {L : Option Nat} {R : Text → α → Prop} (hf : Snd x L (deGuardR f) R) {term : Char}
    {had : Bool} {s s' : St} {r : Option α} (hc : Spot x L s) (h : nextKey term had f s = .ok r s') :
    Spot x L s' ∧ ((r = none ∧ ∃ l u, s.rest = l ++ s'.rest ∧ Layout l ∧ s'.rest = term :: u) ∨
    (had = true ∧ ∃ a, r = some a ∧ ∀ w u, s'.rest = w ++ ':' :: u → Layout w → 
        ∃ l t b, Layout l ∧ R t a ∧ Layout b ∧ s.rest = l ++ (t ++ (b ++ s'.rest)))) := by
  unfold nextKey at h
  replace h := bind_ok h; obtain ⟨b, s1, h1, h⟩ := h
  obtain ⟨s1', w1, rfl, e1, e2⟩ := hasElement_inv h1
  obtain ⟨c1, x1⟩ := Sf.skipWs.spot hc w1
  rcases ite_inv h with ⟨hb, h⟩ | ⟨hb, h⟩
  · replace h := bind_ok h; obtain ⟨a, s2, h2, h⟩ := h
    cases h
    obtain ⟨c2, x2, rd⟩ := hf _ _ _ c1 (skipWs_noLayout w1) h2
    refine ⟨c2, .inr ⟨e2 hb, a, rfl, fun w u e hw => ?_⟩⟩
    have hne : s'.rest ≠ [] := by rw [e]; simp
    obtain ⟨t, v, g1, g2, g3⟩ := rd (ends_stop hw (by simp) e)
    obtain ⟨m, hm, rfl⟩ := g2.ne hne
    obtain ⟨-, l, hl, hl', -⟩ := skipWs_inv_ne w1 (suffix_ne x2 hne)
    exact ⟨l, t, m, hl', g3, hm, by rw [hl, g1]⟩
  · cases h
    obtain ⟨u, hu⟩ := e1 (by simpa using hb)
    obtain ⟨-, l, hl, hl', -⟩ := skipWs_inv_ne w1 (by rw [hu]; simp)
    exact ⟨c1, .inl ⟨rfl, l, u, hl, hl', hu⟩⟩

theorem nextValue_snd {α : Type} {f : P α} {x : Exts} {L : Option Nat} {R : Text → α → Prop} (hf : Snd x L (deGuardQ f) R)
    {s s' : St} {a : α} {had : Bool} (hc : Spot x L s) (h : nextValue f s = .ok (a, had) s') :
    Spot x L s' ∧ (∃ l r, s.rest = l ++ ':' :: r ∧ Layout l ∧ 
      ((had = false ∧ ∀ w u c, s'.rest = w ++ c :: u → Layout w → c ∈ [',', ')', ']', '}', ':'] →
        ∃ l' t b, Layout l' ∧ R t a ∧ Layout b ∧ r = l' ++ (t ++ (b ++ s'.rest))) ∨
      (had = true ∧ (s'.rest ≠ [] → 
        ∃ l' t b c, Layout l' ∧ R t a ∧ Layout b ∧ Layout c ∧ r = l' ++ (t ++ (b ++ ',' :: (c ++ s'.rest))))))) := by
  unfold nextValue at h
  replace h := bind_ok h; obtain ⟨_, s1, w1, h⟩ := h
  obtain ⟨c1, x1⟩ := Sf.skipWs.spot hc w1
  replace h := bind_ok h; obtain ⟨b, s2, h2, h⟩ := h
  rcases consumeChar_inv h2 with ⟨rfl, hr, he⟩ | ⟨rfl, -, -⟩
  · replace h := if_tt h
    obtain ⟨c2, x2⟩ := (Sf.consumeChar ':').spot c1 h2
    replace h := bind_ok h; obtain ⟨_, s3, w3, h⟩ := h
    obtain ⟨c3, x3⟩ := Sf.skipWs.spot c2 w3
    replace h := bind_ok h; obtain ⟨v, s4, h4, h⟩ := h
    obtain ⟨c4, x4, rd⟩ := hf _ _ _ c3 (skipWs_noLayout w3) h4
    replace h := bind_ok h; obtain ⟨hd, s5, h5, h⟩ := h
    obtain ⟨c5, x5⟩ := Sf.comma.spot c4 h5
    cases h
    obtain ⟨-, l, hl, hl', -⟩ := skipWs_inv_ne w1 (by rw [hr]; simp)
    refine ⟨c5, l, s2.rest, by rw [hl, hr], hl', ?_⟩
    cases had with
    | false =>
      refine .inl ⟨rfl, fun w u c e hw ht => ?_⟩
      have hne : s'.rest ≠ [] := by rw [e]; simp
      rcases comma_sound h5 hne with ⟨-, b', hb', hb''⟩ | ⟨h, -⟩
      · have he : Ends s4.rest := ends_stop (r := u) (hb''.append hw) ht (by rw [hb', e]; simp)
        obtain ⟨t, v, g1, g2, g3⟩ := rd he
        obtain ⟨m, hm, rfl⟩ := g2.ne (suffix_ne x5 hne)
        obtain ⟨-, l, hl, hl', -⟩ := skipWs_inv_ne w3 (suffix_ne x4 (suffix_ne x5 hne))
        exact ⟨l, t, m ++ b', hl', g3, hm.append hb'', by rw [hl, g1, hb']; simp⟩
      · cases h
    | true =>
      refine .inr ⟨rfl, fun hne => ?_⟩
      rcases comma_sound h5 hne with ⟨h, -⟩ | ⟨-, b', c', hb', hb'', hc'⟩
      · cases h
      · have he : Ends s4.rest := ends_stop hb'' (by simp) hb'
        obtain ⟨t, v, g1, g2, g3⟩ := rd he
        obtain ⟨m, hm, rfl⟩ := g2.ne (suffix_ne x5 hne)
        obtain ⟨-, l, hl, hl', -⟩ := skipWs_inv_ne w3 (suffix_ne x4 (suffix_ne x5 hne))
        exact ⟨l, t, m ++ b', c', hl', g3, hm.append hb'', hc', by rw [hl, g1, hb']; simp⟩
  · replace h := if_ff h
    cases h

theorem mapLoop_snd {κ ν : Type} {fk : P κ} {fv : P ν} {x : Exts} {L : Option Nat} {K : Text → κ → Prop} {V : Text → ν → Prop}
    (hk : Snd x L (deGuardR fk) K) (hv : Snd x L (deGuardQ fv) V) {term : Char} (ht : term ∈ [',', ')', ']', '}', ':']) (n : Nat) :
    ∀ {had : Bool} {s s' : St} {as : List (κ × ν)}, Spot x L s → mapLoop term fk fv n had s = .ok as s' →
    Spot x L s' ∧ ∃ w u, s.rest = w ++ s'.rest ∧ s'.rest = term :: u ∧ Items (EntryR K V) as w ∧ (had = false → as = [] ∧ Layout w) := by
  induction n with
  | zero => intro had s s' as _ h; cases h
  | succ n ih =>
    intro had s s' as hc h
    unfold mapLoop at h
    replace h := bind_ok h; obtain ⟨r, s1, h1, h⟩ := h
    obtain ⟨c1, ⟨rfl, l, v, hl, hl', hv'⟩ | ⟨hh, k, rfl, hr⟩⟩ := nextKey_snd hk hc h1
    · cases h
      exact ⟨c1, l, v, hl, hv', .nil hl', fun _ => ⟨rfl, hl'⟩⟩
    · replace h := bind_ok h; obtain ⟨⟨v, had'⟩, s2, h2, h⟩ := h
      obtain ⟨c2, m, r, hm, hm', hv2⟩ := nextValue_snd hv c1 h2
      replace h := bind_ok h; obtain ⟨es, s3, h3, h⟩ := h
      cases h
      obtain ⟨c3, w, u, e1, e2, it, ef⟩ := ih c2 h3
      obtain ⟨l, tk, b, hl, kk, hb, hr⟩ := hr m r hm hm'
      rcases hv2 with ⟨rfl, hv2⟩ | ⟨rfl, hv2⟩
      · obtain ⟨rfl, hw⟩ := ef rfl
        obtain ⟨l', tv, b', hl', vv, hb', hr2⟩ := hv2 w u term (by rw [e1, e2]) hw ht
        have hR : EntryR K V (tk ++ ((b ++ m) ++ ':' :: (l' ++ tv))) (k, v) := ⟨tk, tv, kk, vv, .mk (hb.append hm') hl'⟩
        refine ⟨c3, _, u, ?_, e2, .last hl hR (.plain (hb'.append hw)), by simp [hh]⟩
        rw [hr, hm, hr2, e1]; simp
      · obtain ⟨l', tv, b', c', hl', vv, hb', hc', hr2⟩ := hv2 (by rw [e1, e2]; simp)
        have hR : EntryR K V (tk ++ ((b ++ m) ++ ':' :: (l' ++ tv))) (k, v) := ⟨tk, tv, kk, vv, .mk (hb.append hm') hl'⟩
        refine ⟨c3, _, u, ?_, e2, .cons hl hR hb' hc' it, by simp [hh]⟩
        rw [hr, hm, hr2, e1]; simp

theorem readMap_snd {κ ν : Type} {fk : P κ} {fv : P ν} {x : Exts} {L : Option Nat} {K : Text → κ → Prop} {V : Text → ν → Prop}
    (hk : Snd x L (deGuardR fk) K) (hv : Snd x L (deGuardQ fv) V) {term : Char} (ht : term ∈ [',', ')', ']', '}', ':'])
    {s s' : St} {as : List (κ × ν)} (hc : Spot x L s) (h : readMap term fk fv s = .ok as s') :
    Spot x L s' ∧ ∃ w u, s.rest = w ++ s'.rest ∧ s'.rest = term :: u ∧ Items (EntryR K V) as w := by
  unfold readMap at h
  rw [getSt_bind] at h
  obtain ⟨c, w, u, h1, h2, h3, -⟩ := mapLoop_snd hk hv ht _ hc h
  exact ⟨c, w, u, h1, h2, h3⟩

/-! ### Delimiters -/

/-- What `visit` reads in front of `c` is related by `Q` to the text before `c`. -/
def Vis {α : Type} (x : Exts) (L : Option Nat) (c : Char) (visit : P α) (Q : Text → α → Prop) : Prop :=
  ∀ s a s', Spot x L s → visit s = .ok a s' → Spot x L s' ∧ ∃ w u, s.rest = w ++ s'.rest ∧ s'.rest = c :: u ∧ Q w a

theorem guardQ_vis {α : Type} {x : Exts} {L : Option Nat} {c : Char} {visit : P α} {Q : Text → α → Prop} (h : Vis x (lower L) c visit Q)
    {s s' : St} {a : α} (hc : Spot x L s) (e : deGuardQ visit s = .ok a s') :
    L ≠ some 0 ∧ Spot x L s' ∧ ∃ w u, s.rest = w ++ s'.rest ∧ s'.rest = c :: u ∧ Q w a := by
  unfold deGuardQ at e
  rw [hc.limit] at e
  have hL : L ≠ some 0 := by rintro rfl; cases e
  have e : (match visit { s with limit := L.map (· - 1) } with
    | .ok a s' => .ok a { s' with limit := s'.limit.map (· + 1) }
    | .err e s' => .err e s' : Res α) = .ok a s' := by
    revert e
    split
    · intro e; cases e
    · exact id
  generalize hf : visit { s with limit := L.map (· - 1) } = r at e
  cases r with
  | err _ _ => cases e
  | ok b t =>
    cases e
    obtain ⟨h1, h2⟩ := h { s with limit := lower L } _ _ ⟨⟨hc.inside.rest, hc.inside.prev, hc.inside.preWs⟩, hc.tracked, hc.nv, hc.exts, rfl⟩ hf
    exact ⟨hL, ⟨⟨h1.inside.rest, h1.inside.prev, h1.inside.preWs⟩, h1.tracked, h1.nv, h1.exts, by simp only [h1.limit, lower_up hL]⟩, h2⟩

/-- `skip_ws; consume_char(c)` in front of `c`. -/
theorem close_spot {α : Type} {c : Char} (hc : c ∉ ronWhitespace ∧ c ≠ '/') {v : α} {e : Err} {x : Exts} {L : Option Nat} {s s' : St} {a : α} {u : Text}
    (hs : Spot x L s) (hu : s.rest = c :: u) (h : (do skipWs; if ← consumeChar c then pure v else fail e : P α) s = .ok a s') :
    (Spot x L s' ∧ Moved s') ∧ a = v ∧ s.rest = c :: s'.rest := by
  obtain ⟨h1, h2⟩ := close_sound hc hu h
  refine ⟨?_, h1, h2⟩
  replace h := bind_ok h; obtain ⟨_, s3, h3, h⟩ := h
  replace h := bind_ok h; obtain ⟨b, s4, h4, h⟩ := h
  obtain ⟨c3, -⟩ := Sf.skipWs.spot hs h3
  have c4 := ((Sf.consumeChar c).spot c3 h4).1
  rcases consumeChar_inv h4 with ⟨rfl, hr, -⟩ | ⟨rfl, -, -⟩
  · replace h := if_tt h
    cases h
    exact ⟨c4, Kw.moved (fun _ _ => Kw.consumeChar c) c3.tracked h4 (by rw [hr]; simp)⟩
  · replace h := if_ff h
    cases h

theorem deSeq_snd {α : Type} {x : Exts} {L : Option Nat} {visit : P α} {Q : Text → α → Prop} (hv : Vis x (lower L) ']' visit Q)
    {s s' : St} {a : α} (hc : Spot x L s) (h : deSeq visit s = .ok a s') :
    L ≠ some 0 ∧ (Spot x L s' ∧ Moved s') ∧ ∃ w, s.rest = '[' :: (w ++ ']' :: s'.rest) ∧ Q w a := by
  unfold deSeq at h
  rw [bind_apply, setNv_apply] at h
  simp only at h
  replace h := bind_ok h; obtain ⟨b, s1, h1, h⟩ := h
  have c0 : Spot x L { s with nv := false } := ⟨⟨hc.inside.rest, hc.inside.prev, hc.inside.preWs⟩, hc.tracked, rfl, hc.exts, hc.limit⟩
  obtain ⟨c1, x1⟩ := (Sf.consumeChar '[').spot c0 h1
  rcases consumeChar_inv h1 with ⟨rfl, hr, he⟩ | ⟨rfl, -, -⟩
  · replace h := if_tt h
    replace h := bind_ok h; obtain ⟨a', s2, h2, h⟩ := h
    obtain ⟨hL, c2, w, u, e1, e2, q⟩ := guardQ_vis hv c1 h2
    obtain ⟨c3, rfl, hr3⟩ := close_spot (by decide) c2 e2 h
    exact ⟨hL, c3, w, by rw [show s.rest = '[' :: s1.rest from hr, e1, hr3], q⟩
  · replace h := if_ff h
    cases h

theorem deMap_snd {α : Type} {x : Exts} {L : Option Nat} {visit : P α} {Q : Text → α → Prop} (hv : Vis x (lower L) '}' visit Q)
    {s s' : St} {a : α} (hc : Spot x L s) (h : deMap visit s = .ok a s') :
    L ≠ some 0 ∧ (Spot x L s' ∧ Moved s') ∧ ∃ w, s.rest = '{' :: (w ++ '}' :: s'.rest) ∧ Q w a := by
  unfold deMap at h
  rw [bind_apply, setNv_apply] at h
  simp only at h
  replace h := bind_ok h; obtain ⟨b, s1, h1, h⟩ := h
  have c0 : Spot x L { s with nv := false } := ⟨⟨hc.inside.rest, hc.inside.prev, hc.inside.preWs⟩, hc.tracked, rfl, hc.exts, hc.limit⟩
  obtain ⟨c1, x1⟩ := (Sf.consumeChar '{').spot c0 h1
  rcases consumeChar_inv h1 with ⟨rfl, hr, he⟩ | ⟨rfl, -, -⟩
  · replace h := if_tt h
    replace h := bind_ok h; obtain ⟨a', s2, h2, h⟩ := h
    obtain ⟨hL, c2, w, u, e1, e2, q⟩ := guardQ_vis hv c1 h2
    obtain ⟨c3, rfl, hr3⟩ := close_spot (by decide) c2 e2 h
    exact ⟨hL, c3, w, by rw [show s.rest = '{' :: s1.rest from hr, e1, hr3], q⟩
  · replace h := if_ff h
    cases h

theorem deTuple_snd {α : Type} {x : Exts} {L : Option Nat} {visit : P α} {Q : Text → α → Prop} (hv : Vis x (lower L) ')' visit Q)
    {s s' : St} {a : α} (hc : Spot x L s) (h : deTuple visit s = .ok a s') :
    L ≠ some 0 ∧ (Spot x L s' ∧ Moved s') ∧ ∃ w, s.rest = '(' :: (w ++ ')' :: s'.rest) ∧ Q w a := by
  unfold deTuple at h
  rw [getSt_bind] at h
  simp only [hc.nv, Bool.false_eq_true, ↓reduceIte] at h
  replace h := bind_ok h; obtain ⟨b, s1, h1, h⟩ := h
  obtain ⟨c1, x1⟩ := (Sf.consumeChar '(').spot hc h1
  rcases consumeChar_inv h1 with ⟨rfl, hr, he⟩ | ⟨rfl, -, -⟩
  · replace h := if_tt h
    rw [bind_apply, setNv_apply] at h
    simp only at h
    replace h := bind_ok h; obtain ⟨a', s2, h2, h⟩ := h
    have c1' : Spot x L { s1 with nv := false } := ⟨⟨c1.inside.rest, c1.inside.prev, c1.inside.preWs⟩, c1.tracked, rfl, c1.exts, c1.limit⟩
    obtain ⟨hL, c2, w, u, e1, e2, q⟩ := guardQ_vis hv c1' h2
    obtain ⟨c3, rfl, hr3⟩ := close_spot (by decide) c2 e2 h
    exact ⟨hL, c3, w, by rw [hr, show s1.rest = w ++ s2.rest from e1, hr3], q⟩
  · replace h := if_ff h
    cases h

theorem mapErr_vis {α : Type} {x : Exts} {L : Option Nat} {c : Char} {visit : P α} {Q : Text → α → Prop} (h : Vis x L c visit Q) (g : Err → Err) :
    Vis x L c (mapErr g visit) Q := fun s a s' hc e => h s a s' hc (mapErr_inv e)

theorem structAfterName_snd {α : Type} {x : Exts} {L : Option Nat} {visit : P α} {Q : Text → α → Prop} (hv : Vis x (lower L) ')' visit Q)
    {name : Text} {s s' : St} {a : α} (hc : Spot x L s) (h : structAfterName name visit s = .ok a s') :
    L ≠ some 0 ∧ (Spot x L s' ∧ Moved s') ∧ ∃ w, s.rest = '(' :: (w ++ ')' :: s'.rest) ∧ Q w a := by
  unfold structAfterName at h
  rw [getSt_bind] at h
  simp only [hc.nv, Bool.false_eq_true, ↓reduceIte] at h
  replace h := bind_ok h; obtain ⟨b, s1, h1, h⟩ := h
  obtain ⟨c1, x1⟩ := (Sf.consumeChar '(').spot hc h1
  rcases consumeChar_inv h1 with ⟨rfl, hr, he⟩ | ⟨rfl, -, -⟩
  · replace h := if_tt h
    rw [bind_apply, setNv_apply] at h
    simp only at h
    replace h := bind_ok h; obtain ⟨a', s2, h2, h⟩ := h
    have c1' : Spot x L { s1 with nv := false } := ⟨⟨c1.inside.rest, c1.inside.prev, c1.inside.preWs⟩, c1.tracked, rfl, c1.exts, c1.limit⟩
    obtain ⟨hL, c2, w, u, e1, e2, q⟩ := guardQ_vis (mapErr_vis hv _) c1' h2
    obtain ⟨c3, rfl, hr3⟩ := close_spot (by decide) c2 e2 h
    exact ⟨hL, c3, w, by rw [hr, show s1.rest = w ++ s2.rest from e1, hr3], q⟩
  · replace h := if_ff h
    rcases ite_inv h with ⟨-, h⟩ | ⟨-, h⟩ <;> cases h

/-! ### Names -/

theorem whileLen_take {f : Char → Bool} (t : Text) : ∀ c ∈ t.take (whileLen f t), f c = true := by
  rw [take_whileLen]
  intro c hc
  induction t with
  | nil => simp at hc
  | cons d t ih =>
    rw [List.takeWhile_cons] at hc
    cases hd : f d with
    | true =>
      rw [hd] at hc
      simp only [↓reduceIte, List.mem_cons] at hc
      rcases hc with rfl | hc
      · exact hd
      · exact ih hc
    | false => rw [hd] at hc; simp at hc

theorem whileLen_drop {f : Char → Bool} (t : Text) {c : Char} {r : Text} (h : t.drop (whileLen f t) = c :: r) : f c = false := by
  rw [drop_whileLen] at h
  have := List.head?_dropWhile_not f t
  rw [h] at this
  simpa using this

/-- What `skip_identifier` takes. -/
theorem skipIdentifier_sound {s s' : St} {n : Text} (h : skipIdentifier s = .ok (some n) s') :
    ∃ tok, s.rest = tok ++ s'.rest ∧ KeyTok n tok ∧ (tok = n → NoIdentStart s'.rest) := by
  unfold skipIdentifier at h
  rw [getSt_bind] at h
  rcases ite_inv h with ⟨-, h⟩ | ⟨-, h⟩
  · cases h
  rcases ite_inv h with ⟨hr, h⟩ | ⟨-, h⟩
  · obtain ⟨r, hr⟩ := (startsWith_iff _ _).mp hr
    rw [hr] at h
    simp only [List.cons_append, List.nil_append, List.drop_succ_cons, List.drop_zero] at h
    rcases ite_inv h with ⟨hl, h⟩ | ⟨-, h⟩
    · have hle := whileLen_le isIdentRaw r
      rw [bind_apply, advance_ok (by rw [hr]; simp; omega)] at h
      cases h
      have hn : r.take (whileLen isIdentRaw r) ≠ [] := by
        intro e
        have := congrArg List.length e
        simp at this
        omega
      refine ⟨'r' :: '#' :: r.take (whileLen isIdentRaw r), ?_, ⟨⟨hn, whileLen_take r⟩, .inl rfl⟩, fun e => ?_⟩
      · show s.rest = _ ++ s.rest.drop _
        rw [hr, Nat.add_comm 2]
        simp
      · have := congrArg List.length e
        simp only [List.length_cons] at this
        omega
    · cases h
  · cases hs : s.rest with
    | nil => rw [hs] at h; cases h
    | cons c r =>
      rw [hs] at h
      rcases ite_inv h with ⟨hf, h⟩ | ⟨-, h⟩
      · have hle := whileLen_le Env.xidCont r
        rw [bind_apply, advance_ok (by rw [hs]; simp; omega)] at h
        cases h
        have e : (c :: r).take (1 + whileLen Env.xidCont r) = c :: r.take (whileLen Env.xidCont r) := by rw [Nat.add_comm]; rfl
        have hp : PlainName (c :: r.take (whileLen Env.xidCont r)) := ⟨c, _, rfl, hf, whileLen_take r⟩
        refine ⟨_, ?_, ⟨by rw [e]; exact hp.raw, .inr ⟨rfl, by rw [e]; exact hp⟩⟩, fun _ => ?_⟩
        · rw [hs]; exact (List.take_append_drop _ _).symm
        · intro d q e
          rw [hs, Nat.add_comm] at e
          exact whileLen_drop r e
      · cases h

/-- What `identifier` takes. -/
theorem identifier_key {s s' : St} {n : Text} (h : identifier s = .ok n s') : ∃ tok, s.rest = tok ++ s'.rest ∧ KeyTok n tok := by
  unfold identifier at h
  replace h := bind_ok h; obtain ⟨c, s1, h1, h⟩ := h
  obtain ⟨rfl, r, hr⟩ := peekCharOrEof_inv h1
  rw [getSt_bind] at h
  replace h := ite_inv h; rcases h with ⟨-, h⟩ | ⟨hf, h⟩
  · replace h := ite_inv h; rcases h with ⟨-, h⟩ | ⟨-, h⟩ <;> cases h
  replace h := ite_inv h; rcases h with ⟨-, h⟩ | ⟨-, h⟩
  · cases h
  replace h := ite_inv h; rcases h with ⟨hs, h⟩ | ⟨-, h⟩
  · obtain ⟨u, hu⟩ := (startsWith_iff _ _).mp hs
    rw [bind_apply, cursor_apply] at h
    simp only at h
    replace h := (advance_inv h).2
    rw [getSt_bind] at h
    simp only [hu] at h
    replace h := ite_inv h; rcases h with ⟨-, h⟩ | ⟨hraw, h⟩
    · cases h
    · replace h := (advance_inv h).2
      simp only [pure_apply, Res.ok.injEq, List.cons_append, List.nil_append,
        List.drop_succ_cons, List.drop_zero] at h hraw
      obtain ⟨rfl, rfl⟩ := h
      refine ⟨'r' :: '#' :: u.take (whileLen isIdentRaw u), ?_, ⟨?_, whileLen_take u⟩, .inl rfl⟩
      · rw [hu]; simp
      · cases u with
        | nil => simp at hraw
        | cons x u =>
          simp at hraw
          rw [whileLen_cons_true _ _ _ hraw]; simp
  · generalize hstd : (if (c == 'r') = true then whileLen Env.xidCont s1.rest else 1 + whileLen Env.xidCont (s1.rest.drop 1)) = std at h
    replace h := ite_inv h; rcases h with ⟨-, h⟩ | ⟨-, h⟩
    · cases h
    · replace h := (advance_inv h).2
      simp only [pure_apply, Res.ok.injEq] at h
      obtain ⟨rfl, rfl⟩ := h
      have : std = whileLen Env.xidCont r + 1 := by
        rw [← hstd]
        split
        · next hc =>
          rw [beq_iff_eq] at hc; subst hc
          rw [hr, whileLen_cons_true _ _ _ (xid_cont_ascii (by decide))]
        · rw [hr, Nat.add_comm]; rfl
      have hp : PlainName (s1.rest.take std) := by
        rw [hr, this, List.take_succ_cons]
        exact ⟨c, _, rfl, by simpa using hf, whileLen_take r⟩
      exact ⟨s1.rest.take std, by simp, hp.raw, .inr ⟨rfl, hp⟩⟩

/-- Keys of structs. -/
theorem deIdentValue_snd (x : Exts) (L : Option Nat) : Snd x L deIdentValue (fun t v => ∃ n, v = .str n ∧ KeyTok n t) := by
  intro s a s' hc _ h
  unfold deIdentValue deIdentifier at h
  replace h := bind_ok h; obtain ⟨n, s1, h1, h⟩ := h
  cases h
  replace h1 := bind_ok h1; obtain ⟨n', s2, h2, h1⟩ := h1
  cases h1
  obtain ⟨c2, x2⟩ := Sf.identifier.spot hc h2
  obtain ⟨tok, e1, e2⟩ := identifier_key h2
  have hm : Moved s2 := Kw.moved (fun _ _ => Kw.identifier) hc.tracked h2 (by
    rw [e1, List.length_append]
    have := List.length_pos_iff.mpr (keyTok_ne e2)
    omega)
  exact ⟨⟨⟨c2.inside.rest, c2.inside.prev, c2.inside.preWs⟩, c2.tracked, c2.nv, c2.exts, c2.limit⟩, x2, fun _ => ⟨tok, _, e1, .inl ⟨rfl, hm⟩, n, rfl, e2⟩⟩

/-! ### Tuples and structs -/

theorem visitSeq_vis {x : Exts} {L : Option Nat} {any : P Value} {R : Text → Value → Prop} (h : Snd x (lower L) any R) {c : Char}
    (hc : c ∈ [',', ')', ']', '}', ':']) :
    Vis x L c (visitSeq c any) (fun w v => ∃ vs, v = .seq vs ∧ Items (fun t a => L ≠ some 0 ∧ R t a) vs w) := by
  intro s a s' hs e
  unfold visitSeq at e
  replace e := bind_ok e; obtain ⟨vs, s1, e1, e⟩ := e
  cases e
  obtain ⟨c1, w, u, h1, h2, h3⟩ := readSeq_snd h.guardQ hc hs e1
  exact ⟨c1, w, u, h1, h2, vs, rfl, h3⟩

theorem visitMap_vis {x : Exts} {L : Option Nat} {key any : P Value} {K R : Text → Value → Prop} (hk : Snd x (lower L) key K)
    (h : Snd x (lower L) any R) {c : Char} (hc : c ∈ [',', ')', ']', '}', ':']) :
    Vis x L c (visitMap c key any) (fun w v => ∃ vs, v = .map (mapOfList vs) ∧
      Items (EntryR (fun t a => L ≠ some 0 ∧ K t a) (fun t a => L ≠ some 0 ∧ R t a)) vs w) := by
  intro s a s' hs e
  unfold visitMap at e
  replace e := bind_ok e; obtain ⟨vs, s1, e1, e⟩ := e
  cases e
  obtain ⟨c1, w, u, h1, h2, h3⟩ := readMap_snd hk.guardR h.guardQ hc hs e1
  exact ⟨c1, w, u, h1, h2, vs, rfl, h3⟩

/-- What stands in parentheses: a tuple or the fields of a struct. -/
def Parens (R : Text → Value → Prop) (w : Text) (v : Value) : Prop :=
  (∃ ts vs, All2 R ts vs ∧ Delim '(' ')' ts w ∧ v = .seq vs) ∨
  (∃ (es : List Text) (fs : List (Text × Value)), fs ≠ [] ∧ All2 (fun e f => ∃ k v, KeyTok f.1 k ∧ R v f.2 ∧ Entry k v e) es fs ∧
    Delim '(' ')' es w ∧ v = .map (mapOfList (fs.map fun f => (.str f.1, f.2))))

/-- Entries with names as keys. -/
theorem fields_of {p : Prop} {R : Text → Value → Prop} : ∀ {es : List Text} {kvs : List (Value × Value)},
    All2 (EntryR (fun t a => p ∧ ∃ n, a = .str n ∧ KeyTok n t) (fun t a => p ∧ R t a)) es kvs →
    ∃ fs : List (Text × Value), kvs = fs.map (fun f => (.str f.1, f.2)) ∧
      All2 (fun e f => ∃ k v, KeyTok f.1 k ∧ (p ∧ R v f.2) ∧ Entry k v e) es fs
  | [], [], _ => ⟨[], rfl, trivial⟩
  | e :: es, kv :: kvs, ⟨⟨k, v, ⟨hp, n, h1, h2⟩, h3, h4⟩, h⟩ => by
    obtain ⟨fs, rfl, hf⟩ := fields_of h
    obtain ⟨a, b⟩ := kv
    simp only at h1 h3
    subst h1
    exact ⟨(n, b) :: fs, rfl, ⟨k, v, h2, h3, h4⟩, hf⟩

theorem anyStruct_snd {x : Exts} {L : Option Nat} {any : P Value} {R : Text → Value → Prop} (h : Snd x (lower (lower L)) any R)
    {s s' : St} {v : Value} (hc : Spot x L s) (e : anyStruct any s = .ok v s') :
    Spot x L s' ∧ ((startsWith s.rest ['('] = false ∧ v = .unit ∧ s'.rest = s.rest ∧ s'.preWs = s.preWs ∧ s'.lastWs = s.lastWs) ∨
    (Moved s' ∧ L ≠ some 0 ∧ ∃ w, s.rest = w ++ s'.rest ∧ Parens (fun t a => lower L ≠ some 0 ∧ R t a) w v ∧ ∃ w', w = '(' :: w')) := by
  cases ho : startsWith s.rest ['('] with
  | false =>
    obtain ⟨s1, h1, h2, h3⟩ := anyStruct_unit (any := any) ho
    have hs : Sf (checkStructType .noParensMeanUnit .imprecise) := .checkStructType _ _
    rw [h1] at e
    cases e
    unfold anyStruct at h1
    obtain ⟨ty, s2, g1, g2⟩ := bind_ok h1
    obtain ⟨s3, k1, k2, k3⟩ := struct_unit (tm := .imprecise) ho
    rw [k1] at g1
    cases g1
    cases g2
    exact ⟨(hs.spot hc k1).1, .inl ⟨rfl, rfl, checkStructType_cursor k1⟩⟩
  | true =>
    obtain ⟨r, hr⟩ := (startsWith_iff _ _).mp ho
    unfold anyStruct at e
    replace e := bind_ok e; obtain ⟨ty, s1, h1, e⟩ := e
    obtain ⟨c1, -⟩ := (Sf.checkStructType .noParensMeanUnit .imprecise).spot hc h1
    have hr1 : s1.rest = s.rest := by
      have := checkStructType_out .noParensMeanUnit .imprecise hc.inside
      rw [h1] at this
      exact this.2
    have tup : ∀ {v}, deTuple (visitSeq ')' any) s1 = .ok v s' → Spot x L s' ∧ (Moved s' ∧ L ≠ some 0 ∧ ∃ w, s.rest = w ++ s'.rest ∧
        Parens (fun t a => lower L ≠ some 0 ∧ R t a) w v ∧ ∃ w', w = '(' :: w') := by
      intro v e
      obtain ⟨hL, ⟨c2, m2⟩, w, g1, vs, rfl, g2⟩ := deTuple_snd (visitSeq_vis h (by simp)) c1 e
      obtain ⟨ts, q1, q2⟩ := g2.delim (o := '(') (c := ')')
      exact ⟨c2, m2, hL, _, by rw [← hr1, g1]; simp, .inl ⟨ts, vs, q1, q2, rfl⟩, _, rfl⟩
    cases ty with
    | unit => exact (checkStructType_unit hr h1).elim
    | named =>
      obtain ⟨hL, ⟨c2, m2⟩, w, g1, vs, rfl, g2⟩ := structAfterName_snd (visitMap_vis (deIdentValue_snd _ _) h (by simp)) c1 e
      refine ⟨c2, .inr ⟨m2, hL, '(' :: (w ++ [')']), by rw [← hr1, g1]; simp, .inr ?_, _, rfl⟩⟩
      have hw : vs = [] → Layout w := by
        rintro rfl
        obtain ⟨ts, q1, ⟨-, q2⟩ | ⟨a, u, t, -, q2, -⟩⟩ := g2
        · exact q2
        · cases q2 <;> exact q1.elim
      obtain ⟨ts, q1, q2⟩ := g2.delim (o := '(') (c := ')')
      obtain ⟨fs, rfl, q3⟩ := fields_of q1
      refine ⟨ts, fs, ?_, q3, q2, rfl⟩
      rintro rfl
      obtain ⟨s3, k1, -⟩ := struct_empty (d := s) (tm := .imprecise) (by rw [← hr1, g1]) (hw rfl)
      rw [k1] at h1
      cases h1
    | newtypeTuple => exact (tup e).imp id .inr
    | nonNewtypeTuple => exact (tup e).imp id .inr
    | anyTuple => exact (tup e).imp id .inr
    | emptyTuple => exact (tup e).imp id .inr

/-! ### Numbers -/

theorem num_snd {x : Exts} {L : Option Nat} {s s' : St} {v : Value} (hc : Spot x L s) (hh : NumHead s.rest) (h : numeric s = .ok v s') :
    Spot x L s' ∧ s'.rest <:+ s.rest ∧ (Ends s'.rest → Moved s' ∧ ∃ w, s.rest = w ++ s'.rest ∧ Tok w v) := by
  obtain ⟨c1, x1⟩ := Sf.numeric.spot hc h
  refine ⟨c1, x1, fun he => ?_⟩
  obtain ⟨w, hw⟩ := x1
  have hne : w ≠ [] := by
    have h1 := (deAny_Fd 1).eat s hc.inside hc.nv
    rw [show deAny 1 s = numeric s from (anyBody_plain hc.nv).trans (anyPlain_numeric hh), h] at h1
    have := h1.lt rfl
    rintro rfl
    rw [← hw] at this
    simp at this
  have hcut : Cut s'.rest s (St.init w) := ⟨hw.symm⟩
  obtain ⟨t', g1, g2⟩ := numeric_trunc he hcut hc.inside hc.nv v s' h (Nat.le_refl _)
  have hn : NumHead w := numHead_cut (by rw [hw]; exact hh) hne he
  have hm : Moved s' := Kw.moved (fun _ _ => Kw.numeric) hc.tracked h (by
    rw [← hw, List.length_append]
    have := List.length_pos_iff.mpr hne
    omega)
  refine ⟨hm, w, hw.symm, .num hn ((numText_read hn).mpr ⟨t', (deValue_numeric hn).trans g1, ?_⟩)⟩
  have := congrArg List.length g2.rest
  rw [List.length_append] at this
  exact List.length_eq_zero_iff.mp (by omega)

/-! ### Options -/

theorem option_snd {x : Exts} {L : Option Nat} {any : P Value} {R : Text → Value → Prop} (hu : x.unwrapVariantNewtypes = false)
    (h : Snd x (lower L) any R) (hne : ∀ v, ¬ R [] v) {s s' : St} {v : Value} (hc : Spot x L s)
    {r : Text} (hr : s.rest = c!"Some" ++ r) (hn : NoIdentStart r)
    (e : deOption .none (do let v ← any; pure (.some v)) s = .ok v s') :
    ((Spot x L s' ∧ Moved s') ∧ s'.rest <:+ s.rest ∧ L ≠ some 0 ∧ ∃ l a t b u, Layout l ∧ Layout a ∧ R t u ∧ Tail b ∧ v = .some u ∧
      s.rest = (c!"Some" ++ (l ++ '(' :: (a ++ (t ++ (b ++ [')']))))) ++ s'.rest) ∨
    (x.implicitSome = true ∧ Spot x L s' ∧ s'.rest <:+ s.rest ∧ (Ends s'.rest → L ≠ some 0 ∧ ∃ l t w u, Layout l ∧ R t u ∧ v = .some u ∧
      NoIdentStart (l ++ t) ∧ (∀ u, t ≠ '(' :: u) ∧ s.rest = (c!"Some" ++ (l ++ t)) ++ w ∧ Behind true (c!"Some" ++ (l ++ t)) w s')) := by
  have hsome : Snd x (lower L) (do let v ← any; pure (.some v) : P Value) (fun t a => ∃ u, a = .some u ∧ R t u) := by
    intro p q p' hp hl e
    replace e := bind_ok e; obtain ⟨q', p1, e1, e⟩ := e
    cases e
    obtain ⟨k1, k2, k3⟩ := h _ _ _ hp hl e1
    refine ⟨k1, k2, fun he => ?_⟩
    obtain ⟨t, u, m1, m2, m3⟩ := k3 he
    exact ⟨t, u, m1, m2, q', rfl, m3⟩
  obtain ⟨g, gt, gs, gu⟩ := anyPlain_kw (w := c!"Some") (by simp [reservedNames]) hr hn
  unfold deOption at e
  simp only [bind_apply, g c!"None" (by simp [reservedNames]) (by simp), gt, Bool.false_eq_true, ↓reduceIte] at e
  have c0 : Spot x L { s with prev := s.rest, rest := r } := ((Sf.consumeIdent c!"Some").spot hc gt).1
  generalize hs0 : ({ s with prev := s.rest, rest := r } : St) = s0 at e c0
  have r0 : s0.rest = r := by rw [← hs0]
  generalize hop : skipWs s0 = op at e
  cases op with
  | err _ _ => cases e
  | ok a s1 =>
    simp only at e
    obtain ⟨c1, x1⟩ := Sf.skipWs.spot c0 hop
    generalize hcc : consumeChar '(' s1 = cc at e
    cases cc with
    | err _ _ => cases e
    | ok b s2 =>
      obtain ⟨c2, x2⟩ := (Sf.consumeChar '(').spot c1 hcc
      simp only at e
      rcases consumeChar_inv hcc with ⟨rfl, hr2, he⟩ | ⟨rfl, rfl, hno⟩
      · simp only [↓reduceIte] at e
        replace e := bind_ok e; obtain ⟨_, s3, h3, e⟩ := e
        obtain ⟨c3, x3⟩ := Sf.skipWs.spot c2 h3
        replace e := bind_ok e; obtain ⟨_, s4, h4, e⟩ := e
        rw [modSt_apply] at h4
        cases h4
        have c4 : Spot x L { s3 with nv := s3.exts.unwrapVariantNewtypes } :=
          ⟨⟨c3.inside.rest, c3.inside.prev, c3.inside.preWs⟩, c3.tracked, by simp only [c3.exts, hu], c3.exts, c3.limit⟩
        replace e := bind_ok e; obtain ⟨u, s5, h5, e⟩ := e
        obtain ⟨c5, x5, rd⟩ := hsome.guardQ _ _ _ c4 (show NoLayoutStart s3.rest from skipWs_noLayout h3) h5
        rw [bind_apply, setNv_apply] at e
        simp only at e
        have c5' : Spot x L { s5 with nv := false } := ⟨⟨c5.inside.rest, c5.inside.prev, c5.inside.preWs⟩, c5.tracked, rfl, c5.exts, c5.limit⟩
        replace e := bind_ok e; obtain ⟨cm, s6, h6, e⟩ := e
        obtain ⟨c6, x6⟩ := Sf.comma.spot c5' h6
        replace e := bind_ok e; obtain ⟨cl, s7, h7, e⟩ := e
        obtain ⟨c7, x7⟩ := (Sf.consumeChar ')').spot c6 h7
        rcases consumeChar_inv h7 with ⟨rfl, hr7, he7⟩ | ⟨rfl, rfl, -⟩
        · replace e := if_tt e
          cases e
          have hne6 : s6.rest ≠ [] := by rw [hr7]; simp
          obtain ⟨-, l, hl, hl', -⟩ := skipWs_inv_ne hop (by rw [hr2]; simp)
          have x6' : s6.rest <:+ s5.rest := x6
          have x5' : s5.rest <:+ s3.rest := x5
          obtain ⟨-, a, ha, ha', -⟩ := skipWs_inv_ne h3 (suffix_ne x5' (suffix_ne x6' hne6))
          obtain ⟨b, hb, hb', he⟩ : ∃ b, Tail b ∧ s5.rest = b ++ ')' :: s'.rest ∧ Ends s5.rest := by
            rcases comma_sound h6 hne6 with ⟨rfl, b, hb, hb'⟩ | ⟨rfl, b, c, hb, hb', hc'⟩
            · have hb : s5.rest = b ++ s6.rest := hb
              exact ⟨b, .plain hb', by rw [hb, hr7], ends_stop (r := s'.rest) hb' (c := ')') (by simp) (by rw [hb, hr7])⟩
            · have hb : s5.rest = b ++ ',' :: (c ++ s6.rest) := hb
              exact ⟨b ++ ',' :: c, .comma hb' hc', by rw [hb, hr7]; simp, ends_stop hb' (c := ',') (by simp) hb⟩
          obtain ⟨t, q, g1, g2, hL, u', rfl, g3⟩ := rd he
          obtain ⟨m, hm, rfl⟩ := g2.ne (by rw [hb']; simp)
          have g1 : s3.rest = t ++ (m ++ s5.rest) := g1
          have fin : s.rest = (c!"Some" ++ (l ++ '(' :: (a ++ (t ++ ((m ++ b) ++ [')']))))) ++ s'.rest := by
            rw [hr, ← r0, hl, hr2, ha, g1, hb']; simp
          have hmb : Tail (m ++ b) := by
            cases hb with
            | plain hb => exact .plain (hm.append hb)
            | comma hb hc => rw [← List.append_assoc]; exact .comma (hm.append hb) hc
          have m7 := Kw.moved (fun _ _ => Kw.consumeChar ')') c6.tracked h7 (by rw [hr7]; simp)
          exact .inl ⟨⟨c7, m7⟩, ⟨_, fin.symm⟩, hL, l, a, t, m ++ b, u', hl', ha', g3, hmb, rfl, fin⟩
        · replace e := if_ff e
          cases e
      · simp only [Bool.false_eq_true, ↓reduceIte] at e
        rw [getSt_bind] at e
        simp only [c2.exts] at e
        cases hi : x.implicitSome with
        | false =>
          simp only [hi, Bool.false_eq_true, ↓reduceIte] at e
          cases e
        | true =>
          simp only [hi, ↓reduceIte] at e
          obtain ⟨c3, x3, rd⟩ := hsome.guardR _ _ _ c1 (skipWs_noLayout hop) e
          have xs : s'.rest <:+ s.rest := x3.trans (x1.trans ⟨c!"Some", by rw [hr, r0]⟩)
          refine .inr ⟨rfl, c3, xs, fun he => ?_⟩
          obtain ⟨t, w, g1, g2, hL, u', rfl, g3⟩ := rd he
          have htne : t ≠ [] := by rintro rfl; exact hne _ g3
          obtain ⟨-, l, hl, hl', -⟩ := skipWs_inv_ne hop (by rw [g1]; simp [htne])
          have hrr : r = l ++ (t ++ w) := by rw [← r0, hl, g1]
          refine ⟨hL, l, t, w, u', hl', g3, rfl, ?_, ?_, by rw [hr, hrr]; simp, ?_⟩
          · intro c q eq
            exact hn c (q ++ w) (by rw [hrr, ← List.append_assoc, eq]; rfl)
          · rintro q rfl
            rw [g1] at hno
            simp at hno
          · rw [hi] at g2
            exact g2.imp id fun h => ⟨.inl rfl, h.2⟩

/-! ### Values -/

/-- The relation between texts and values one level up. -/
theorem any_snd {x : Exts} {L : Option Nat} {any : P Value} {D E : Text → Value → Prop} (hu : x.unwrapVariantNewtypes = false)
    (hne : ∀ v, ¬ D [] v) (hD : Snd x (lower L) any D) (hE : Snd x (lower (lower L)) any E) :
    Snd x L (anyBody any) (fun w v => Tok w v ∨ (L ≠ some 0 ∧ LevelX x.implicitSome Tok D (fun t a => lower L ≠ some 0 ∧ E t a) w v)) := by
  intro s v s' hc _ e
  rw [anyBody_plain hc.nv] at e
  -- a token with nothing skipped behind it
  have tok : ∀ {w : Text}, Spot x L s' ∧ Moved s' → s.rest = w ++ s'.rest → Tok w v →
      Spot x L s' ∧ s'.rest <:+ s.rest ∧ (Ends s'.rest → ∃ t u, s.rest = t ++ u ∧ Behind x.implicitSome t u s' ∧
        (Tok t v ∨ (L ≠ some 0 ∧ LevelX x.implicitSome Tok D (fun t a => lower L ≠ some 0 ∧ E t a) t v))) :=
    fun {w} h1 h2 h3 => ⟨h1.1, ⟨w, h2.symm⟩, fun _ => ⟨w, _, h2, .inl ⟨rfl, h1.2⟩, .inl h3⟩⟩
  have lvl : ∀ {w : Text}, Spot x L s' ∧ Moved s' → s.rest = w ++ s'.rest → L ≠ some 0 → LevelX x.implicitSome Tok D (fun t a => lower L ≠ some 0 ∧ E t a) w v →
      Spot x L s' ∧ s'.rest <:+ s.rest ∧ (Ends s'.rest → ∃ t u, s.rest = t ++ u ∧ Behind x.implicitSome t u s' ∧
        (Tok t v ∨ (L ≠ some 0 ∧ LevelX x.implicitSome Tok D (fun t a => lower L ≠ some 0 ∧ E t a) t v))) :=
    fun {w} h1 h2 h3 h4 => ⟨h1.1, ⟨w, h2.symm⟩, fun _ => ⟨w, _, h2, .inl ⟨rfl, h1.2⟩, .inr ⟨h3, h4⟩⟩⟩
  have num : NumHead s.rest → Spot x L s' ∧ s'.rest <:+ s.rest ∧ (Ends s'.rest → ∃ t u, s.rest = t ++ u ∧ Behind x.implicitSome t u s' ∧
        (Tok t v ∨ (L ≠ some 0 ∧ LevelX x.implicitSome Tok D (fun t a => lower L ≠ some 0 ∧ E t a) t v))) := by
    intro hh
    rw [anyPlain_numeric hh] at e
    obtain ⟨h1, h2, h3⟩ := num_snd hc hh e
    refine ⟨h1, h2, fun he => ?_⟩
    obtain ⟨hm, w, h4, h5⟩ := h3 he
    exact ⟨w, _, h4, .inl ⟨rfl, hm⟩, .inl h5⟩
  by_cases hk : NoKeyword s
  · cases hp : startsWith s.rest c!"()" with
    | true =>
      have g : ∀ kw ∈ reservedNames, consumeIdent kw s = .ok false s := fun kw hkw => consumeIdent_false (hk kw hkw)
      unfold anyPlain at e
      simp only [bind_apply, g c!"true" (by simp [reservedNames]), g c!"false" (by simp [reservedNames]),
        checkIdent_false (hk c!"Some" (by simp [reservedNames])), g c!"None" (by simp [reservedNames]), consumeStr_true hp, ↓reduceIte, pure_apply,
        Bool.false_eq_true] at e
      cases e
      obtain ⟨r, hr⟩ := (startsWith_iff _ _).mp hp
      exact tok ⟨((Sf.consumeStr _).spot hc (consumeStr_true hp)).1,
        Kw.moved (fun _ _ => Kw.consumeStr _) hc.tracked (consumeStr_true hp) (by simp [hr]; omega)⟩ (by simp [hr]) .unit
    | false =>
      have e0 := e
      rw [anyPlain_noKeyword hk hp] at e
      replace e := bind_ok e; obtain ⟨id, s1, h1, e⟩ := e
      obtain ⟨c1, x1⟩ := Sf.skipIdentifier.spot hc h1
      cases id with
      | some n =>
        obtain ⟨tk, ht, hkt, hni⟩ := skipIdentifier_sound h1
        have hnt : NameTok n tk := by
          refine ⟨hkt.1, hkt.2.imp id fun ⟨h2, h3⟩ => ⟨h2, h3, fun hm => ?_⟩⟩
          rcases hk n hm with h | h
          · rw [ht, h2, startsWith_append] at h; cases h
          · rw [ht, h2, List.drop_left, headXid_false.mpr (hni h2)] at h; cases h
        simp only at e
        replace e := bind_ok e; obtain ⟨_, s2, h2, e⟩ := e
        obtain ⟨c2, x2⟩ := Sf.skipWs.spot c1 h2
        have hm1 : Moved s1 := Kw.moved (fun _ _ => Kw.skipIdentifier) hc.tracked h1 (by
          rw [ht, List.length_append]
          have := List.length_pos_iff.mpr (keyTok_ne hkt)
          omega)
        obtain ⟨c3, ⟨-, rfl, hr, hr2, hr3⟩ | ⟨m3, hL, w, hr, hp', w', hw'⟩⟩ := anyStruct_snd hE c2 e
        · refine ⟨c3, by rw [hr]; exact x2.trans x1, fun _ => ⟨tk, _, ht, ?_, .inl (.name hnt)⟩⟩
          obtain ⟨p1, p2⟩ := skipWs_track h2
          rw [hm1.newPreWs] at p1
          refine .inr ⟨.inr ⟨n, hnt⟩, hr2.trans p1, ?_⟩
          rcases p2 with ⟨q1, q2, q3⟩ | ⟨-, q1, q2, l, o, q3, q4, q5⟩ | ⟨-, q1, l, q2, q3, -⟩
          · obtain ⟨k, k1, -⟩ := hm1
            exact .inl ⟨[], k, .nil, by rw [hr, q1, q2]; rfl, by rw [hr3, q3, k1], by rw [q1]; simp⟩
          · exact .inr ⟨hr.trans q1, hr3.trans q2, l, o, q4, q5, q3⟩
          · exact .inl ⟨l, _, q3, by rw [hr]; exact q2, hr3.trans q1, by rw [hr, p1]; omega⟩
        · obtain ⟨-, l, m1, m2, -⟩ := skipWs_inv_ne h2 (by rw [hr, hw']; simp)
          have hpre : Prefix (tk ++ l) := .name hnt m2
          have hall : s.rest = ((tk ++ l) ++ w) ++ s'.rest := by rw [ht, m1, hr]; simp
          refine lvl ⟨c3, m3⟩ hall hL ?_
          rcases hp' with ⟨ts, vs, q1, q2, rfl⟩ | ⟨es, fs, q0, q1, q2, rfl⟩
          · refine .level (.tuple hpre q1 q2 ?_)
            obtain ⟨c, u, rfl, hc⟩ := hnt.noParen
            intro h
            simp at h
            exact hc h.1
          · exact .level (.struct hpre q0 q1 q2)
      | none =>
        have hs1 : s1 = s := by
          unfold skipIdentifier at h1
          rw [getSt_bind] at h1
          rcases ite_inv h1 with ⟨-, h1⟩ | ⟨-, h1⟩
          · cases h1; rfl
          rcases ite_inv h1 with ⟨-, h1⟩ | ⟨-, h1⟩
          · rcases ite_inv h1 with ⟨-, h1⟩ | ⟨-, h1⟩
            · obtain ⟨_, _, -, h1⟩ := bind_ok h1; cases h1
            · cases h1; rfl
          · cases hs : s.rest with
            | nil => rw [hs] at h1; cases h1; rfl
            | cons c r =>
              rw [hs] at h1
              rcases ite_inv h1 with ⟨-, h1⟩ | ⟨-, h1⟩
              · obtain ⟨_, _, -, h1⟩ := bind_ok h1; cases h1
              · cases h1; rfl
        subst hs1
        simp only at e
        unfold anyChar at e
        replace e := bind_ok e; obtain ⟨c, s2, h2, e⟩ := e
        obtain ⟨rfl, r, hr⟩ := peekCharOrEof_inv h2
        rw [getSt_bind] at e
        rcases ite_inv e with ⟨hcc, e⟩ | ⟨-, e⟩
        · obtain ⟨c3, ⟨h, -⟩ | ⟨m3, hL, w, hr', hp', w', hw'⟩⟩ := anyStruct_snd hE hc e
          · rw [beq_iff_eq] at hcc
            rw [hr, hcc] at h
            simp at h
          · refine lvl (w := [] ++ w) ⟨c3, m3⟩ hr' hL ?_
            rcases hp' with ⟨ts, vs, q1, q2, rfl⟩ | ⟨es, fs, q0, q1, q2, rfl⟩
            · refine .level (.tuple .none q1 q2 ?_)
              intro h
              simp only [List.nil_append] at h
              rw [hr', h, startsWith_append] at hp
              cases hp
            · exact .level (.struct .none q0 q1 q2)
        rcases ite_inv e with ⟨-, e⟩ | ⟨-, e⟩
        · obtain ⟨hL, c3, w, g1, vs, rfl, g2⟩ := deSeq_snd (visitSeq_vis hE (by simp)) hc e
          obtain ⟨ts, q1, q2⟩ := g2.delim (o := '[') (c := ']')
          exact lvl c3 (by rw [g1]; simp) hL (.level (.seq q1 q2))
        rcases ite_inv e with ⟨-, e⟩ | ⟨-, e⟩
        · obtain ⟨hL, c3, w, g1, vs, rfl, g2⟩ := deMap_snd (visitMap_vis hE hE (by simp)) hc e
          obtain ⟨ts, q1, q2⟩ := g2.delim (o := '{') (c := '}')
          exact lvl c3 (by rw [g1]; simp) hL (.level (.map q1 q2))
        rcases ite_inv e with ⟨hd, e⟩ | ⟨-, e⟩
        · rcases ite_inv e with ⟨hb, e⟩ | ⟨hb, -⟩
          · replace e := bind_ok e; obtain ⟨b, s3, h3, e⟩ := e
            cases e
            obtain ⟨t, g1, g2, -⟩ := byteString_sound h3
            exact tok ⟨(Sf.byteString.spot hc h3).1, Kw.moved (fun _ _ => Kw.byteString) hc.tracked h3 (by
            rw [g1, List.length_append]
            have := List.length_pos_iff.mpr (bytesLit_ne g2)
            omega)⟩ g1 (.bytes g2)
          · refine num ?_
            by_cases hcb : c = 'b'
            · subst hcb
              simp only [beq_self_eq_true, Bool.true_and, Bool.not_eq_true', Bool.not_eq_false] at hb
              obtain ⟨u, hu⟩ := (startsWith_iff _ _).mp hb
              exact .inr (.inl ⟨u, hu⟩)
            · refine .inl ⟨c, r, hr, ?_⟩
              simp only [Bool.or_eq_true, beq_iff_eq, hcb, or_false] at hd
              simp only [List.mem_cons, List.not_mem_nil, or_false]
              rcases hd with ((h | h) | h) | h
              · exact .inl h
              · exact .inr (.inl h)
              · exact .inr (.inr (.inl h))
              · exact .inr (.inr (.inr h))
        rcases ite_inv e with ⟨-, e⟩ | ⟨-, e⟩
        · replace e := bind_ok e; obtain ⟨b, s3, h3, e⟩ := e
          cases e
          obtain ⟨t, g1, g2, -⟩ := string_sound h3
          exact tok ⟨(Sf.string.spot hc h3).1, Kw.moved (fun _ _ => Kw.string) hc.tracked h3 (by
            rw [g1, List.length_append]
            have := List.length_pos_iff.mpr (strLit_ne g2)
            omega)⟩ g1 (.str g2)
        rcases ite_inv e with ⟨-, e⟩ | ⟨-, e⟩
        · replace e := bind_ok e; obtain ⟨b, s3, h3, e⟩ := e
          cases e
          obtain ⟨t, g1, g2, -⟩ := charLit_sound h3
          exact tok ⟨(Sf.charLit.spot hc h3).1, Kw.moved (fun _ _ => Kw.charLit) hc.tracked h3 (by
            rw [g1, List.length_append]
            have := List.length_pos_iff.mpr (charLit_ne g2)
            omega)⟩ g1 (.char g2)
        · cases e
  · obtain ⟨kw, hkw, r, hr, hn⟩ : ∃ kw, kw ∈ reservedNames ∧ ∃ r, s.rest = kw ++ r ∧ NoIdentStart r := by
      refine Classical.byContradiction fun h => hk fun kw hkw => ?_
      rcases consumeIdent_cases kw s with ⟨r, h1, h2, -⟩ | ⟨h1, -⟩
      · exact absurd ⟨kw, hkw, r, h1, h2⟩ h
      · exact h1
    obtain ⟨g, gt, gs, gu⟩ := anyPlain_kw hkw hr hn
    have c1 : Spot x L { s with prev := s.rest, rest := r } ∧ Moved { s with prev := s.rest, rest := r } :=
      ⟨((Sf.consumeIdent kw).spot hc gt).1, Kw.moved (fun _ _ => Kw.consumeIdent kw) hc.tracked gt (by
        rw [hr, List.length_append]
        have := List.length_pos_iff.mpr (reserved_ne hkw)
        simp only
        omega)⟩
    have fw : (∃ v, (kw, v) ∈ floatWords) → NumHead s.rest := fun ⟨v, hv⟩ => .inr (.inr ⟨kw, v, r, hv, hr, hn⟩)
    simp only [reservedNames, List.mem_cons, List.not_mem_nil, or_false] at hkw
    rcases hkw with rfl | rfl | rfl | rfl | rfl | rfl | rfl | rfl | rfl | rfl
    · unfold anyPlain at e
      simp only [bind_apply, gt, ↓reduceIte, pure_apply] at e
      cases e
      exact tok c1 hr .true
    · unfold anyPlain at e
      simp only [bind_apply, g c!"true" (by simp [reservedNames]) (by simp), gt, ↓reduceIte, pure_apply, Bool.false_eq_true] at e
      cases e
      exact tok c1 hr .false
    · have hsome : checkIdent c!"Some" s = .ok true s := by
        rw [checkIdent_apply, hr, startsWith_append, List.drop_left, headXid_false.mpr hn]; rfl
      unfold anyPlain at e
      simp only [bind_apply, g c!"true" (by simp [reservedNames]) (by simp), g c!"false" (by simp [reservedNames]) (by simp), hsome,
        ↓reduceIte, Bool.false_eq_true] at e
      rcases option_snd hu hD hne hc hr hn e with ⟨k1, k2, hL, l, a, t, b, u, hl, ha, ht, hb, rfl, hrest⟩ | ⟨hi, k1, k2, k3⟩
      · exact lvl k1 hrest hL (.level (.some hl ha ht hb))
      · refine ⟨k1, k2, fun he => ?_⟩
        obtain ⟨hL, l, t, w, u, hl, ht, rfl, h1, h2, h3, h4⟩ := k3 he
        exact ⟨_, w, h3, by rw [hi]; exact h4, .inr ⟨hL, .bare hi hl ht h1 h2⟩⟩
    · unfold anyPlain at e
      simp only [bind_apply, g c!"true" (by simp [reservedNames]) (by simp), g c!"false" (by simp [reservedNames]) (by simp),
        gs (by simp), gt, ↓reduceIte, pure_apply, Bool.false_eq_true] at e
      cases e
      exact tok c1 hr .none
    all_goals exact num (fw ⟨_, by simp [floatWords]; rfl⟩)

theorem gramX_tok {i : Bool} {S : Text → Value → Prop} (n : Nat) {w : Text} {v : Value} (h : S w v) : GramX i S n w v :=
  gramX_mono (Nat.zero_le _) (show GramX i S 0 w v from h)

/-- No text of the language is empty. -/
theorem langX_ne {i : Bool} {n : Nat} {v : Value} : ¬ LangX i n [] v := fun h =>
  (langX_reads (x := ⟨false, i, false, false⟩) rfl n (n + 1) (Nat.lt_succ_self n) [] v h).1.1.ne rfl

/-- What is read as a value is a text of the language. -/
theorem deAny_snd {x : Exts} (hu : x.unwrapVariantNewtypes = false) (f : Nat) :
    ∀ L : Option Nat, Snd x L (deAny f) (LangX x.implicitSome (L.getD (2 * f))) := by
  induction f with
  | zero => intro L s a s' hc _ e; cases e
  | succ f ih =>
    intro L
    refine (any_snd hu (fun _ => langX_ne) (ih _) (ih _)).imp fun w v h => ?_
    have tok : Tok w v → LangX x.implicitSome (L.getD (2 * (f + 1))) w v := fun h => gramX_tok _ h
    rcases h with h | ⟨hL, h⟩
    · exact tok h
    · cases L with
      | none =>
        exact h.imp (fun _ _ h => h) (fun _ _ h => gramX_mono (by simp [lower]) h) fun _ _ h => h.2
      | some n =>
        match n with
        | 0 => exact absurd rfl hL
        | 1 => exact h.imp (fun _ _ h => h) (fun _ _ h => h) fun _ _ h => h.1 rfl
        | n + 2 => exact h.imp (fun _ _ h => h) (fun _ _ h => h) fun _ _ h => h.2

end Ron
