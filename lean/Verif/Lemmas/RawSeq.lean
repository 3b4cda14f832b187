import Verif.Lemmas.Raw
import Verif.Lemmas.Pad
/-!
# Sequences of raw values
-/

namespace Ron

variable [Env]

/-- The layout in front of the cursor, if it has been skipped, began at the text `X`. -/
structure RawAt (x : Exts) (L : Option Nat) (X : Text) (d : St) : Prop where
  spot : Spot x L d
  place : (Moved d ∧ d.rest = X) ∨ (WsDone d ∧ d.preWs = X ∧ NoLayoutStart d.rest)

theorem RawAt.skip {x : Exts} {L : Option Nat} {l r : Text} {d : St} (h : RawAt x L (l ++ r) d) (hl : Layout l) (hr : NoLayoutStart r)
    (hne : r ≠ []) :
    ∃ s', skipWs d = .ok () s' ∧ s'.rest = r ∧ KeepsD d s' ∧ Spot x L s' ∧ WsDone s' ∧ s'.preWs = l ++ r := by
  have hd : ∃ l1, d.rest = l1 ++ r ∧ Layout l1 := by
    rcases h.place with ⟨-, h⟩ | ⟨⟨l0, h0, h1, -⟩, h2, h3⟩
    · exact ⟨l, h, hl⟩
    · obtain ⟨-, e⟩ := layout_unique h0 hl (.inl h3) (.inl hr) (h1.symm.trans h2)
      exact ⟨[], e, .nil⟩
  obtain ⟨l1, g1, g2⟩ := hd
  obtain ⟨s', k1, k2, k3⟩ := skipWs_ok g1 g2 hr
  have hp : s'.preWs = l ++ r := by
    have := (skipWs_track k1).1
    rcases h.place with ⟨h1, h2⟩ | ⟨h1, h2, -⟩
    · rw [this, h1.newPreWs, h2]
    · rw [this, h1.newPreWs, h2]
  refine ⟨s', k1, k2, k3.toD, (Sf.skipWs.spot h.spot k1).1, ?_, hp⟩
  refine skipWs_done ?_ k1 (by rw [k2]; exact hne)
  rcases h.place with ⟨h1, -⟩ | ⟨h1, -⟩
  · exact .inl h1
  · exact .inr h1

/-- A raw value where more text follows: the text with all the layout around it. -/
theorem deRaw_at {x : Exts} (hx : x.unwrapVariantNewtypes = false) {L : Option Nat} {l w l' q : Text} {n : Nat} {v : Value} {d : St} (hs : Spot x L d)
    (hd : WsDone d) (hp : d.preWs = l ++ (w ++ (l' ++ q))) (hr : d.rest = w ++ (l' ++ q)) (hw : Lang n w v) (hl : Layout l)
    (hl' : Layout l') (hn : n ≤ 128) (hL : ∀ m, L = some m → n ≤ m) (hq : Stop q) (hne : q ≠ []) :
    ∃ s', deRaw d = .ok (l ++ (w ++ l')) s' ∧ s'.rest = q ∧ KeepsD d s' ∧ Spot x L s' := by
  have hrd := lang_reads_value (x := x) hx hw
  have hr0 := lang_reads_value (x := .empty) rfl hw
  obtain ⟨s1, h1, r1, k1⟩ := skipWs_ok (s := d) (l := []) (by rw [hr]; rfl) .nil (hrd.1.noLayout (l' ++ q))
  obtain ⟨c1, -⟩ := Sf.skipWs.spot hs h1
  obtain ⟨s2, l2, h2, r2, k2, e2⟩ := hrd.2 s1 l' q ⟨c1.nv, c1.exts, fun m hm => hL m (c1.limit.symm.trans hm)⟩ r1 hl' hq
  obtain ⟨c2, -, -⟩ := deValue_snd hx c1 (skipWs_noLayout h1) h2
  obtain ⟨s3, h3, r3, k3⟩ := skipWs_ok r2 k2 hq.noLayout
  obtain ⟨c3, -⟩ := Sf.skipWs.spot c2 h3
  have hchk : fromStr {} deIgnored (l ++ (w ++ l')) = .ok () := by
    have : Reads .empty n deIgnored w () := by
      refine ⟨hr0.1, fun d l q hp hd hl hq => ?_⟩
      obtain ⟨s', l'', e1, e2⟩ := hr0.2 d l q hp hd hl hq
      refine ⟨s', l'', ?_, e2⟩
      unfold deIgnored
      rw [bind_apply, e1]
      rfl
    exact doc_reads (hdr := []) (e := .empty) this hl .nil rfl (fun m hm => by cases hm; exact hn) hl'
  refine ⟨s3, ?_, r3, k1.toD.trans (e2.trans k3.toD), c3⟩
  have ht : d.preWs.take (d.preWs.length - s3.rest.length) = l ++ (w ++ l') := by
    rw [hp, r3]
    have : l ++ (w ++ (l' ++ q)) = (l ++ (w ++ l')) ++ q := by simp
    rw [this, List.length_append, Nat.add_sub_cancel, List.take_left' rfl]
  have hemp : s3.rest.isEmpty = false := by
    rw [r3]
    cases q with
    | nil => exact absurd rfl hne
    | cons c q => rfl
  unfold deIgnored at hchk
  unfold deRaw deIgnored
  simp only [bind_apply, getSt_apply, h1, h2, pure_apply, h3, hasUnclosedLineComment, hemp, Bool.false_and, Bool.false_eq_true, ↓reduceIte, ht,
    hchk]

omit [Env] in
theorem Tracked.step {s : St} (h : Tracked s) {c : Char} {r p : Text} (hr : s.rest = c :: r) : Moved { s with prev := p, rest := r } := by
  obtain ⟨k, h1, h2⟩ := h (by rw [hr]; simp)
  refine ⟨k, h1, ?_⟩
  rw [hr] at h2
  simp only [List.length_cons] at h2
  show r.length + k < s.preWs.length
  omega

/-- A comma between two raw values. -/
theorem comma_at {x : Exts} {L : Option Nat} {l r : Text} {d : St} (hs : Spot x L d) (hd : d.rest = ',' :: (l ++ r)) (hl : Layout l)
    (hr : NoLayoutStart r) (hne : r ≠ []) : ∃ s', comma d = .ok true s' ∧ RawAt x L (l ++ r) s' ∧ KeepsD d s' := by
  obtain ⟨s1, h1, r1, k1⟩ := skipWs_ok (s := d) (l := []) (by rw [hd]; rfl) .nil (stop_cons (c := ',') (by simp)).noLayout
  obtain ⟨c1, -⟩ := Sf.skipWs.spot hs h1
  have hc := consumeChar_true r1
  obtain ⟨c2, -⟩ := (Sf.consumeChar ',').spot c1 hc
  have hm := c1.tracked.step (p := s1.rest) r1
  obtain ⟨s3, h3, r3, k3, c3, w3, p3⟩ := RawAt.skip ⟨c2, .inl ⟨hm, rfl⟩⟩ hl hr hne
  refine ⟨s3, ?_, ⟨c3, .inr ⟨w3, p3, by rw [r3]; exact hr⟩⟩, k1.toD.trans ((KeepsD.step _ _ _).trans k3)⟩
  unfold comma
  simp only [bind_apply, h1, hc, ↓reduceIte, h3, pure_apply]

theorem comma_at_end {x : Exts} {L : Option Nat} {r : Text} {c : Char} {d : St} (hs : Spot x L d) (hd : d.rest = c :: r)
    (hc : c ∈ [')', ']', '}']) : ∃ s', comma d = .ok false s' ∧ s'.rest = c :: r ∧ Spot x L s' ∧ KeepsD d s' := by
  obtain ⟨s1, h1, r1, k1⟩ := skipWs_ok (s := d) (l := []) (by rw [hd]; rfl) .nil
    (stop_cons (c := c) (by revert hc; simp; rintro (rfl | rfl | rfl) <;> simp)).noLayout
  obtain ⟨c1, -⟩ := Sf.skipWs.spot hs h1
  refine ⟨s1, ?_, r1, c1, k1.toD⟩
  have : startsWith s1.rest [','] = false := by
    rw [r1]
    revert hc
    simp
    rintro (rfl | rfl | rfl) <;> decide
  unfold comma consumeChar
  simp only [bind_apply, h1, consumeStr_false this, Bool.false_eq_true, ↓reduceIte, pure_apply]

/-- A raw value in a sequence, with what stands behind it. -/
theorem nextElement_raw {x : Exts} (hx : x.unwrapVariantNewtypes = false) {L : Option Nat} {n : Nat} {t q : Text} {v : Value} {d : St} (ht : Pad (Lang n) t v)
    (hd : RawAt x L (t ++ q) d) (hn : n ≤ 128) (hL : ∀ m, L = some m → n + 1 ≤ m) (hq : Stop q) (hne : q ≠ []) :
    ∃ s1 s', hasElement ']' true d = .ok true s1 ∧ deGuardQ deRaw s1 = .ok t s' ∧ s'.rest = q ∧ KeepsD d s' ∧ Spot x L s' := by
  obtain ⟨l, w, l', rfl, hl, hw, hl'⟩ := ht
  have hrd := lang_reads_value (x := x) hx hw
  obtain ⟨s1, h1, r1, k1, c1, w1, p1⟩ := RawAt.skip (l := l) (r := w ++ (l' ++ q)) (by simpa using hd) hl (hrd.1.noLayout _)
    (by simp [hrd.1.ne])
  have hb : Budget s1 (n + 1) := fun m hm => hL m (c1.limit.symm.trans hm)
  have c1' : Spot x (lower L) { s1 with limit := s1.limit.map (· - 1) } :=
    ⟨⟨c1.inside.rest, c1.inside.prev, c1.inside.preWs⟩, c1.tracked, c1.nv, c1.exts, by simp [lower, c1.limit]⟩
  obtain ⟨s2, h2, r2, k2, c2⟩ := deRaw_at hx c1' w1 p1 r1 hw hl hl' hn (fun m hm => by
    cases hL' : L with
    | none => simp [lower, hL'] at hm
    | some m' =>
      have := hL m' hL'
      simp [lower, hL'] at hm
      omega) hq hne
  obtain ⟨g1, g2⟩ := deGuardQ_ok hb h2 k2
  refine ⟨s1, _, ?_, g1, r2, k1.trans g2, ⟨⟨c2.inside.rest, c2.inside.prev, c2.inside.preWs⟩, c2.tracked, c2.nv, c2.exts, c1.limit⟩⟩
  have hnt : startsWith s1.rest [']'] = false := by rw [r1]; exact hrd.1.notDelim _ (by simp)
  unfold hasElement
  simp only [bind_apply, h1, checkChar_apply, hnt, ↓reduceIte]
  rfl

theorem pad_ne {n : Nat} {t : Text} {v : Value} (h : Pad (Lang n) t v) : t ≠ [] := by
  obtain ⟨l, w, l', rfl, -, hw, -⟩ := h
  simp [(lang_reads_value (x := .empty) rfl hw).1.ne]

omit [Env] in
theorem joinComma_length : ∀ {ts : List Text}, (∀ t ∈ ts, t ≠ []) → ts.length ≤ (joinComma ts).length
  | [], _ => Nat.zero_le _
  | [t], h => List.length_pos_iff.mpr (h t (by simp))
  | t :: u :: ts, h => by
    have := joinComma_length (ts := u :: ts) (fun v hv => h v (by simp [List.mem_cons.mp hv]))
    simp only [joinComma, List.length_append, List.length_cons] at this ⊢
    omega

theorem guardQ_map {α β : Type} {f : P α} {g : α → β} {s s' : St} {a : α} (h : deGuardQ f s = .ok a s') :
    deGuardQ (do let t ← f; pure (g t)) s = .ok (g a) s' := by
  unfold deGuardQ at h ⊢
  simp only [bind_apply, pure_apply] at h ⊢
  generalize s.limit = L at h ⊢
  match L with
  | some 0 => cases h
  | some (m + 1) =>
    simp only at h ⊢
    generalize f _ = r at h ⊢
    cases r <;> cases h
    rfl
  | none =>
    simp only at h ⊢
    generalize f _ = r at h ⊢
    cases r <;> cases h
    rfl

theorem joinComma_start {x : Exts} {n : Nat} {ts : List Text} (hts : ∀ t ∈ ts, ∃ v, Pad (Lang n) t v) (hne : ts ≠ []) (q : Text)
    (hx : x.unwrapVariantNewtypes = false) : ∃ l r, joinComma ts ++ q = l ++ r ∧ Layout l ∧ NoLayoutStart r ∧ r ≠ [] := by
  match ts, hne with
  | t :: ts, _ =>
    obtain ⟨v, l, w, l', rfl, hl, hw, hl'⟩ := hts t (by simp)
    have hrd := lang_reads_value (x := x) hx hw
    obtain ⟨y, hy⟩ : ∃ y, joinComma ((l ++ (w ++ l')) :: ts) = l ++ (w ++ l') ++ y := by
      cases ts with
      | nil => exact ⟨[], by simp [joinComma]⟩
      | cons u ts => exact ⟨_, rfl⟩
    exact ⟨l, w ++ (l' ++ y ++ q), by rw [hy]; simp, hl, hrd.1.noLayout _, by simp [hrd.1.ne]⟩

/-- The raw values of a sequence. -/
theorem seqLoop_raw {x : Exts} (hx : x.unwrapVariantNewtypes = false) {L : Option Nat} {n : Nat} (hn : n ≤ 128) (hL : ∀ m, L = some m → n + 1 ≤ m) :
    ∀ (ts : List Text) (f : Nat) (d : St) (r : Text), ts ≠ [] → (∀ t ∈ ts, ∃ v, Pad (Lang n) t v) →
      RawAt x L (joinComma ts ++ ']' :: r) d → ts.length < f →
      ∃ s', seqLoop ']' (do let t ← deRaw; pure (SVal.raw t)) f true d = .ok (ts.map .raw) s' ∧ s'.rest = ']' :: r ∧ KeepsD d s' := by
  intro ts
  induction ts with
  | nil => intro f d r h; exact absurd rfl h
  | cons t ts ih =>
    intro f d r _ hts hd hf
    obtain ⟨v, ht⟩ := hts t (by simp)
    cases ts with
    | nil =>
      obtain ⟨f, rfl⟩ : ∃ g, f = g + 1 + 1 := ⟨f - 2, by simp at hf; omega⟩
      obtain ⟨s1, s2, h1, h2, r2, k2, c2⟩ := nextElement_raw hx ht (q := ']' :: r) (by simpa [joinComma] using hd) hn hL
        (stop_cons (by simp)) (by simp)
      obtain ⟨s3, h3, r3, c3, k3⟩ := comma_at_end c2 r2 (by simp)
      obtain ⟨s4, h4, r4, k4⟩ := nextElement_end (seed := (do let t ← deRaw; pure (SVal.raw t))) (term := ']') false (by simp) (l := [])
        (by simpa using r3) .nil
      refine ⟨s4, ?_, r4, k2.trans (k3.trans k4)⟩
      rw [seqLoop]
      unfold nextElement
      simp only [bind_apply, h1, ↓reduceIte, guardQ_map (g := SVal.raw) h2, h3, pure_apply]
      rw [seqLoop]
      simp only [bind_apply, h4, pure_apply, List.map_cons, List.map_nil]
    | cons u ts =>
      obtain ⟨f, rfl⟩ : ∃ g, f = g + 1 := ⟨f - 1, by simp at hf; omega⟩
      obtain ⟨s1, s2, h1, h2, r2, k2, c2⟩ := nextElement_raw hx ht (q := ',' :: (joinComma (u :: ts) ++ ']' :: r))
        (by simpa [joinComma] using hd) hn hL (stop_cons (by simp)) (by simp)
      obtain ⟨l, r', e, hl, hr', hne⟩ := joinComma_start (fun t h => hts t (by simp [List.mem_cons.mp h])) (List.cons_ne_nil u ts) (']' :: r) hx
      obtain ⟨s3, h3, c3, k3⟩ := comma_at c2 (by rw [r2, e]) hl hr' hne
      obtain ⟨s4, h4, r4, k4⟩ := ih f s3 r (by simp) (fun t h => hts t (by simp [List.mem_cons.mp h])) (by rw [e]; exact c3)
        (by simp at hf ⊢; omega)
      refine ⟨s4, ?_, r4, k2.trans (k3.trans k4)⟩
      rw [seqLoop]
      unfold nextElement
      simp only [bind_apply, h1, ↓reduceIte, guardQ_map (g := SVal.raw) h2, h3, pure_apply, h4, List.map_cons]

/-- A sequence of raw values, as a document. -/
theorem rawSeq_reads (D : Nat → Ty) (f : Nat) {o : Options} (hx : o.defaultExtensions.unwrapVariantNewtypes = false) {n : Nat} (hn : n ≤ 128)
    (hL : ∀ m, o.recursionLimit = some m → n + 2 ≤ m) {ts : List Text} (hts : ∀ t ∈ ts, ∃ v, Pad (Lang n) t v) :
    fromStr o (deTy D (f + 2) (.seq .raw)) ('[' :: (joinComma ts ++ [']'])) = .ok (.seq (some ts.length) (ts.map .raw)) := by
  obtain ⟨p0, h0, r0, e0, -, n0, -, m0⟩ := parserNew_ok (l := []) (r := '[' :: (joinComma ts ++ [']'])) .nil .nil
    (fun c r h => by cases h; exact ⟨by decide, by decide⟩) (by simp)
    { St.init ('[' :: (joinComma ts ++ [']'])) with limit := o.recursionLimit } (by simp [St.init])
  obtain ⟨sp, wd⟩ := spot_new (o := o) (t := '[' :: (joinComma ts ++ [']'])) h0
  have hx' : (p0.exts.union o.defaultExtensions).unwrapVariantNewtypes = false := by
    rw [e0]
    simpa [Exts.union, St.init, Exts.empty] using hx
  generalize hex : p0.exts.union o.defaultExtensions = x at sp hx'
  have hb : Budget { p0 with exts := x } (n + 2) := fun m hm => hL m (m0.symm.trans hm)
  let d1 : St := { p0 with exts := x, nv := false, prev := p0.rest, rest := joinComma ts ++ [']'] }
  have hm1 : Moved d1 := sp.tracked.step (s := { p0 with exts := x }) (p := p0.rest) r0
  have hk1 : KeepsD { p0 with exts := x } d1 := ⟨rfl, rfl, rfl, fun _ => rfl⟩
  have hc1 : consumeChar '[' { p0 with exts := x, nv := false } = .ok true d1 :=
    consumeChar_true (s := { p0 with exts := x, nv := false }) r0
  have c1 : Spot x o.recursionLimit d1 := by
    have := ((Sf.consumeChar '[').spot (s := { p0 with exts := x, nv := false })
      ⟨⟨sp.inside.rest, sp.inside.prev, sp.inside.preWs⟩, sp.tracked, rfl, sp.exts, sp.limit⟩ hc1).1
    exact this
  let d2 : St := { d1 with limit := d1.limit.map (· - 1) }
  have c2 : Spot x (lower o.recursionLimit) d2 :=
    ⟨⟨c1.inside.rest, c1.inside.prev, c1.inside.preWs⟩, c1.tracked, c1.nv, c1.exts, by simp only [d2, lower, c1.limit]⟩
  have hloop : ∃ s', readSeq ']' (deTy D (f + 1) .raw) d2 = .ok (ts.map .raw) s' ∧ s'.rest = [']'] ∧ KeepsD d2 s' := by
    unfold readSeq
    simp only [bind_apply, getSt_apply]
    rw [show deTy D (f + 1) .raw = (do let t ← deRaw; pure (SVal.raw t)) from rfl]
    cases ts with
    | nil =>
      obtain ⟨s4, h4, r4, k4⟩ := nextElement_end (seed := (do let t ← deRaw; pure (SVal.raw t))) (term := ']') (d := d2) (r := []) true
        (by simp) (l := []) rfl .nil
      refine ⟨s4, ?_, r4, k4⟩
      rw [seqLoop]
      simp only [bind_apply, h4, pure_apply, List.map_nil]
    | cons t ts =>
      refine seqLoop_raw hx' hn (fun m hm => ?_) (t :: ts) _ d2 [] (by simp) hts ⟨c2, .inl ⟨hm1, rfl⟩⟩ ?_
      · cases hL' : o.recursionLimit with
        | none => simp [lower, hL'] at hm
        | some m' =>
          have := hL m' hL'
          simp [lower, hL'] at hm
          omega
      · have := joinComma_length (fun t h => pad_ne (hts t h).choose_spec)
        show (t :: ts).length < (joinComma (t :: ts) ++ [']']).length + _
        simp only [List.length_append] at this ⊢
        omega
  obtain ⟨s1, h1, h2, h3⟩ := hloop
  obtain ⟨g1, g2⟩ := deGuardQ_ok (s := d1) (n := n + 1) (hb.keep hk1) h1 h3
  obtain ⟨s2, k1, k2, k3⟩ := skipWs_tok (d := { s1 with limit := d1.limit }) (l := []) (r := [']']) h2 layout_nil
    (stop_cons (by simp)).noLayout
  obtain ⟨s4, q1, q2, -⟩ := skipWs_tok (d := { s2 with prev := s2.rest, rest := [] }) (l := []) (r := []) rfl layout_nil
    (fun c r e => by cases e)
  have hval : deTy D (f + 2) (.seq .raw) { p0 with exts := x } = .ok (.seq (some ts.length) (ts.map .raw)) { s2 with prev := s2.rest, rest := [] } := by
    unfold deTy deSeq
    simp only [bind_apply, setNv_apply, hc1, ↓reduceIte, g1, k1, consumeChar_true k2, pure_apply, List.length_map]
  unfold fromStr readDoc deNew deEnd
  simp only [bind_apply, modSt_apply, h0, hex, hval, q1, getSt_apply, q2, List.isEmpty_nil, ↓reduceIte, pure_apply]
  rfl

end Ron
