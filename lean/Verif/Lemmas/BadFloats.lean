import Verif.Spec.BadNumbers
import Verif.Lemmas.BadStrings
import Verif.Lemmas.Float
/-! # Lemmas about malformed floats -/

namespace Ron

/-- Are underscores allowed after `p`? -/
def allowAfter (p : Text) (a : Bool) : Bool :=
  p.foldl (fun a c => if isDigit c || c == 'e' || c == 'E' then true else if c == '.' then false else a) a

theorem floatStrip_append (u : Text) : ∀ (p f : Text) (i : Nat) (a : Bool), floatStrip p i a = .ok f →
    floatStrip (p ++ u) i a = (floatStrip u (i + p.length) (allowAfter p a)).map (f ++ ·) := by
  intro p
  induction p with
  | nil =>
    intro f i a h
    cases h
    simp only [List.nil_append, List.length_nil, Nat.add_zero, allowAfter, List.foldl_nil]
    cases floatStrip u i a <;> rfl
  | cons c p ih =>
    intro f i a h
    have hi : i + (c :: p).length = (i + 1) + p.length := by simp; omega
    rw [List.cons_append, hi]
    rw [floatStrip] at h ⊢
    by_cases hu : c = '_'
    · subst hu
      simp only [beq_self_eq_true, ↓reduceIte] at h ⊢
      cases a with
      | false => cases h
      | true =>
        simp only [↓reduceIte] at h ⊢
        exact ih f (i + 1) true h
    · have hb : (c == '_') = false := by simpa using hu
      simp only [hb, Bool.false_eq_true, ↓reduceIte] at h ⊢
      show _ = Except.map _ (floatStrip u (i + 1 + p.length) (allowAfter p (if isDigit c || c == 'e' || c == 'E' then true else if c == '.' then false else a)))
      generalize (if (isDigit c || c == 'e' || c == 'E') = true then true else if (c == '.') = true then false else a) = a' at *
      cases hf : floatStrip p (i + 1) a' with
      | error j => rw [hf] at h; cases h
      | ok g =>
        rw [hf] at h
        cases h
        rw [ih g (i + 1) a' hf]
        cases floatStrip u (i + 1 + p.length) (allowAfter p a') <;> rfl

/-- `.error` is the first misplaced underscore. -/
theorem floatStrip_first {p q : Text} (h : UnderscoresOk p)
    (hn : ¬ ∃ p1 c p2, p = p1 ++ c :: p2 ∧ c ∈ c!"0123456789eE" ∧ '.' ∉ p2) : floatStrip (p ++ '_' :: q) 0 false = .error p.length := by
  have h1 := floatStrip_ok h 0
  have ha : allowAfter p false = false := by
    have h2 := floatStrip_append ['_'] p _ 0 false h1
    obtain ⟨j, h3, -⟩ := floatStrip_bad (t := p ++ ['_']) (fun hu => hn (hu p [] rfl)) 0
    cases hx : allowAfter p false with
    | false => rfl
    | true => rw [h2, hx] at h3; cases h3
  rw [floatStrip_append _ p _ 0 false h1, ha, floatStrip]
  simp [Except.map]

variable [Env]

def realTarget : Bool → FloatTarget
  | true => .f32 | false => .f64

/-- A word that is not there. -/
theorem floatSpecial_absent (tg : FloatTarget) {lit : Text} {x : F32} {y : F64} {more : List (Text × F32 × F64)} {s : St}
    (h0 : startsWith s.rest lit = false) : floatSpecial tg ((lit, x, y) :: more) s = floatSpecial tg more s := by
  have ext : ∀ u, startsWith s.rest (lit ++ u) = false := by
    intro u
    rw [Bool.eq_false_iff]
    intro h
    obtain ⟨r, hr⟩ := (startsWith_iff _ _).mp h
    rw [hr, List.append_assoc] at h0
    simp at h0
  rw [floatSpecial, bind_apply, consumeIdent_false (.inl h0)]
  simp only [Bool.false_eq_true, ↓reduceIte, bind_apply, getSt_apply, ext, Bool.false_and]

/-- A word that is not there as a whole. -/
theorem floatSpecial_miss (tg : FloatTarget) {lit : Text} {x : F32} {y : F64} {more : List (Text × F32 × F64)} {s : St}
    (h0 : ∀ r, s.rest = lit ++ r → ¬ NoIdentStart r) (h1 : ∀ b r, s.rest = lit ++ (floatTag b ++ r) → ¬ NoIdentStart r) :
    floatSpecial tg ((lit, x, y) :: more) s = floatSpecial tg more s := by
  have ext : ∀ b, (startsWith s.rest (lit ++ floatTag b) && !headXid (s.rest.drop (lit.length + 3))) = false := by
    intro b
    rw [Bool.eq_false_iff]
    intro h
    simp only [Bool.and_eq_true, Bool.not_eq_true'] at h
    obtain ⟨r, hr⟩ := (startsWith_iff _ _).mp h.1
    refine h1 b r (by rw [hr]; simp) ?_
    have hl : lit.length + 3 = (lit ++ floatTag b).length := by cases b <;> simp [floatTag]
    rw [hr, hl, List.drop_left] at h
    exact headXid_false.mp h.2
  have hc : consumeIdent lit s = .ok false s := by
    rcases consumeIdent_cases lit s with ⟨r, a1, a2, -⟩ | ⟨-, h⟩
    · exact absurd a2 (h0 r a1)
    · exact h
  have e1 := ext true
  have e2 := ext false
  simp only [floatTag] at e1 e2
  rw [floatSpecial, bind_apply, hc]
  simp only [Bool.false_eq_true, ↓reduceIte, bind_apply, getSt_apply, e1, e2]

/-- A word that is there. -/
theorem floatSpecial_there (tg : FloatTarget) {lit r : Text} {x : F32} {y : F64} {more : List (Text × F32 × F64)} {s : St} {tag : Option Bool}
    (hs : s.rest = lit ++ ((match tag with | some b => floatTag b | none => []) ++ r)) (hr : NoIdentStart r) :
    floatSpecial tg ((lit, x, y) :: more) s =
      (match tag with
      | none => (do let v ← tg.parse lit; pure (some v) : P (Option Number))
      | some true => (do let v ← tg.tryFrom (.f32 x) (lit ++ floatTag true); pure (some v) : P (Option Number))
      | some false => (do let v ← tg.tryFrom (.f64 y) (lit ++ floatTag false); pure (some v) : P (Option Number)))
      { s with prev := s.rest, rest := r } := by
  cases tag with
  | none =>
    rw [floatSpecial, bind_apply, consumeIdent_true hs hr]
    rfl
  | some b =>
    simp only at hs
    have hx : headXid (floatTag b ++ r) = true := by
      cases b <;> exact xid_cont_ascii (by decide)
    have hc : consumeIdent lit s = .ok false s := consumeIdent_false (.inr (by rw [hs, List.drop_left]; exact hx))
    have hl : lit.length + 3 = (lit ++ floatTag b).length := by cases b <;> simp [floatTag]
    have hs' : s.rest = (lit ++ floatTag b) ++ r := by rw [hs]; simp
    have hw : lit.length + 3 ≤ s.rest.length := by rw [hs', hl]; simp
    have hd : s.rest.drop (lit.length + 3) = r := by rw [hl, hs', List.drop_left]
    have ht : s.rest.take (lit.length + 3) = lit ++ floatTag b := by rw [hl, hs', List.take_left]
    rw [floatSpecial, bind_apply, hc]
    simp only [Bool.false_eq_true, ↓reduceIte, bind_apply, getSt_apply, hd, headXid_false.mpr hr, Bool.not_false, Bool.and_true]
    cases b with
    | true =>
      have : startsWith s.rest (lit ++ c!"f32") = true := by rw [hs']; exact startsWith_append _ _
      rw [this]
      simp only [↓reduceIte, bind_apply, advance_ok hw, ht, hd]
    | false =>
      have h1 : startsWith s.rest (lit ++ c!"f32") = false := by
        rw [Bool.eq_false_iff]; intro h
        obtain ⟨q, hq⟩ := (startsWith_iff _ _).mp h
        rw [hs', List.append_assoc, List.append_assoc, List.append_cancel_left_eq] at hq
        simp [floatTag] at hq
      have : startsWith s.rest (lit ++ c!"f64") = true := by rw [hs']; exact startsWith_append _ _
      rw [h1, this]
      simp only [Bool.false_eq_true, ↓reduceIte, bind_apply, advance_ok hw, ht, hd]

theorem floatSpecial_found (tg : FloatTarget) {u w r : Text} {x : F32} {y : F64} {s : St} {tag : Option Bool} (hu : s.rest = u) (h : WordAt u w x y tag r) :
    floatSpecial tg floatLiterals s =
      (match tag with
      | none => (do let v ← tg.parse w; pure (some v) : P (Option Number))
      | some true => (do let v ← tg.tryFrom (.f32 x) (w ++ floatTag true); pure (some v) : P (Option Number))
      | some false => (do let v ← tg.tryFrom (.f64 y) (w ++ floatTag false); pure (some v) : P (Option Number)))
      { s with prev := s.rest, rest := r } := by
  obtain ⟨hw, e, hr⟩ := h
  subst hu
  unfold floatLiterals
  cases hw
  · exact floatSpecial_there tg e hr
  · iterate 1 rw [floatSpecial_absent tg (by rw [e]; simp [startsWith, List.isPrefixOf])]
    exact floatSpecial_there tg e hr
  · iterate 2 rw [floatSpecial_absent tg (by rw [e]; simp [startsWith, List.isPrefixOf])]
    exact floatSpecial_there tg e hr
  · iterate 3 rw [floatSpecial_absent tg (by rw [e]; simp [startsWith, List.isPrefixOf])]
    exact floatSpecial_there tg e hr
  · iterate 4 rw [floatSpecial_absent tg (by rw [e]; simp [startsWith, List.isPrefixOf])]
    exact floatSpecial_there tg e hr
  · iterate 5 rw [floatSpecial_absent tg (by rw [e]; simp [startsWith, List.isPrefixOf])]
    exact floatSpecial_there tg e hr

theorem floatSpecial_noWord (tg : FloatTarget) {u : Text} {s : St} (hu : s.rest = u) (h : ∀ w x y tag r', ¬ WordAt u w x y tag r') :
    floatSpecial tg floatLiterals s = .ok none s := by
  subst hu
  unfold floatLiterals
  have key : ∀ {w x y more}, FloatWord w x y → floatSpecial tg ((w, x, y) :: more) s = floatSpecial tg more s := by
    intro w x y more hw
    refine floatSpecial_miss tg (fun r e hr => h w x y none r ⟨hw, by simpa using e, hr⟩) (fun b r e hr => h w x y (some b) r ⟨hw, e, hr⟩)
  rw [key .inf, key .posInf, key .negInf, key .nan, key .posNan, key .negNan]
  rfl

theorem word_parse {w : Text} {x : F32} {y : F64} (h : FloatWord w x y) : Env.parse32 w = some x ∧ Env.parse64 w = some y := by
  cases h
  · exact ⟨Env.parse32_inf.1, Env.parse64_inf.1⟩
  · exact ⟨Env.parse32_inf.2.1, Env.parse64_inf.2.1⟩
  · exact ⟨Env.parse32_inf.2.2, Env.parse64_inf.2.2⟩
  · exact ⟨Env.parse32_nan.1, Env.parse64_nan.1⟩
  · exact ⟨Env.parse32_nan.2.1, Env.parse64_nan.2.1⟩
  · exact ⟨Env.parse32_nan.2.2, Env.parse64_nan.2.2⟩

/-- Evaluation of `float` where there is no word. -/
theorem float_split (tg : FloatTarget) {s : St} {u t r : Text} (hu : s.rest = u) (h : FloatSplit u t r) :
    float tg s = (if t.length == 0 then fail .expectedFloat
      else if startsWith s.rest ['_'] then fail .underscoreAtBeginning
      else match floatStrip t 0 false with
      | .error i => do
        advance i
        fail .floatUnderscore
      | .ok f => do
        let plain : P Number := do
          let v ← tg.parse f
          advance t.length
          pure v
        if startsWith r ['f'] then
          let backup ← cursor
          advance t.length
          let which ← (do
            if ← consumeIdent c!"f32" then pure (some true)
            else if ← consumeIdent c!"f64" then pure (some false)
            else pure none : P (Option Bool))
          match which with
          | some is32 =>
            let parsed := if is32 then (Env.parse32 f).map Number.f32 else (Env.parse64 f).map Number.f64
            match parsed with
            | none =>
              setCursor backup
              fail .expectedFloat
            | some v =>
              let s' ← getSt
              tg.tryFrom v (backup.rest.take (backup.rest.length - s'.rest.length))
          | none =>
            setCursor backup
            plain
        else plain) s := by
  unfold float
  rw [bind_apply, floatSpecial_noWord tg hu h.noWord]
  simp only
  rw [getSt_bind]
  have hs := hu.trans h.text
  have e : (findSub c!".." (s.rest.takeWhile isFloatChar)).getD (s.rest.takeWhile isFloatChar).length = t.length := by
    have := floatLen_of_run h.chars h.noDots h.follow
    rw [← hs] at this
    exact this
  simp only [e]
  rw [show s.rest.take t.length = t by rw [hs]; simp, show s.rest.drop t.length = r by rw [hs]; simp]
  rfl

theorem realTarget_parse (b : Bool) (t : Text) (s : St) : (realTarget b).parse t s = match stdNumber b t with
    | some v => .ok v s
    | none => .err .expectedFloat s := by
  cases b with
  | true => simp only [realTarget, FloatTarget.parse, stdNumber, ↓reduceIte]; cases Env.parse32 t <;> rfl
  | false => simp only [realTarget, FloatTarget.parse, stdNumber, Bool.false_eq_true, ↓reduceIte]; cases Env.parse64 t <;> rfl

theorem realTarget_same {b : Bool} {t : Text} {v : Number} (h : stdNumber b t = some v) (l : Text) (s : St) :
    (realTarget b).tryFrom v l s = .ok v s := by
  cases b with
  | true => simp only [stdNumber, ↓reduceIte, Option.map_eq_some_iff] at h; obtain ⟨x, -, rfl⟩ := h; rfl
  | false => simp only [stdNumber, Bool.false_eq_true, ↓reduceIte, Option.map_eq_some_iff] at h; obtain ⟨x, -, rfl⟩ := h; rfl

theorem realTarget_other {b b' : Bool} {t : Text} {v : Number} (h : stdNumber b' t = some v) (hb : b' ≠ b) (l : Text) (s : St) :
    (realTarget b).tryFrom v l s = .err (.invalidValueForType (floatCalled b) l) s := by
  cases b' with
  | true =>
    cases b with
    | true => exact absurd rfl hb
    | false => simp only [stdNumber, ↓reduceIte, Option.map_eq_some_iff] at h; obtain ⟨x, -, rfl⟩ := h; rfl
  | false =>
    cases b with
    | false => exact absurd rfl hb
    | true => simp only [stdNumber, Bool.false_eq_true, ↓reduceIte, Option.map_eq_some_iff] at h; obtain ⟨x, -, rfl⟩ := h; rfl

theorem head_startsWith {t r : Text} (hne : t ≠ []) : startsWith (t ++ r) ['_'] = true ↔ t.head? = some '_' := by
  cases t with
  | nil => exact absurd rfl hne
  | cons c t =>
    simp [startsWith, List.isPrefixOf]
    exact eq_comm

/-- A run without a suffix. -/
theorem float_run (tg : FloatTarget) {s : St} {u t r : Text} (hu : s.rest = u) (h : FloatSplit u t r) (hne : t ≠ []) (hok : UnderscoresOk t)
    (hn : ∀ b' r', ¬ TagAt r b' r') :
    ∃ p, float tg s = (do
      let v ← tg.parse (plainFloat t)
      advance t.length
      pure v : P Number) { s with prev := p } := by
  have hs := hu.trans h.text
  have h0 : (t.length == 0) = false := by
    cases t with
    | nil => exact absurd rfl hne
    | cons => rfl
  have h1 : startsWith s.rest ['_'] = false := by rw [hs]; exact hok.head hne
  have hw : t.length ≤ s.rest.length := by rw [hs]; simp
  have hd : s.rest.drop t.length = r := by rw [hs, List.drop_left]
  have hc : ∀ (b' : Bool) (s' : St), s'.rest = r → consumeIdent (floatTag b') s' = .ok false s' := by
    intro b' s' e
    rcases consumeIdent_cases (floatTag b') s' with ⟨q, a1, a2, -⟩ | ⟨-, h⟩
    · exact absurd ⟨e.symm.trans a1, a2⟩ (hn b' q)
    · exact h
  have hc1 := hc true
  have hc2 := hc false
  simp only [floatTag] at hc1 hc2
  rw [float_split _ hu h, floatStrip_ok hok]
  simp only [h0, h1, Bool.false_eq_true, ↓reduceIte]
  by_cases hf : startsWith r ['f'] = true
  · simp only [hf, ↓reduceIte, bind_apply, cursor_apply, advance_ok hw]
    rw [hc1 _ hd]
    simp only [Bool.false_eq_true, ↓reduceIte, bind_apply]
    rw [hc2 _ hd]
    simp only [Bool.false_eq_true, ↓reduceIte, pure_apply, bind_apply, setCursor_apply]
    exact ⟨_, rfl⟩
  · simp only [hf, Bool.false_eq_true, ↓reduceIte]
    exact ⟨s.prev, rfl⟩

theorem float_run_plain (b : Bool) {s : St} {u t r : Text} (hu : s.rest = u) (h : FloatSplit u t r) (hne : t ≠ []) (hok : UnderscoresOk t)
    (hn : ∀ b' r', ¬ TagAt r b' r') :
    match stdNumber b (plainFloat t) with
    | some v => RunsW (float (realTarget b)) s v r
    | none => Errs (float (realTarget b)) s .expectedFloat u := by
  have hs := hu.trans h.text
  have hw : t.length ≤ s.rest.length := by rw [hs]; simp
  have hd : s.rest.drop t.length = r := by rw [hs, List.drop_left]
  obtain ⟨p, hp⟩ := float_run (realTarget b) hu h hne hok hn
  simp only [bind_apply, realTarget_parse] at hp
  cases hv : stdNumber b (plainFloat t) with
  | none =>
    simp only [hv] at hp ⊢
    exact ⟨_, hp, hu, ⟨⟨rfl, rfl, rfl, rfl, rfl⟩, rfl, rfl⟩⟩
  | some v =>
    simp only [hv, advance_apply, hw, ↓reduceIte, pure_apply] at hp ⊢
    exact ⟨_, hp, hd, ⟨⟨rfl, rfl, rfl, rfl, rfl⟩, rfl, rfl⟩⟩

/-- A run with a suffix. -/
theorem float_run_tag (tg : FloatTarget) {s : St} {u t r r' : Text} {b' : Bool} (hu : s.rest = u) (h : FloatSplit u t r) (hne : t ≠ []) (hok : UnderscoresOk t)
    (ht : TagAt r b' r') :
    match stdNumber b' (plainFloat t) with
    | some v => ∃ p, float tg s = tg.tryFrom v (t ++ floatTag b') { s with prev := p, rest := r' }
    | none => Errs (float tg) s .expectedFloat u := by
  obtain ⟨rfl, hr⟩ := ht
  have hs := hu.trans h.text
  have h0 : (t.length == 0) = false := by
    cases t with
    | nil => exact absurd rfl hne
    | cons => rfl
  have h1 : startsWith s.rest ['_'] = false := by rw [hs]; exact hok.head hne
  have hw : t.length ≤ s.rest.length := by rw [hs]; simp
  have hd : s.rest.drop t.length = floatTag b' ++ r' := by rw [hs, List.drop_left]
  have hf : startsWith (floatTag b' ++ r') ['f'] = true := by cases b' <;> simp [floatTag, startsWith, List.isPrefixOf]
  have htk : List.take (s.rest.length - r'.length) s.rest = t ++ floatTag b' := by
    rw [hs, show t ++ (floatTag b' ++ r') = (t ++ floatTag b') ++ r' by simp]
    rw [List.length_append, Nat.add_sub_cancel, List.take_left]
  have key : float tg s = (match stdNumber b' (plainFloat t) with
      | none => .err .expectedFloat { s with prev := floatTag b' ++ r' }
      | some v => tg.tryFrom v (t ++ floatTag b') { s with prev := floatTag b' ++ r', rest := r' }) := by
    rw [float_split _ hu h, floatStrip_ok hok]
    simp only [h0, h1, hf, Bool.false_eq_true, ↓reduceIte, bind_apply, cursor_apply, advance_ok hw, hd]
    cases b' with
    | true =>
      rw [consumeIdent_true (t := c!"f32") rfl hr]
      simp only [↓reduceIte, pure_apply, stdNumber]
      cases (Env.parse32 (plainFloat t)).map Number.f32 with
      | none => simp only [bind_apply, setCursor_apply, fail_apply]
      | some v => simp only [bind_apply, getSt_apply, htk]
    | false =>
      rw [consumeIdent_false (t := c!"f32") (.inl (by simp [floatTag, startsWith, List.isPrefixOf]))]
      simp only [Bool.false_eq_true, ↓reduceIte, bind_apply]
      rw [consumeIdent_true (t := c!"f64") rfl hr]
      simp only [Bool.false_eq_true, ↓reduceIte, pure_apply, stdNumber]
      cases (Env.parse64 (plainFloat t)).map Number.f64 with
      | none => simp only [bind_apply, setCursor_apply, fail_apply]
      | some v => simp only [bind_apply, getSt_apply, htk]
  cases hv : stdNumber b' (plainFloat t) with
  | none =>
    simp only [hv] at key ⊢
    exact ⟨_, key, hu, ⟨⟨rfl, rfl, rfl, rfl, rfl⟩, rfl, rfl⟩⟩
  | some v =>
    simp only [hv] at key ⊢
    exact ⟨_, key⟩

theorem float_good {b : Bool} {u r : Text} {v : Number} {s : St} (hu : s.rest = u) (h : GoodFloat b u v r) : RunsW (float (realTarget b)) s v r := by
  cases h with
  | @word w _ x y tag hw htag =>
    have hsp := floatSpecial_found (realTarget b) hu hw
    unfold RunsW float
    rw [bind_apply, hsp]
    have hp := word_parse hw.1
    rcases htag with rfl | rfl
    · cases b <;> simp only [bind_apply, realTarget, FloatTarget.parse, hp, pure_apply] <;>
        exact ⟨_, rfl, rfl, ⟨⟨rfl, rfl, rfl, rfl, rfl⟩, rfl, rfl⟩⟩
    · cases b <;> simp only [bind_apply, realTarget, FloatTarget.tryFrom, pure_apply] <;>
        exact ⟨_, rfl, rfl, ⟨⟨rfl, rfl, rfl, rfl, rfl⟩, rfl, rfl⟩⟩
  | plain hsp hne hok hn hv =>
    have := float_run_plain b hu hsp hne hok hn
    rw [hv] at this
    exact this
  | suffix hsp hne hok ht hv =>
    have := float_run_tag (realTarget b) hu hsp hne hok ht
    rw [hv] at this
    obtain ⟨p, hp⟩ := this
    rw [realTarget_same hv] at hp
    exact ⟨_, hp, rfl, ⟨⟨rfl, rfl, rfl, rfl, rfl⟩, rfl, rfl⟩⟩

theorem float_bad {b : Bool} {u r : Text} {e : Err} {s : St} (hu : s.rest = u) (h : BadFloat b u e r) : Errs (float (realTarget b)) s e r := by
  cases h with
  | @word w _ x y b' hw hb =>
    have hsp := floatSpecial_found (realTarget b) hu hw
    unfold Errs float
    rw [bind_apply, hsp]
    cases b <;> cases b' <;> first
      | (exact absurd rfl hb)
      | (simp only [bind_apply, realTarget, FloatTarget.tryFrom, fail_apply]
         exact ⟨_, rfl, rfl, ⟨⟨rfl, rfl, rfl, rfl, rfl⟩, rfl, rfl⟩⟩)
  | none hsp =>
    refine ⟨s, ?_, hu, KeepsW.refl s⟩
    rw [float_split _ hu hsp]
    rfl
  | @underscore t r hsp hh =>
    have hne : t ≠ [] := by rintro rfl; cases hh
    have h0 : (t.length == 0) = false := by
      cases t with
      | nil => exact absurd rfl hne
      | cons => rfl
    refine ⟨s, ?_, hu, KeepsW.refl s⟩
    rw [float_split _ hu hsp]
    have : startsWith s.rest ['_'] = true := by rw [hu, hsp.text]; exact (head_startsWith hne).mpr hh
    simp only [h0, this, Bool.false_eq_true, ↓reduceIte, fail_apply]
  | @misplaced t r p q hsp hh ht hok hn =>
    have hne : t ≠ [] := by rintro rfl; simp at ht
    have h0 : (t.length == 0) = false := by
      cases t with
      | nil => exact absurd rfl hne
      | cons => rfl
    have h1 : startsWith s.rest ['_'] = false := by
      rw [hu, hsp.text, Bool.eq_false_iff]; exact fun h => hh ((head_startsWith hne).mp h)
    have hs : s.rest = p ++ ('_' :: q ++ r) := by rw [hu, hsp.text, ht]; simp
    have hw : p.length ≤ s.rest.length := by rw [hs]; simp
    unfold Errs
    rw [float_split _ hu hsp, ht, floatStrip_first hok hn]
    rw [ht] at h0
    simp only [h0, h1, Bool.false_eq_true, ↓reduceIte, bind_apply, advance_ok hw, fail_apply]
    exact ⟨_, rfl, by rw [hs, List.drop_left], ⟨⟨rfl, rfl, rfl, rfl, rfl⟩, rfl, rfl⟩⟩
  | plain hsp hne hok hn hv =>
    have := float_run_plain b hu hsp hne hok hn
    rw [hv] at this
    exact this
  | suffix hsp hne hok ht hv =>
    have := float_run_tag (realTarget b) hu hsp hne hok ht
    rw [hv] at this
    exact this
  | @other t r _ b' hsp hne hok ht hv hb =>
    have := float_run_tag (realTarget b) hu hsp hne hok ht
    cases hx : stdNumber b' (plainFloat t) with
    | none => exact absurd hx hv
    | some v =>
      rw [hx] at this
      obtain ⟨p, hp⟩ := this
      rw [realTarget_other hx hb] at hp
      exact ⟨_, hp, rfl, ⟨⟨rfl, rfl, rfl, rfl, rfl⟩, rfl, rfl⟩⟩

omit [Env] in
theorem floatRun_total : ∀ u : Text, ∃ t r, u = t ++ r ∧ (∀ c ∈ t, c ∈ floatAlphabet) ∧ ¬ (c!".." <:+: t) ∧
    ((∀ c r', r = c :: r' → c ∉ floatAlphabet) ∨ (c!".." <+: r ∧ ∀ p, t ≠ p ++ ['.'])) := by
  intro u
  induction u with
  | nil => exact ⟨[], [], rfl, by simp, by simp, .inl (by simp)⟩
  | cons c u ih =>
    by_cases hc : c ∈ floatAlphabet
    · by_cases hd : c = '.' ∧ u.head? = some '.'
      · obtain ⟨rfl, hd⟩ := hd
        cases u with
        | nil => cases hd
        | cons d u =>
          simp only [List.head?_cons, Option.some.injEq] at hd
          subst hd
          exact ⟨[], _, rfl, by simp, by simp, .inr ⟨⟨u, rfl⟩, by simp⟩⟩
      · obtain ⟨t, r, e, h1, h2, h3⟩ := ih
        refine ⟨c :: t, r, by rw [e]; rfl, ?_, ?_, ?_⟩
        · intro x hx
          simp only [List.mem_cons] at hx
          rcases hx with rfl | hx
          · exact hc
          · exact h1 x hx
        · intro h
          rcases List.infix_cons_iff.mp h with h | h
          · obtain ⟨q, hq⟩ := h
            simp only [List.cons_append, List.nil_append, List.cons.injEq] at hq
            obtain ⟨rfl, rfl⟩ := hq
            exact hd ⟨rfl, by rw [e]; rfl⟩
          · exact h2 h
        · rcases h3 with h3 | ⟨h3, h4⟩
          · exact .inl h3
          · refine .inr ⟨h3, fun p hp => ?_⟩
            cases p with
            | nil =>
              simp only [List.nil_append, List.cons.injEq] at hp
              obtain ⟨rfl, rfl⟩ := hp
              obtain ⟨q, rfl⟩ := h3
              exact hd ⟨rfl, by rw [e]; rfl⟩
            | cons d p =>
              simp only [List.cons_append, List.cons.injEq] at hp
              exact h4 p hp.2
    · exact ⟨[], c :: u, rfl, by simp, by simp, .inl (by rintro _ _ ⟨⟩; exact hc)⟩

omit [Env] in
theorem first_misplaced {t : Text} (h : ¬ UnderscoresOk t) : ∃ p q, t = p ++ '_' :: q ∧ UnderscoresOk p ∧
    ¬ ∃ p1 c p2, p = p1 ++ c :: p2 ∧ c ∈ c!"0123456789eE" ∧ '.' ∉ p2 := by
  have key : ∀ n p q, p.length ≤ n → t = p ++ '_' :: q → (¬ ∃ p1 c p2, p = p1 ++ c :: p2 ∧ c ∈ c!"0123456789eE" ∧ '.' ∉ p2) →
      ∃ p q, t = p ++ '_' :: q ∧ UnderscoresOk p ∧ ¬ ∃ p1 c p2, p = p1 ++ c :: p2 ∧ c ∈ c!"0123456789eE" ∧ '.' ∉ p2 := by
    intro n
    induction n with
    | zero =>
      intro p q hl e hn
      cases p with
      | nil => exact ⟨[], q, e, fun p q h => by simp at h, hn⟩
      | cons c p => simp at hl
    | succ n ih =>
      intro p q hl e hn
      by_cases hok : UnderscoresOk p
      · exact ⟨p, q, e, hok, hn⟩
      · unfold UnderscoresOk at hok
        simp only [Classical.not_forall] at hok
        obtain ⟨p', q', e', hn'⟩ := hok
        refine ih p' (q' ++ '_' :: q) ?_ (by rw [e, e']; simp) hn'
        rw [e'] at hl
        simp at hl
        omega
  unfold UnderscoresOk at h
  simp only [Classical.not_forall] at h
  obtain ⟨p, q, e, hn⟩ := h
  exact key p.length p q (Nat.le_refl _) e hn

theorem float_total (b : Bool) (u : Text) : (∃ v r, GoodFloat b u v r) ∨ ∃ e r, BadFloat b u e r := by
  by_cases hw : ∃ w x y tag r, WordAt u w x y tag r
  · obtain ⟨w, x, y, tag, r, hw⟩ := hw
    cases tag with
    | none => exact .inl ⟨_, _, .word hw (.inl rfl)⟩
    | some b' =>
      by_cases hb : b' = b
      · subst hb; exact .inl ⟨_, _, .word hw (.inr rfl)⟩
      · exact .inr ⟨_, _, .word hw hb⟩
  · obtain ⟨t, r, e, h1, h2, h3⟩ := floatRun_total u
    have hsp : FloatSplit u t r := ⟨fun w x y tag r h => hw ⟨w, x, y, tag, r, h⟩, e, h1, h2, h3⟩
    by_cases hne : t = []
    · subst hne; exact .inr ⟨_, _, .none hsp⟩
    by_cases hu : t.head? = some '_'
    · exact .inr ⟨_, _, .underscore hsp hu⟩
    by_cases hok : UnderscoresOk t
    · by_cases ht : ∃ b' r', TagAt r b' r'
      · obtain ⟨b', r', ht⟩ := ht
        cases hv : stdNumber b' (plainFloat t) with
        | none => exact .inr ⟨_, _, .suffix hsp hne hok ht hv⟩
        | some v =>
          by_cases hb : b' = b
          · subst hb; exact .inl ⟨_, _, .suffix hsp hne hok ht hv⟩
          · exact .inr ⟨_, _, .other hsp hne hok ht (by rw [hv]; simp) hb⟩
      · have ht : ∀ b' r', ¬ TagAt r b' r' := fun b' r' h => ht ⟨b', r', h⟩
        cases hv : stdNumber b (plainFloat t) with
        | none => exact .inr ⟨_, _, .plain hsp hne hok ht hv⟩
        | some v => exact .inl ⟨_, _, .plain hsp hne hok ht hv⟩
    · obtain ⟨p, q, e', hp, hn⟩ := first_misplaced hok
      exact .inr ⟨_, _, .misplaced hsp hu e' hp hn⟩

end Ron
