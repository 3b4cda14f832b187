import Verif.Lemmas.Cut
import Verif.Lemmas.OneChar
import Verif.Lemmas.DeAny
import Verif.Lemmas.DeWalk
import Verif.Spec.Lang
/-!
Numbers and ranges in self-describing data: they are recognised by how they begin, and are read alike whatever stands behind them, as
long as it begins with layout, a separator or a closing delimiter.
-/

set_option linter.unusedSimpArgs false
set_option linter.unusedSectionVars false

namespace Ron

variable [Env]

/-! ### What token readers keep -/

/-- The unary relation "keeps the fields of `b`". -/
def Kp (b : St) (s _s' : St) : Prop := s.src = b.src ∧ s.exts = b.exts ∧ s.limit = b.limit ∧ s.nv = b.nv

omit [Env] in
theorem trackWs_src (s : St) : s.trackWs.src = s.src := by
  unfold St.trackWs
  split
  · split <;> rfl
  · rfl

omit [Env] in
instance (b : St) : Trace (Kp b) where
  move _ _ h := h
  step _ h := h
  back _ _ h := h
  track {s s'} h _ := by
    show s.trackWs.src = _ ∧ _
    rw [trackWs_src, (trackWs_same s).2.1, (trackWs_same s).2.2.2.1, (trackWs_same s).2.2.1]
    exact h
  openLine h := h
  closed h _ := h

omit [Env] in
theorem keepsD_of_fr {α : Type} {f : P α} {s s' : St} {a : α} (hf : Fr (Kp s) f) (h : f s = .ok a s') : KeepsD s s' := by
  have := hf s s ⟨rfl, rfl, ⟨rfl, rfl, rfl, rfl⟩, rfl⟩
  rw [h] at this
  obtain ⟨-, -, -, h1, -⟩ := this
  exact ⟨h1.1, h1.2.1, h1.2.2.1, fun e => h1.2.2.2.trans e⟩

/-! ### The branch of numbers -/

/-- The branch of `anyChar` for numbers and ranges. -/
def numeric : P Value := do
  let s ← getSt
  if ← consumeStr c!"..=" then
    let e ← anyNumber
    pure (.map (mapOfList [(.str c!"end", .num e)]))
  else if ← consumeStr c!".." then
    if (match s.rest.drop 2 with | [] => false | c :: _ => isNumberStart s.rest c) then
      let e ← anyNumber
      pure (.map (mapOfList [(.str c!"end", .num e)]))
    else pure .unit
  else
    let n ← anyNumber
    floatRangeOrValue n

theorem anyPlain_numeric {any : P Value} {d : St} (h : NumHead d.rest) : anyPlain any d = numeric d := by
  rcases h with ⟨c, u, hd, hc⟩ | ⟨u, hd⟩ | ⟨w, v, u, hw, hd, hu⟩
  · have hfacts : c.toNat < 128 ∧ (c == '_' || isAsciiAlpha c) = false ∧ c ∉ ['t', 'f', 'S', 'N', 'i'] ∧
        c ∉ ['(', '[', '{', '"', '\'', 'b', 'r'] ∧ (isDigit c || c == '+' || c == '-' || c == '.' || c == 'b') = true := by
      rcases hc with h | h
      · obtain ⟨h1, h2, h3, h4⟩ := isDigit_bounds h
        refine ⟨h1, h2, ?_, ?_, by simp [h]⟩ <;> (simp at h4 ⊢; simp [h4])
      · simp only [List.mem_cons, List.not_mem_nil, or_false] at h
        rcases h with rfl | rfl | rfl <;> decide
    obtain ⟨f1, f2, f3, f4, f5⟩ := hfacts
    simp only [List.mem_cons, List.not_mem_nil, or_false, not_or] at f4
    obtain ⟨e1, e2, e3, e4, e5, e6, e7⟩ := f4
    rw [anyPlain_char hd f3 (by rw [hd]; simp [Ne.symm e1, e1]) (skipIdentifier_ascii hd f1 f2)]
    unfold anyChar numeric
    simp only [bind_apply, peekCharOrEof_cons hd, getSt_apply, beq_iff_eq, e1, e2, e3, ↓reduceIte, ite_P]
    rw [if_pos (by simpa using f5), if_neg (by simp [e6])]
    rfl
  · rw [anyPlain_char hd (by decide) (by rw [hd]; simp) (skipIdentifier_string (by rw [hd]; simp [startsStringLike]))]
    unfold anyChar numeric
    simp only [bind_apply, peekCharOrEof_cons hd, getSt_apply, ite_P]
    rw [if_neg (by decide), if_neg (by decide), if_neg (by decide), if_pos (by decide), if_neg (by rw [hd]; simp)]
    rfl
  · obtain ⟨g, gt, gs, gu⟩ := anyPlain_kw (floatWord_reserved hw) hd hu
    have e1 : startsWith d.rest c!"..=" = false ∧ startsWith d.rest c!".." = false := by
      rw [hd]
      simp only [floatWords, List.mem_cons, Prod.mk.injEq, List.not_mem_nil, or_false] at hw
      rcases hw with ⟨rfl, rfl⟩ | ⟨rfl, rfl⟩ | ⟨rfl, rfl⟩ | ⟨rfl, rfl⟩ | ⟨rfl, rfl⟩ | ⟨rfl, rfl⟩ <;> simp
    have hr : numeric d = (anyNumber >>= floatRangeOrValue) d := by
      unfold numeric
      simp only [bind_apply, getSt_apply, consumeStr_false e1.1, consumeStr_false e1.2, Bool.false_eq_true, ↓reduceIte]
    rw [hr]
    unfold anyPlain anyNumber
    simp only [floatWords, List.mem_cons, Prod.mk.injEq, List.not_mem_nil, or_false] at hw
    rcases hw with ⟨rfl, rfl⟩ | ⟨rfl, rfl⟩ | ⟨rfl, rfl⟩ | ⟨rfl, rfl⟩ | ⟨rfl, rfl⟩ | ⟨rfl, rfl⟩ <;>
      simp only [bind_apply, g c!"true" (by simp [reservedNames]) (by simp), g c!"false" (by simp [reservedNames]) (by simp),
        gs (by simp), g c!"None" (by simp [reservedNames]) (by simp), gu, gt, Bool.false_eq_true, ↓reduceIte, pure_apply]
    all_goals
      first
      | done
      | (rw [g c!"inf" (by simp [reservedNames]) (by simp)]; simp only [Bool.false_eq_true, ↓reduceIte, bind_apply, gt, pure_apply])
    all_goals
      first
      | done
      | (rw [g c!"inff32" (by simp [reservedNames]) (by simp)]; simp only [Bool.false_eq_true, ↓reduceIte, bind_apply, gt, pure_apply])
    all_goals
      first
      | done
      | (rw [g c!"inff64" (by simp [reservedNames]) (by simp)]; simp only [Bool.false_eq_true, ↓reduceIte, bind_apply, gt, pure_apply])
    all_goals
      first
      | done
      | (rw [g c!"NaN" (by simp [reservedNames]) (by simp)]; simp only [Bool.false_eq_true, ↓reduceIte, bind_apply, gt, pure_apply])
    all_goals
      first
      | done
      | (rw [g c!"NaNf32" (by simp [reservedNames]) (by simp)]; simp only [Bool.false_eq_true, ↓reduceIte, bind_apply, gt, pure_apply])

/-! ### Further text behind a number -/

/-- A success with less text is a success with more. -/
def Ext {α : Type} (l : Text) (r r' : Res α) : Prop := ∀ a t', r' = .ok a t' → ∃ t, r = .ok a t ∧ Cut l t t'

/-- A success that leaves at least `l` is a success without `l`. -/
def Trunc {α : Type} (l : Text) (r r' : Res α) : Prop :=
  ∀ a t, r = .ok a t → l.length ≤ t.rest.length → ∃ t', r' = .ok a t' ∧ Cut l t t'

omit [Env] in
theorem BiR.ext {α : Type} {l : Text} {eq : Prop} {r r' : Res α} (h : BiR l eq r r') : Ext l r r' := by
  rintro a t' rfl
  cases r with
  | ok b t => obtain ⟨rfl, h⟩ := h; exact ⟨t, rfl, h⟩
  | err e t => exact h.elim
omit [Env] in
theorem BiR.trunc {α : Type} {l : Text} {eq : Prop} {r r' : Res α} (h : BiR l eq r r') : Trunc l r r' := by
  rintro a t rfl -
  cases r' with
  | ok b t => obtain ⟨rfl, h⟩ := h; exact ⟨t, rfl, h⟩
  | err e t => exact h.elim

omit [Env] in
theorem Ext.bind {α β : Type} {l : Text} {f : P α} {g g' : α → P β} {s s' : St} (hf : Ext l (f s) (f s'))
    (hg : ∀ a t t', Cut l t t' → f s' = .ok a t' → Ext l (g a t) (g' a t')) : Ext l ((f >>= g) s) ((f >>= g') s') := by
  intro b t' h
  obtain ⟨a, u', h1, h2⟩ := bind_ok h
  obtain ⟨u, h3, h4⟩ := hf a u' h1
  obtain ⟨t, h5, h6⟩ := hg a u u' h4 h1 b t' h2
  exact ⟨t, by rw [bind_apply, h3]; exact h5, h6⟩

omit [Env] in
/-- The second program must not give text back. -/
theorem Trunc.bind {α β : Type} {l : Text} {f : P α} {g g' : α → P β} {s s' : St} (hf : Trunc l (f s) (f s'))
    (hle : ∀ a t b t2, f s = .ok a t → g a t = .ok b t2 → t2.rest.length ≤ t.rest.length)
    (hg : ∀ a t t', Cut l t t' → f s = .ok a t → f s' = .ok a t' → Trunc l (g a t) (g' a t')) : Trunc l ((f >>= g) s) ((f >>= g') s') := by
  intro b t h hl
  obtain ⟨a, u, h1, h2⟩ := bind_ok h
  obtain ⟨u', h3, h4⟩ := hf a u h1 (Nat.le_trans hl (hle a u b t h1 h2))
  obtain ⟨t', h5, h6⟩ := hg a u u' h4 h1 h3 b t h2 hl
  exact ⟨t', by rw [bind_apply, h3]; exact h5, h6⟩

theorem float_nil {s : St} (hs : s.rest = []) (tg : FloatTarget) : ∃ e, float tg s = .err e s := by
  have hs' : floatSpecial tg floatLiterals s = .ok none s := by
    have gen : ∀ ls : List (Text × F32 × F64), (∀ e ∈ ls, ∃ d t, e.1 = d :: t) → floatSpecial tg ls s = .ok none s := by
      intro ls
      induction ls with
      | nil => exact fun _ => rfl
      | cons e ls ih =>
        intro he
        obtain ⟨lit, v32, v64⟩ := e
        obtain ⟨d, t, hd⟩ := he _ (.head _)
        dsimp only at hd
        subst hd
        have hb : ∀ u : Text, startsWith s.rest (d :: u) = false := by intro u; rw [hs]; rfl
        have h1 : consumeIdent (d :: t) s = .ok false s := consumeIdent_false (.inl (hb t))
        unfold floatSpecial
        simp only [bind_apply, h1, Bool.false_eq_true, ↓reduceIte, getSt_apply, List.cons_append, hb, Bool.false_and]
        exact ih fun e he' => he e (.tail _ he')
    exact gen _ (by
      intro e he
      simp only [floatLiterals, List.mem_cons, List.not_mem_nil, or_false] at he
      rcases he with rfl | rfl | rfl | rfl | rfl | rfl <;> exact ⟨_, _, rfl⟩)
  unfold float
  have ht : s.rest.takeWhile isFloatChar = [] := by rw [hs]; rfl
  have hn : (findSub c!".." (s.rest.takeWhile isFloatChar)).getD (s.rest.takeWhile isFloatChar).length = 0 := by rw [ht]; rfl
  simp only [bind_apply, hs', getSt_apply, hn, beq_self_eq_true, ↓reduceIte]
  exact ⟨_, rfl⟩

theorem anyNumber_nil {s : St} (h : s.rest = []) {n : Number} {t : St} : anyNumber s ≠ .ok n t := by
  intro hc
  have hi : startsWith s.rest ['i'] = false := by rw [h]; rfl
  have hN : startsWith s.rest ['N'] = false := by rw [h]; rfl
  rw [anyNumber_notSpecial hi hN] at hc
  have e0 : nextIsFloat s.rest = false := by rw [h]; rfl
  have e2 : ∃ e, integer .any s = .err e s := by
    unfold integer
    exact ⟨_, by simp only [bind_apply, getSt_apply, peekCharOrEof, peekChar_apply, h]; rfl⟩
  obtain ⟨e, e2⟩ := e2
  obtain ⟨e', e3⟩ := float_nil (s := { s with rest := s.rest, preWs := s.preWs, lastWs := s.lastWs }) h .any
  simp only [bind_apply, getSt_apply, e0, Bool.false_eq_true, ↓reduceIte, cursor_apply, attempt_apply, e2, setCursor_apply, e3] at hc
  cases hc

theorem anyNumber_ext {l : Text} {s s' : St} (hl : Ends l) (h : Cut l s s') : Ext l (anyNumber s) (anyNumber s') := by
  by_cases hb : startsWith s'.rest c!"b'" = true
  · intro n t' ht
    obtain ⟨t, k, h1, h2, rfl, -⟩ := anyNumber_byte_sound hb ht
    obtain ⟨u, g1, g2, -⟩ := anyNumber_byte_ok (s := s) (r := t'.rest ++ l) (by rw [h.rest, h1, List.append_assoc]) h2
    exact ⟨u, g1, ⟨g2⟩⟩
  · by_cases hne : s'.rest = []
    · exact fun n t' ht => absurd ht (anyNumber_nil hne)
    · exact (Bi.anyNumber hl h hne (by simpa using hb)).ext

omit [Env] in
theorem split_tail {a b u l : Text} (h : a ++ b = u ++ l) (hl : l.length ≤ b.length) : ∃ w, b = w ++ l ∧ u = a ++ w := by
  rcases List.append_eq_append_iff.mp h with ⟨w, h1, h2⟩ | ⟨w, h1, h2⟩
  · exact ⟨w, h2, h1⟩
  · have : w = [] := by
      have := congrArg List.length h2
      simp only [List.length_append] at this
      exact List.eq_nil_of_length_eq_zero (by omega)
    subst this
    exact ⟨[], by simpa using h2.symm, by simpa using h1.symm⟩

theorem anyNumber_trunc {l : Text} {s s' : St} (hl : Ends l) (h : Cut l s s') (hi : s.Inside) (hn : s.nv = false) :
    Trunc l (anyNumber s) (anyNumber s') := by
  by_cases hb : startsWith s'.rest c!"b'" = true
  · intro n t ht hle
    have hb' : startsWith s.rest c!"b'" = true := by
      obtain ⟨u, hu⟩ := (startsWith_iff _ _).mp hb
      exact (startsWith_iff _ _).mpr ⟨u ++ l, by rw [h.rest, hu, List.append_assoc]⟩
    obtain ⟨w, k, h1, h2, rfl, -⟩ := anyNumber_byte_sound hb' ht
    obtain ⟨x, h3, h4⟩ := split_tail (h1.symm.trans h.rest) hle
    obtain ⟨u, g1, g2, -⟩ := anyNumber_byte_ok h4 h2
    exact ⟨u, g1, ⟨by rw [h3, g2]⟩⟩
  · by_cases hne : s'.rest = []
    · intro n t ht hle
      have := anyNumber_E (.refl hi hn)
      rw [ht] at this
      have := this.lt rfl
      rw [h.rest, hne] at this
      simp at this
      omega
    · exact (Bi.anyNumber hl h hne (by simpa using hb)).trunc

/-- The test before the end of a range. -/
def numStart (b : Text) : Text → Bool
  | [] => false
  | c :: _ => isNumberStart b c

omit [Env] in
theorem numStart_ends {l : Text} (hl : Ends l) (b r : Text) : numStart (b ++ l) (r ++ l) = numStart b r := by
  cases r with
  | nil =>
    obtain rfl | ⟨c, u, rfl, hc⟩ := hl
    · rfl
    · show isNumberStart _ c = false
      have : (isDigit c || c == '+' || c == '-' || c == '.' || c == 'b') = false := by revert c; decide
      unfold isNumberStart
      rw [this]; rfl
  | cons c r =>
    show isNumberStart _ c = isNumberStart _ c
    unfold isNumberStart
    rw [startsWith_ends hl (by decide)]

theorem floatRange_eq (n : Number) : floatRangeOrValue n = (do
    if ← consumeStr c!"..=" then
      let e ← anyNumber
      pure (.map (mapOfList [(.str c!"start", .num n), (.str c!"end", .num e)]))
    else if ← consumeStr c!".." then
      let s ← getSt
      if numStart s.rest s.rest then
        let e ← anyNumber
        pure (.map (mapOfList [(.str c!"start", .num n), (.str c!"end", .num e)]))
      else pure (.map (mapOfList [(.str c!"start", .num n)]))
    else pure (.num n)) := by
  unfold floatRangeOrValue
  funext s
  simp only [bind_apply]
  split
  · split
    · rfl
    · simp only [bind_apply]
      split
      · split
        · simp only [getSt_apply, bind_apply]
          rename_i s1 _ _
          cases hr : s1.rest with
          | nil => rfl
          | cons c r =>
            show (if (!isNumberStart (c :: r) c) = true then _ else _ : P Value) _ = (if isNumberStart (c :: r) c = true then _ else _ : P Value) _
            cases isNumberStart (c :: r) c <;> rfl
        · rfl
      · rfl
  · rfl

theorem numeric_eq : numeric = (do
    let s ← getSt
    if ← consumeStr c!"..=" then
      let e ← anyNumber
      pure (.map (mapOfList [(.str c!"end", .num e)]))
    else if ← consumeStr c!".." then
      if numStart s.rest (s.rest.drop 2) then
        let e ← anyNumber
        pure (.map (mapOfList [(.str c!"end", .num e)]))
      else pure .unit
    else
      let n ← anyNumber
      floatRangeOrValue n) := by
  unfold numeric numStart
  rfl

theorem floatRange_ext {l : Text} {n : Number} {s s' : St} (hl : Ends l) (h : Cut l s s') :
    Ext l (floatRangeOrValue n s) (floatRangeOrValue n s') := by
  rw [floatRange_eq]
  refine .bind (Bi.consumeStr (eq := True) hl h (by decide)).ext fun b t t' h1 _ => ?_
  cases b with
  | true => exact .bind (anyNumber_ext hl h1) fun e u u' h2 _ => (BiR.pure (eq := True) h2).ext
  | false =>
    refine .bind (Bi.consumeStr (eq := True) hl h1 (by decide)).ext fun b u u' h2 _ => ?_
    cases b with
    | true =>
      simp only [↓reduceIte, bind_apply, getSt_apply]
      rw [h2.rest, numStart_ends hl]
      split
      · exact .bind (anyNumber_ext hl h2) fun e u u' h2 _ => (BiR.pure (eq := True) h2).ext
      · exact (BiR.pure (eq := True) h2).ext
    | false => exact (BiR.pure (eq := True) h2).ext

theorem Trunc.bindS {α β : Type} {l : Text} {f : P α} {g g' : α → P β} {s s' : St} (hi : s.Inside) (hn : s.nv = false) (hs : Safe f)
    (hs' : ∀ a, Safe (g a)) (hf : Trunc l (f s) (f s'))
    (hg : ∀ a t t', Cut l t t' → t.Inside → t.nv = false → f s' = .ok a t' → Trunc l (g a t) (g' a t')) : Trunc l ((f >>= g) s) ((f >>= g') s') := by
  refine .bind hf (fun a t b t2 h1 h2 => ?_) fun a t t' hc h1 h1' => ?_
  · have := hs s hi
    rw [h1] at this
    have := hs' a t this.1.inside
    rw [h2] at this
    exact this.1.rest.length_le
  · have := hs s hi
    rw [h1] at this
    exact hg a t t' hc this.1.inside (this.1.nv.trans hn) h1'

theorem number_trunc {l : Text} {t t' : St} {f : Number → Value} (hl : Ends l) (h1 : t.Inside) (h2 : t.nv = false) (h3 : Cut l t t') :
    Trunc l ((anyNumber >>= fun e => pure (f e)) t) ((anyNumber >>= fun e => pure (f e)) t') :=
  .bindS h1 h2 .anyNumber (fun _ => .pure _) (anyNumber_trunc hl h3 h1 h2) fun e u u' h2 _ _ _ => (BiR.pure (eq := True) h2).trunc

theorem floatRange_trunc {l : Text} {n : Number} {s s' : St} (hl : Ends l) (h : Cut l s s') (hi : s.Inside) (hn : s.nv = false) :
    Trunc l (floatRangeOrValue n s) (floatRangeOrValue n s') := by
  rw [floatRange_eq]
  refine .bindS hi hn (.consumeStr _) (fun a => by repeat safe_step) (Bi.consumeStr (eq := True) hl h (by decide)).trunc
    fun b t t' h1 hi hn _ => ?_
  cases b with
  | true => exact number_trunc hl hi hn h1
  | false =>
    refine .bindS hi hn (.consumeStr _) (fun a => by repeat safe_step) (Bi.consumeStr (eq := True) hl h1 (by decide)).trunc
      fun b u u' h2 hi hn _ => ?_
    cases b with
    | true =>
      simp only [↓reduceIte, bind_apply, getSt_apply]
      rw [h2.rest, numStart_ends hl]
      split
      · exact number_trunc hl hi hn h2
      · exact (BiR.pure (eq := True) h2).trunc
    | false => exact (BiR.pure (eq := True) h2).trunc

omit [Env] in
theorem dots_len {t t' : St} (h : consumeStr c!".." t = .ok true t') : 2 ≤ t.rest.length := by
  rw [consumeStr_apply] at h
  cases hs : startsWith t.rest c!".." with
  | false => rw [hs] at h; cases h
  | true => exact startsWith_le hs

omit [Env] in
theorem dots_same {t t' : St} {w : Text} (h : consumeStr w t = .ok false t') : t' = t := by
  rw [consumeStr_apply] at h
  cases hs : startsWith t.rest w with
  | false => rw [hs] at h; cases h; rfl
  | true => rw [hs] at h; cases h

theorem numeric_ext {l : Text} {s s' : St} (hl : Ends l) (h : Cut l s s') : Ext l (numeric s) (numeric s') := by
  rw [numeric_eq, bind_apply, bind_apply, getSt_apply, getSt_apply]
  refine .bind (Bi.consumeStr (eq := True) (t := c!"..=") hl h (by decide)).ext fun b t t' h1 hb => ?_
  cases b with
  | true => exact .bind (anyNumber_ext hl h1) fun e u u' h2 _ => (BiR.pure (eq := True) h2).ext
  | false =>
    cases dots_same hb
    refine .bind (Bi.consumeStr (eq := True) (t := c!"..") hl h1 (by decide)).ext fun b u u' h2 hb => ?_
    cases b with
    | true =>
      simp only [↓reduceIte]
      rw [h.rest, List.drop_append_of_le_length (dots_len hb), numStart_ends hl]
      split
      · exact .bind (anyNumber_ext hl h2) fun e u u' h2 _ => (BiR.pure (eq := True) h2).ext
      · exact (BiR.pure (eq := True) h2).ext
    | false => exact .bind (anyNumber_ext hl h2) fun e u u' h2 _ => floatRange_ext hl h2

theorem numeric_trunc {l : Text} {s s' : St} (hl : Ends l) (h : Cut l s s') (hi : s.Inside) (hn : s.nv = false) :
    Trunc l (numeric s) (numeric s') := by
  rw [numeric_eq, bind_apply, bind_apply, getSt_apply, getSt_apply]
  refine .bindS hi hn (.consumeStr _) (fun a => by repeat safe_step) (Bi.consumeStr (eq := True) (t := c!"..=") hl h (by decide)).trunc
    fun b t t' h1 hi hn hb => ?_
  cases b with
  | true => exact number_trunc hl hi hn h1
  | false =>
    cases dots_same hb
    refine .bindS hi hn (.consumeStr _) (fun a => by repeat safe_step) (Bi.consumeStr (eq := True) (t := c!"..") hl h1 (by decide)).trunc
      fun b u u' h2 hi hn hb => ?_
    cases b with
    | true =>
      simp only [↓reduceIte]
      rw [h.rest, List.drop_append_of_le_length (dots_len hb), numStart_ends hl]
      split
      · exact number_trunc hl hi hn h2
      · exact (BiR.pure (eq := True) h2).trunc
    | false =>
      exact .bindS hi hn .anyNumber (fun _ => .floatRangeOrValue _) (anyNumber_trunc hl h2 hi hn) fun e u u' h2 hi hn _ =>
        floatRange_trunc hl h2 hi hn

/-! ### Numeric tokens -/

theorem Fr.numeric {X : St → St → Prop} [Trace X] : Fr X numeric := by
  have hf : ∀ n, Fr X (floatRangeOrValue n) := fun n => by rw [floatRange_eq]; repeat fr_step
  rw [numeric_eq]
  refine Rel.getSt fun s s' h => ?_
  simp only [h.rest]
  repeat (first | exact hf _ | fr_step)

theorem Safe.numeric : Safe numeric := by
  rw [numeric_eq]
  repeat (first | exact Safe.floatRangeOrValue _ | safe_step)

omit [Env] in
theorem ends_follow {l q : Text} (hl : Layout l) (hq : Stop q) : Ends (l ++ q) := by
  cases hl with
  | nil =>
    rcases hq with rfl | ⟨c, u, rfl, hc⟩
    · exact .inl rfl
    · exact .inr ⟨c, u, rfl, List.mem_append_right _ (List.mem_cons_of_mem _ hc)⟩
  | ws h _ => exact .inr ⟨_, _, rfl, List.mem_append_left _ h⟩
  | line h _ => exact .inr ⟨_, _, rfl, List.mem_append_right _ (.head _)⟩
  | block h _ => exact .inr ⟨_, _, rfl, List.mem_append_right _ (.head _)⟩

theorem numHead_append {w l : Text} (h : NumHead w) (hl : Ends l) : NumHead (w ++ l) := by
  rcases h with ⟨c, u, rfl, hc⟩ | ⟨u, rfl⟩ | ⟨k, v, u, hk, rfl, hu⟩
  · exact .inl ⟨c, u ++ l, rfl, hc⟩
  · exact .inr (.inl ⟨u ++ l, rfl⟩)
  · refine .inr (.inr ⟨k, v, u ++ l, hk, by simp, ?_⟩)
    rw [← headXid_false] at hu ⊢
    rw [headXid_ends hl, hu]

omit [Env] in
theorem numWord_chars : ∀ e ∈ floatWords, ∀ c ∈ e.1, c ∉ stopChars := by
  intro e he
  simp only [floatWords, List.mem_cons, List.not_mem_nil, or_false] at he
  rcases he with rfl | rfl | rfl | rfl | rfl | rfl <;> decide

theorem numHead_cut {w l : Text} (h : NumHead (w ++ l)) (hw : w ≠ []) (hl : Ends l) : NumHead w := by
  rcases h with ⟨c, u, e, hc⟩ | ⟨u, e⟩ | ⟨k, v, u, hk, e, hu⟩
  · cases w with
    | nil => exact absurd rfl hw
    | cons d w =>
      simp only [List.cons_append, List.cons.injEq] at e
      obtain ⟨rfl, -⟩ := e
      exact .inl ⟨d, w, rfl, hc⟩
  · match w, hw, e with
    | [], hw, _ => exact absurd rfl hw
    | [d], _, e =>
      simp only [List.cons_append, List.nil_append, List.cons.injEq] at e
      obtain ⟨rfl, rfl⟩ := e
      rcases hl with h | ⟨c, r, h, hc⟩
      · cases h
      · cases h; exact absurd hc (by decide)
    | d :: d' :: w, _, e =>
      simp only [List.cons_append, List.cons.injEq] at e
      obtain ⟨rfl, rfl, -⟩ := e
      exact .inr (.inl ⟨w, rfl⟩)
  · rcases List.append_eq_append_iff.mp e with ⟨a, h1, h2⟩ | ⟨a, h1, h2⟩
    · cases a with
      | nil =>
        simp only [List.append_nil] at h1
        subst h1
        exact .inr (.inr ⟨k, v, [], hk, by simp, fun _ _ e => by cases e⟩)
      | cons c a =>
        exfalso
        rcases hl with rfl | ⟨c', r, rfl, hc⟩
        · cases h2
        · simp only [List.cons_append, List.cons.injEq] at h2
          obtain ⟨rfl, -⟩ := h2
          exact numWord_chars _ hk c' (by rw [h1]; simp) hc
    · refine .inr (.inr ⟨k, v, a, hk, h1, ?_⟩)
      rw [← headXid_false] at hu ⊢
      rw [h2, headXid_ends hl] at hu
      exact hu

/-- Reading a number alone. -/
theorem deValue_numeric {w : Text} (h : NumHead w) : deValue (St.init w) = numeric (St.init w) := by
  unfold deValue
  rw [bind_apply, getSt_apply]
  show anyBody _ (St.init w) = _
  rw [anyBody_plain rfl, anyPlain_numeric h]

theorem num_tokStart {w : Text} (h : NumHead w) : TokStart w := by
  rcases h with ⟨c, u, rfl, hc⟩ | ⟨u, rfl⟩ | ⟨k, v, u, hk, rfl, hu⟩
  · refine ⟨c, u, rfl, ?_⟩
    rcases hc with h | h
    · obtain ⟨-, -, h3, h4⟩ := isDigit_bounds h
      exact ⟨h3, fun hc => h4 (List.mem_append_left (bs := ['(', '[', '{', '"', '\'', 'b', 'r', '.', 't', 'f', 'S', 'N', 'i']) hc)⟩
    · simp only [List.mem_cons, List.not_mem_nil, or_false] at h
      rcases h with rfl | rfl | rfl <;> decide
  · exact ⟨_, _, rfl, by decide, by decide⟩
  · exact (tokStart_plain (reserved_plain (floatWord_reserved hk))).append _

theorem word_skips {k r : Text} {n : Number} {d : St} (hk : (k, n) ∈ floatWords) (hr : NoIdentStart r) (hd : d.rest = k ++ r) :
    RunsW skipIdentifier d (some k) r := by
  have hp := reserved_plain (floatWord_reserved hk)
  have e1 : startsStringLike d.rest = false ∧ startsWith d.rest c!"r#" = false := by
    rw [hd]
    simp only [floatWords, List.mem_cons, Prod.mk.injEq, List.not_mem_nil, or_false] at hk
    rcases hk with ⟨rfl, rfl⟩ | ⟨rfl, rfl⟩ | ⟨rfl, rfl⟩ | ⟨rfl, rfl⟩ | ⟨rfl, rfl⟩ | ⟨rfl, rfl⟩ <;> simp [startsStringLike]
  obtain ⟨c, cs, rfl, hc, hcs⟩ := hp
  have w1' : whileLen Env.xidCont (cs ++ r) = cs.length := by
    rw [whileLen_append _ _ _ hcs, hr.whileLen]; rfl
  have hb : 1 + cs.length ≤ d.rest.length := by rw [hd]; simp; omega
  refine ⟨{ d with prev := d.rest, rest := r }, ?_, rfl, .step _ _ _⟩
  unfold skipIdentifier
  simp only [bind_apply, getSt_apply, ite_P]
  rw [e1.1, e1.2]
  simp only [Bool.false_eq_true, ↓reduceIte, List.cons_append, hc, w1', bind_apply, advance_ok hb, pure_apply, hd]
  simp [Nat.add_comm 1]

theorem num_heads {w : Text} {v : Value} {s : St} (h : NumHead w) (hv : numeric (St.init w) = .ok v s) (hs : s.rest = []) : Heads w := by
  rcases h with ⟨c, u, rfl, hc⟩ | ⟨u, rfl⟩ | ⟨k, n, u, hk, rfl, hu⟩
  · refine heads_none fun d r hd => ?_
    rcases hc with h | h
    · exact skipIdentifier_ascii hd (isDigit_bounds h).1 (isDigit_bounds h).2.1
    · simp only [List.mem_cons, List.not_mem_nil, or_false] at h
      rcases h with rfl | rfl | rfl <;> exact skipIdentifier_ascii hd (by decide) (by decide)
  · exact heads_none fun d r hd => skipIdentifier_string (by rw [hd]; simp [startsStringLike])
  · cases u with
    | nil => rw [List.append_nil]; exact heads_word (reserved_plain (floatWord_reserved hk))
    | cons c u =>
      obtain ⟨s1, n1, n2, n3⟩ := anyNumber_consume (s := St.init (k ++ c :: u)) rfl hu hk
      have e1 : startsWith (St.init (k ++ c :: u)).rest c!"..=" = false ∧ startsWith (St.init (k ++ c :: u)).rest c!".." = false := by
        show startsWith (k ++ c :: u) _ = false ∧ startsWith (k ++ c :: u) _ = false
        have hk' := hk
        simp only [floatWords, List.mem_cons, Prod.mk.injEq, List.not_mem_nil, or_false] at hk'
        rcases hk' with ⟨rfl, rfl⟩ | ⟨rfl, rfl⟩ | ⟨rfl, rfl⟩ | ⟨rfl, rfl⟩ | ⟨rfl, rfl⟩ | ⟨rfl, rfl⟩ <;> simp
      unfold numeric at hv
      simp only [bind_apply, getSt_apply, consumeStr_false e1.1, consumeStr_false e1.2, Bool.false_eq_true, ↓reduceIte, n1] at hv
      have hdot : c = '.' := by
        cases hs2 : startsWith s1.rest c!".." with
        | false =>
          rw [floatRangeOrValue_plain hs2] at hv
          cases hv
          rw [n2] at hs; cases hs
        | true =>
          obtain ⟨r, hr⟩ := (startsWith_iff _ _).mp hs2
          rw [n2] at hr
          cases hr; rfl
      subst hdot
      intro d l q hd hl hq
      obtain ⟨s2, k1, k2, k3⟩ := word_skips (d := d) (r := '.' :: (u ++ (l ++ q))) hk
        (fun c r e => by cases e; exact hu '.' u rfl) (by rw [hd]; simp)
      exact .inr ⟨k, s2, [], k1, k3.toD, .nil, .inr ⟨_, ⟨_, _, rfl, by decide, by decide⟩, k2⟩⟩

/-- Numbers are read wherever they stand. -/
theorem num_reads {x : Exts} {any : P Value} {w : Text} {v : Value} {s : St} (h : NumHead w) (hv : deValue (St.init w) = .ok v s) (hs : s.rest = []) :
    Reads x 0 (anyBody any) w v ∧ Heads w := by
  rw [deValue_numeric h] at hv
  refine ⟨⟨num_tokStart h, fun d l q hp hd hl hq => ?_⟩, num_heads h hv hs⟩
  have he := ends_follow hl hq
  obtain ⟨t, h1, h2⟩ := numeric_ext (s := d) (s' := St.init w) he ⟨hd⟩ v s hv
  refine ⟨t, l, ?_, by rw [h2.rest, hs]; rfl, hl, keepsD_of_fr Fr.numeric h1⟩
  rw [anyBody_plain hp.nv, anyPlain_numeric (by rw [hd]; exact numHead_append h he)]
  exact h1

end Ron
