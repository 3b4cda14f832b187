import Verif.Spec.BadRange
import Verif.Lemmas.RangeAt
import Verif.Lemmas.BadStrings
/-!
Defects of the notation of ranges: the error and the place.
-/

set_option linter.unusedSimpArgs false

namespace Ron

variable [Env]

theorem bound_errs {s : St} {u r : Text} {e : Err} (hs : s.rest = u) (h : BadBound u e r) : Errs anyNumber s e r := by
  cases h with
  | number hb h => exact number_bad hs hb h
  | @byte u _ _ h =>
    rcases anyNumber_cases s with e1 | ⟨w, x, y, tag, r', hw, hw', -⟩
    · have hf : nextIsFloat s.rest = false := by rw [hs, nextIsFloat_b]
      obtain ⟨s', h1, h2, h3⟩ := integer_bad (tg := .any) hs h
      unfold Errs
      rw [e1]
      unfold numberBody
      simp only [bind_apply, getSt_apply, hf, Bool.false_eq_true, ↓reduceIte, cursor_apply, attempt_apply, h1, setCursor_apply]
      have hfl : ∃ e' r', BadAnyFloat ('b' :: '\'' :: u) e' r' := by
        rcases anyFloat_total ('b' :: '\'' :: u) with ⟨v, r', h⟩ | h
        · obtain ⟨s', g1, -⟩ := float_any (s := St.init ('b' :: '\'' :: u)) rfl h
          rw [float_b (s := St.init ('b' :: '\'' :: u)) rfl .any] at g1
          cases g1
        · exact h
      obtain ⟨e', r', hfl⟩ := hfl
      obtain ⟨s2, g1, g2, g3⟩ := float_badAny (s := { s' with rest := s.rest, preWs := s.preWs, lastWs := s.lastWs }) hs hfl
      simp only [g1, bind_apply, setCursor_apply, fail_apply]
      exact ⟨_, rfl, h2, ⟨⟨g3.src.trans h3.src, g3.exts.trans h3.exts, g3.nv.trans h3.nv, g3.lastIdent.trans h3.lastIdent, g3.limit.trans h3.limit⟩,
        h3.preWs, h3.lastWs⟩⟩
    · exfalso
      have := hw.2.1
      rw [hs] at this
      rcases hw' with rfl | rfl <;> (injection this with e _; revert e; decide)

theorem bound_total (u : Text) : (∃ n r, NumberAt u n r) ∨ ∃ e r, BadBound u e r := by
  by_cases hb : ∃ r, u = 'b' :: '\'' :: r
  · obtain ⟨w, rfl⟩ := hb
    rcases badByteLit_total w with ⟨t, n, r, h1, h2⟩ | ⟨e, r, h⟩
    · exact .inl ⟨_, _, .byte h1 h2⟩
    · exact .inr ⟨_, _, .byte h⟩
  · rcases number_total u with h | ⟨e, r, h⟩
    · exact .inl h
    · exact .inr ⟨_, _, .number (fun r e => hb ⟨r, e⟩) h⟩

omit [Env] in
theorem noDots_start {r : Text} (h : ∀ v, r ≠ c!".." ++ v) : startsWith r c!".." = false ∧ startsWith r c!"..=" = false := by
  constructor
  · cases hs : startsWith r c!".." with
    | false => rfl
    | true => rw [startsWith_iff] at hs; obtain ⟨v, rfl⟩ := hs; exact absurd rfl (h v)
  · cases hs : startsWith r c!"..=" with
    | false => rfl
    | true => rw [startsWith_iff] at hs; obtain ⟨v, rfl⟩ := hs; exact absurd rfl (h ('=' :: v))

theorem numHead_start {s : St} (h : NumHead s.rest) {b : Bool} (k2 : b = true ↔ ∃ w v u, (w, v) ∈ floatWords ∧ s.rest = w ++ u ∧ NoIdentStart u) :
    ((match s.rest with | [] => false | c :: _ => isNumberStart s.rest c) || b) = true := by
  rw [Bool.or_eq_true]
  rcases h with h | ⟨w, h⟩ | h
  · exact .inl (headStart_iff.mpr (.inl h))
  · exact .inl (headStart_iff.mpr (.inr ⟨w, h⟩))
  · exact .inr (k2.mpr h)

/-- Where the text does not begin like a range, the notation is not tried. -/
theorem rangeStruct_noHead {name : Text} {ks : List Text} {s : St} (h : ¬ RangeHead name ks s.rest) : rangeStruct name ks s = .ok none s := by
  unfold rangeStruct
  rw [getSt_bind]
  by_cases h1 : TwoBounds name ks
  · have h1' := h1
    unfold TwoBounds at h1'
    rw [if_pos h1']
    refine (congrFun (if_neg fun hh => ?_) s)
    exact h (.inl ⟨h1, headStart_iff.mp hh⟩)
  unfold TwoBounds at h1
  rw [if_neg h1]
  by_cases h2 : ks = [c!"start"] ∧ name = c!"RangeFrom"
  · obtain ⟨rfl, rfl⟩ := h2
    obtain ⟨b, k1, k2⟩ := special_iff (s := s)
    rw [if_pos ⟨rfl, rfl⟩, bind_apply, k1]
    simp only
    rw [if_neg]
    · rfl
    · intro hh
      apply h
      refine .inr (.inl ⟨rfl, rfl, ?_⟩)
      rw [Bool.or_eq_true] at hh
      rcases hh with hh | hh
      · rcases headStart_iff.mp hh with h | ⟨w, h⟩
        · exact .inl h
        · exact .inr (.inl ⟨w, h⟩)
      · exact .inr (.inr (k2.mp hh))
  rw [if_neg h2]
  have hd : ∀ {p : Prop}, p ∧ startsWith s.rest c!".." = true → p ∧ ∃ v, s.rest = c!".." ++ v := fun ⟨h1, h2⟩ => ⟨h1, (startsWith_iff _ _).mp h2⟩
  rw [if_neg, if_neg]
  · rfl
  · rintro ⟨a, b, c⟩
    exact h (.inr (.inr (.inr ⟨b, a, (hd ⟨trivial, c⟩).2⟩)))
  · rintro ⟨a, b, c⟩
    exact h (.inr (.inr (.inl ⟨b, a, (hd ⟨trivial, c⟩).2⟩)))

/-- A range with a defect. -/
theorem badRange_errs {name u r : Text} {ks : List Text} {e : Err} {s : St} (hu : s.rest = u) (h : BadRange name ks u e r) :
    Errs (rangeStruct name ks) s e r := by
  unfold Errs rangeStruct
  rw [getSt_bind]
  cases h with
  | first h1 h2 h3 =>
    obtain ⟨s2, a1, a2, a3⟩ := bound_errs hu h3
    refine ⟨s2, ?_, a2, a3⟩
    unfold TwoBounds at h1
    rw [if_pos h1]
    refine (congrFun (if_pos (headStart_iff.mpr (hu ▸ h2))) s).trans ?_
    simp only [bind_apply, a1]
  | dots h1 h2 h3 h4 =>
    obtain ⟨s2, a1, a2, a3⟩ := number_ok hu h3
    refine ⟨s2, ?_, a2, a3⟩
    unfold TwoBounds at h1
    rw [if_pos h1]
    refine (congrFun (if_pos (headStart_iff.mpr (hu ▸ h2))) s).trans ?_
    rw [← a2] at h4
    simp only [bind_apply, a1, consumeStr_false (noDots_start h4).1, consumeStr_false (noDots_start h4).2, Bool.false_eq_true, ↓reduceIte, fail_apply]
  | @noOpen _ v a h1 h2 =>
    obtain ⟨s2, a1, a2, a3⟩ := number_ok hu h2
    refine ⟨{ s2 with prev := s2.rest, rest := r }, ?_, rfl, a3.trans (.step _ _ _)⟩
    rw [if_pos (.inl ⟨rfl, rfl⟩)]
    refine (congrFun (if_pos (headStart_iff.mpr (hu ▸ h1))) s).trans ?_
    simp only [bind_apply, a1, consumeStr_true (s := s2) (t := c!"..=") (by rw [a2]; simp), ↓reduceIte, pure_apply]
    simp [a2]
  | @noClosed k _ v a hk h1 h2 h3 =>
    obtain ⟨s2, a1, a2, a3⟩ := number_ok hu h2
    have q : startsWith s2.rest c!"..=" = false := by rw [a2]; exact dots_noEq h3
    refine ⟨{ s2 with prev := s2.rest, rest := r }, ?_, rfl, a3.trans (.step _ _ _)⟩
    rw [if_pos (.inr ⟨rfl, by rcases hk with rfl | rfl <;> simp⟩)]
    refine (congrFun (if_pos (headStart_iff.mpr (hu ▸ h1))) s).trans ?_
    simp only [bind_apply, a1, consumeStr_false q, Bool.false_eq_true, ↓reduceIte, consumeStr_true (s := s2) (t := c!"..") (by rw [a2]; simp), pure_apply]
    simp [a2]
  | @second _ v _ a _ h1 h2 h3 h4 =>
    obtain ⟨s2, a1, a2, a3⟩ := number_ok hu h2
    have q : startsWith s2.rest c!"..=" = false := by rw [a2]; exact dots_noEq h3
    obtain ⟨s4, b1, b2, b3⟩ := bound_errs (s := { s2 with prev := s2.rest, rest := v }) rfl h4
    refine ⟨s4, ?_, b2, (a3.trans (.step _ _ _)).trans b3⟩
    rw [if_pos (.inl ⟨rfl, rfl⟩)]
    refine (congrFun (if_pos (headStart_iff.mpr (hu ▸ h1))) s).trans ?_
    simp only [bind_apply, a1, consumeStr_false q, Bool.false_eq_true, ↓reduceIte, consumeStr_true (s := s2) (t := c!"..") (by rw [a2]; simp)]
    simp only [a2, List.cons_append, List.nil_append, List.length_cons, List.length_nil, List.drop_succ_cons, List.drop_zero] at b1 ⊢
    simp only [pure_apply]
    rw [if_neg (by decide), if_neg (by decide), bind_apply, b1]
  | @secondClosed k _ v _ a _ hk h1 h2 h4 =>
    obtain ⟨s2, a1, a2, a3⟩ := number_ok hu h2
    obtain ⟨s4, b1, b2, b3⟩ := bound_errs (s := { s2 with prev := s2.rest, rest := v }) rfl h4
    refine ⟨s4, ?_, b2, (a3.trans (.step _ _ _)).trans b3⟩
    rw [if_pos (.inr ⟨rfl, by rcases hk with rfl | rfl <;> simp⟩)]
    refine (congrFun (if_pos (headStart_iff.mpr (hu ▸ h1))) s).trans ?_
    simp only [bind_apply, a1, Bool.false_eq_true, ↓reduceIte, consumeStr_true (s := s2) (t := c!"..=") (by rw [a2]; simp)]
    simp only [a2, List.cons_append, List.nil_append, List.length_cons, List.length_nil, List.drop_succ_cons, List.drop_zero] at b1 ⊢
    simp only [pure_apply]
    rw [if_neg (by decide), if_neg (by decide), bind_apply, b1]
  | start h1 h2 =>
    obtain ⟨s2, a1, a2, a3⟩ := bound_errs hu h2
    refine ⟨s2, ?_, a2, a3⟩
    obtain ⟨b, k1, k2⟩ := special_iff (s := s)
    rw [if_neg (by simp), if_pos ⟨rfl, rfl⟩, bind_apply, k1]
    simp only
    rw [if_pos]
    rotate_left
    · exact numHead_start (hu ▸ h1) k2
    simp only [bind_apply, a1]
  | startDots h1 h2 h3 =>
    obtain ⟨s2, a1, a2, a3⟩ := number_ok hu h2
    refine ⟨s2, ?_, a2, a3⟩
    obtain ⟨b, k1, k2⟩ := special_iff (s := s)
    rw [if_neg (by simp), if_pos ⟨rfl, rfl⟩, bind_apply, k1]
    simp only
    rw [if_pos]
    rotate_left
    · exact numHead_start (hu ▸ h1) k2
    rw [← a2] at h3
    simp only [bind_apply, a1, consumeStr_false (noDots_start h3).1, consumeStr_false (noDots_start h3).2, Bool.false_eq_true, ↓reduceIte, fail_apply, Bool.not_false]
  | startClosed h1 h2 =>
    obtain ⟨s2, a1, a2, a3⟩ := number_ok hu h2
    refine ⟨{ s2 with prev := s2.rest, rest := r }, ?_, rfl, a3.trans (.step _ _ _)⟩
    obtain ⟨b, k1, k2⟩ := special_iff (s := s)
    rw [if_neg (by simp), if_pos ⟨rfl, rfl⟩, bind_apply, k1]
    simp only
    rw [if_pos]
    rotate_left
    · exact numHead_start (hu ▸ h1) k2
    simp only [bind_apply, a1, consumeStr_true (s := s2) (t := c!"..=") (by rw [a2]; simp), ↓reduceIte, fail_apply]
    simp [a2]
  | stopClosed =>
    refine ⟨{ s with prev := s.rest, rest := r }, ?_, rfl, .step _ _ _⟩
    rw [if_neg (by simp), if_neg (by simp), if_pos ⟨rfl, rfl, by rw [hu]; simp⟩]
    simp only [bind_apply, consumeStr_true (s := s) (t := c!"..=") (by rw [hu]; simp), ↓reduceIte, fail_apply]
    simp [hu]
  | @stop v _ _ h1 h2 =>
    obtain ⟨s4, b1, b2, b3⟩ := bound_errs (s := { s with prev := s.rest, rest := v }) rfl h2
    have q : startsWith s.rest c!"..=" = false := by rw [hu]; exact dots_noEq h1
    refine ⟨s4, ?_, b2, KeepsW.trans (.step _ _ _) b3⟩
    rw [if_neg (by simp), if_neg (by simp), if_pos ⟨rfl, rfl, by rw [hu]; simp⟩]
    simp only [bind_apply, consumeStr_false q, Bool.false_eq_true, ↓reduceIte, consumeStr_true (s := s) (t := c!"..") (by rw [hu]; simp)]
    simp only [hu, List.cons_append, List.nil_append, List.length_cons, List.length_nil, List.drop_succ_cons, List.drop_zero] at b1 ⊢
    rw [b1]
  | @lastOpen k _ hk h1 =>
    have q : startsWith s.rest c!"..=" = false := by rw [hu]; exact dots_noEq h1
    refine ⟨{ s with prev := s.rest, rest := r }, ?_, rfl, .step _ _ _⟩
    rw [if_neg (by simp), if_neg (by simp), if_neg (by simp), if_pos ⟨by rcases hk with rfl | rfl <;> simp, rfl, by rw [hu]; simp⟩]
    simp only [bind_apply, consumeStr_false q, Bool.not_false, ↓reduceIte, consumeStr_true (s := s) (t := c!"..") (by rw [hu]; simp), fail_apply]
    simp [hu]
  | @last k v _ _ hk h1 =>
    obtain ⟨s4, b1, b2, b3⟩ := bound_errs (s := { s with prev := s.rest, rest := v }) rfl h1
    refine ⟨s4, ?_, b2, KeepsW.trans (.step _ _ _) b3⟩
    rw [if_neg (by simp), if_neg (by simp), if_neg (by simp), if_pos ⟨by rcases hk with rfl | rfl <;> simp, rfl, by rw [hu]; simp⟩]
    simp only [bind_apply, Bool.false_eq_true, ↓reduceIte, consumeStr_true (s := s) (t := c!"..=") (by rw [hu]; simp)]
    simp only [hu, List.cons_append, List.nil_append, List.length_cons, List.length_nil, List.drop_succ_cons, List.drop_zero] at b1 ⊢
    rw [if_neg (by simp), bind_apply, b1]

/-- What begins like a range is one, or has a defect. -/
theorem range_total {name : Text} {ks : List Text} {u : Text} (h : RangeHead name ks u) :
    (∃ es r, ks = es.map Prod.fst ∧ RangeAt name es u r) ∨ ∃ e r, BadRange name ks u e r := by
  have eqc : ∀ v : Text, (∃ w, v = '=' :: w) ∨ ∀ w, v ≠ '=' :: w := fun v => by
    by_cases h : ∃ w, v = '=' :: w
    · exact .inl h
    · exact .inr fun w e => h ⟨w, e⟩
  have dots : ∀ v : Text, (∃ w, v = c!".." ++ w) ∨ ∀ w, v ≠ c!".." ++ w := fun v => by
    by_cases h : ∃ w, v = c!".." ++ w
    · exact .inl h
    · exact .inr fun w e => h ⟨w, e⟩
  rcases h with ⟨h1, h2⟩ | ⟨rfl, rfl, h2⟩ | ⟨rfl, rfl, v, rfl⟩ | ⟨rfl, hk, v, rfl⟩
  · rcases bound_total u with ⟨a, r, h3⟩ | ⟨e, r, h3⟩
    rotate_left
    · exact .inr ⟨_, _, .first h1 h2 h3⟩
    rcases dots r with ⟨v, rfl⟩ | h4
    rotate_left
    · exact .inr ⟨_, _, .dots h1 h2 h3 h4⟩
    rcases h1 with ⟨rfl, rfl⟩ | ⟨rfl, hk⟩
    · rcases eqc v with ⟨w, rfl⟩ | h5
      · exact .inr ⟨_, _, .noOpen h2 h3⟩
      · rcases bound_total v with ⟨b, r, h6⟩ | ⟨e, r, h6⟩
        · exact .inl ⟨[(c!"start", a), (c!"end", b)], r, rfl, .range h2 h3 h6⟩
        · exact .inr ⟨_, _, .second h2 h3 h5 h6⟩
    · obtain ⟨k, hk', rfl⟩ : ∃ k, (k = c!"end" ∨ k = c!"last") ∧ ks = [c!"start", k] := by
        rcases hk with rfl | rfl
        · exact ⟨_, .inl rfl, rfl⟩
        · exact ⟨_, .inr rfl, rfl⟩
      rcases eqc v with ⟨w, rfl⟩ | h5
      · rcases bound_total w with ⟨b, r, h6⟩ | ⟨e, r, h6⟩
        · exact .inl ⟨[(c!"start", a), (k, b)], r, rfl, .inclusive hk' h2 h3 h6⟩
        · exact .inr ⟨_, _, .secondClosed hk' h2 h3 h6⟩
      · exact .inr ⟨_, _, .noClosed hk' h2 h3 h5⟩
  · rcases bound_total u with ⟨a, r, h3⟩ | ⟨e, r, h3⟩
    rotate_left
    · exact .inr ⟨_, _, .start h2 h3⟩
    rcases dots r with ⟨v, rfl⟩ | h4
    rotate_left
    · exact .inr ⟨_, _, .startDots h2 h3 h4⟩
    rcases eqc v with ⟨w, rfl⟩ | h5
    · exact .inr ⟨_, _, .startClosed h2 h3⟩
    · exact .inl ⟨[(c!"start", a)], v, rfl, .start h2 h3 h5⟩
  · rcases eqc v with ⟨w, rfl⟩ | h5
    · exact .inr ⟨_, _, .stopClosed⟩
    · rcases bound_total v with ⟨b, r, h6⟩ | ⟨e, r, h6⟩
      · exact .inl ⟨[(c!"end", b)], r, rfl, .stop h6⟩
      · exact .inr ⟨_, _, .stop h5 h6⟩
  · obtain ⟨k, hk', rfl⟩ : ∃ k, (k = c!"end" ∨ k = c!"last") ∧ ks = [k] := by
      rcases hk with rfl | rfl
      · exact ⟨_, .inl rfl, rfl⟩
      · exact ⟨_, .inr rfl, rfl⟩
    rcases eqc v with ⟨w, rfl⟩ | h5
    · rcases bound_total w with ⟨b, r, h6⟩ | ⟨e, r, h6⟩
      · exact .inl ⟨[(k, b)], r, rfl, .last hk' h6⟩
      · exact .inr ⟨_, _, .last hk' h6⟩
    · exact .inr ⟨_, _, .lastOpen hk' h5⟩

theorem rangeAt_head {name u r : Text} {es : List (Text × Number)} (h : RangeAt name es u r) : RangeHead name (es.map Prod.fst) u := by
  cases h with
  | range h1 => exact .inl ⟨.inl ⟨rfl, rfl⟩, h1⟩
  | inclusive hk h1 => exact .inl ⟨.inr ⟨rfl, by rcases hk with rfl | rfl <;> simp⟩, h1⟩
  | start h1 => exact .inr (.inl ⟨rfl, rfl, h1⟩)
  | stop => exact .inr (.inr (.inl ⟨rfl, rfl, _, rfl⟩))
  | last hk => exact .inr (.inr (.inr ⟨rfl, by rcases hk with rfl | rfl <;> simp, _, rfl⟩))

/-! ### Bounds that the fields do not take -/

theorem noNumber_err {D : Nat → Ty} : ∀ {f : Nat} {T : Ty} {n : Number}, NoNumber D f T n → numTo D f T n = .error (.invalidValueForType [] []) := by
  intro f
  induction f with
  | zero => intro T n h; cases h
  | succ f ih =>
    intro T n h
    cases h with
    | ref h => cases n <;> exact ih h
    | plain h1 h2 =>
      cases hn : numTo D (f + 1) T n with
      | ok v => exact absurd (numTo_iff.mp hn) (h2 v)
      | error e =>
        congr 1
        cases T with
        | ref i => exact absurd rfl (h1 i)
        | int t => cases n <;> simp only [numTo] at hn <;> (try split at hn) <;> first | (cases hn; rfl) | cases hn
        | f32 => cases n <;> simp only [numTo] at hn <;> (try split at hn) <;> first | (cases hn; rfl) | cases hn
        | f64 => cases n <;> simp only [numTo] at hn <;> (try split at hn) <;> first | (cases hn; rfl) | cases hn
        | _ => cases n <;> (cases hn; try rfl)

/-- Such a bound is an error. -/
theorem noBound_visit {D : Nat → Ty} {f : Nat} {isOption : Ty → Bool} {name u r : Text} {fields : List (Text × Ty)} {es : List (Text × Number)}
    (h : RangeAt name es u r) (hb : NoBound (NumAs D f) (NoNumber D f) fields es) :
    visitRange (numTo D f) isOption fields es = .error (.invalidValueForType [] []) := by
  have one : ∀ {k : Text} {a : Number} {fields : List (Text × Ty)}, NoBound (NumAs D f) (NoNumber D f) fields [(k, a)] →
      visitRange (numTo D f) isOption fields [(k, a)] = .error (.invalidValueForType [] []) := by
    intro k a fields ⟨hf, Fs, F, Fs', ds, d, ds', fs, e1, e2, h1, h2⟩
    match fields, hf with
    | [(k', T)], e =>
      obtain rfl : k' = k := by simpa using e
      match Fs, ds, fs, h1 with
      | [], [], [], _ =>
        simp only [List.nil_append, List.cons.injEq] at e1 e2
        obtain ⟨rfl, -⟩ := e1
        obtain ⟨rfl, -⟩ := e2
        simp [visitRange, visitRange.go, noNumber_err h2, bind, Except.bind]
      | _ :: _, _ :: _, _ :: _, _ => simp at e1
  have two : ∀ {k l : Text} {a b : Number} {fields : List (Text × Ty)}, k ≠ l → NoBound (NumAs D f) (NoNumber D f) fields [(k, a), (l, b)] →
      visitRange (numTo D f) isOption fields [(k, a), (l, b)] = .error (.invalidValueForType [] []) := by
    intro k l a b fields hne ⟨hf, Fs, F, Fs', ds, d, ds', fs, e1, e2, h1, h2⟩
    match fields, hf with
    | [(k', T), (l', U)], e =>
      obtain ⟨rfl, rfl⟩ : k' = k ∧ l' = l := by simpa using e
      match Fs, ds, fs, h1 with
      | [], [], [], _ =>
        simp only [List.nil_append, List.cons.injEq] at e1 e2
        obtain ⟨rfl, -⟩ := e1
        obtain ⟨rfl, -⟩ := e2
        simp [visitRange, visitRange.go, noNumber_err h2, bind, Except.bind]
      | _ :: Fs, _ :: ds, v :: fs, ⟨h0, h1⟩ =>
        match Fs, ds, fs, h1 with
        | [], [], [], _ =>
          simp only [List.cons_append, List.nil_append, List.cons.injEq] at e1 e2
          obtain ⟨rfl, rfl, -⟩ := e1
          obtain ⟨rfl, rfl, -⟩ := e2
          simp [visitRange, visitRange.go, numTo_iff.mpr h0.2.2, noNumber_err h2, bind, Except.bind, hne]
        | _ :: _, _ :: _, _ :: _, _ => simp at e1
  cases h with
  | range => exact two (by simp) hb
  | inclusive hk => exact two (by rcases hk with rfl | rfl <;> simp) hb
  | start => exact one hb
  | stop => exact one hb
  | last => exact one hb

omit [Env] in
/-- The fields take the bounds, or one does not. -/
theorem bounds_total {as : Ty → Number → SVal → Prop} {no : Ty → Number → Prop} : ∀ {fields : List (Text × Ty)} {es : List (Text × Number)},
    (∀ F ∈ fields, ∀ n, (∃ v, as F.2 n v) ∨ no F.2 n) → fields.map Prod.fst = es.map Prod.fst →
    (∃ fs, RangeFields as fields es fs) ∨ NoBound as no fields es
  | [], [], _, _ => .inl ⟨[], trivial⟩
  | F :: fields, d :: es, h, hf => by
    simp only [List.map_cons, List.cons.injEq] at hf
    rcases h F (by simp) d.2 with ⟨v, hv⟩ | hn
    · rcases bounds_total (fun F hF => h F (by simp [hF])) hf.2 with ⟨fs, h1⟩ | ⟨-, Fs, G, Fs', ds, g, ds', fs, rfl, rfl, h1, h2⟩
      · exact .inl ⟨(d.1, v) :: fs, ⟨hf.1, rfl, hv⟩, h1⟩
      · exact .inr ⟨by simp only [List.map_cons, List.cons.injEq]; exact hf, F :: Fs, G, Fs', d :: ds, g, ds', (d.1, v) :: fs, rfl, rfl, ⟨⟨hf.1, rfl, hv⟩, h1⟩, h2⟩
    · exact .inr ⟨by simp only [List.map_cons, List.cons.injEq]; exact hf, [], F, fields, [], d, es, [], rfl, rfl, trivial, hn⟩
  | [], _ :: _, _, hf => by cases hf
  | _ :: _, [], _, hf => by cases hf

theorem rangeAt_suffix {name u r : Text} {es : List (Text × Number)} (h : RangeAt name es u r) : ∃ p, u = p ++ r := by
  have key : ∀ {a u v b r}, NumberAt u a (c!".." ++ v) → NumberAt v b r → ∃ p, u = p ++ r := by
    intro a u v b r h1 h2
    obtain ⟨t, -, rfl⟩ := numberAt_suffix h1
    obtain ⟨t', -, rfl⟩ := numberAt_suffix h2
    exact ⟨t ++ (c!".." ++ t'), by simp⟩
  have key' : ∀ {a u v b r}, NumberAt u a (c!"..=" ++ v) → NumberAt v b r → ∃ p, u = p ++ r := by
    intro a u v b r h1 h2
    obtain ⟨t, -, rfl⟩ := numberAt_suffix h1
    obtain ⟨t', -, rfl⟩ := numberAt_suffix h2
    exact ⟨t ++ (c!"..=" ++ t'), by simp⟩
  cases h with
  | range _ h1 h2 => exact key h1 h2
  | inclusive _ _ h1 h2 => exact key' h1 h2
  | start _ h1 _ =>
    obtain ⟨t, -, rfl⟩ := numberAt_suffix h1
    exact ⟨t ++ c!"..", by simp⟩
  | stop h1 =>
    obtain ⟨t, -, rfl⟩ := numberAt_suffix h1
    exact ⟨c!".." ++ t, by simp⟩
  | last _ h1 =>
    obtain ⟨t, -, rfl⟩ := numberAt_suffix h1
    exact ⟨c!"..=" ++ t, by simp⟩

end Ron
