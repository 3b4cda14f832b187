import Verif.Spec.TyLang
import Verif.Lemmas.NumText
import Verif.Lemmas.TyRange
/-!
# The notation of ranges for structs
-/

namespace Ron

variable [Env]

/-! ### Numbers in longer texts -/

theorem numberAt_ext {u r l : Text} {n : Number} (hl : Ends l) (h : NumberAt u n r) : NumberAt (u ++ l) n (r ++ l) := by
  obtain ⟨s', h1, h2, -⟩ := number_ok (s := St.init u) rfl h
  obtain ⟨t, g1, g2⟩ := anyNumber_ext (s := St.init (u ++ l)) (s' := St.init u) hl ⟨rfl⟩ n s' h1
  exact number_iff.mp ⟨t, g1, by rw [g2.rest, h2]⟩

theorem numberAt_cut {u r l : Text} {n : Number} (hl : Ends l) (h : NumberAt (u ++ l) n (r ++ l)) : NumberAt u n r := by
  obtain ⟨s', h1, h2, -⟩ := number_ok (s := St.init (u ++ l)) rfl h
  obtain ⟨t, g1, g2⟩ := anyNumber_trunc (s := St.init (u ++ l)) (s' := St.init u) hl ⟨rfl⟩ (St.init_inside _) rfl n s' h1 (by rw [h2]; simp)
  refine number_iff.mp ⟨t, g1, ?_⟩
  have := g2.rest
  rw [h2] at this
  exact (List.append_cancel_right this).symm

theorem numberAt_suffix {u r : Text} {n : Number} (h : NumberAt u n r) : ∃ t, t ≠ [] ∧ u = t ++ r := by
  obtain ⟨s', h1, rfl, -⟩ := number_ok (s := St.init u) rfl h
  have hx := anyNumber_E (.refl (St.init_inside u) rfl)
  rw [h1] at hx
  obtain ⟨t, ht⟩ := hx.rest
  refine ⟨t, ?_, ht.symm⟩
  rintro rfl
  have := hx.lt rfl
  rw [← ht] at this
  simp at this

omit [Env] in
theorem headStart_iff {u : Text} : (match u with | [] => false | c :: _ => isNumberStart u c) = true ↔ DigitHead u ∨ ByteHead u := by
  cases u with
  | nil => simp [DigitHead, ByteHead]
  | cons c u =>
    simp only
    constructor
    · intro h
      rcases start_digitHead h with h | ⟨rfl, h⟩
      · exact .inl ⟨c, u, rfl, h⟩
      · obtain ⟨r, hr⟩ := (startsWith_iff _ _).mp h
        exact .inr ⟨r, hr⟩
    · rintro (⟨c', u', e, h⟩ | ⟨r, h⟩)
      · cases e; exact digitHead_start h
      · rw [h]
        cases h
        simp [isNumberStart]

omit [Env] in
theorem digitByte_ext {u l : Text} (h : DigitHead u ∨ ByteHead u) : DigitHead (u ++ l) ∨ ByteHead (u ++ l) := by
  rcases h with ⟨c, v, rfl, h⟩ | ⟨v, rfl⟩
  · exact .inl ⟨c, v ++ l, rfl, h⟩
  · exact .inr ⟨v ++ l, by simp⟩

omit [Env] in
theorem digitByte_cut {u l : Text} (hl : Ends l) (hu : u ≠ []) (h : DigitHead (u ++ l) ∨ ByteHead (u ++ l)) : DigitHead u ∨ ByteHead u := by
  rcases h with ⟨c, v, e, h⟩ | ⟨v, e⟩
  · cases u with
    | nil => exact absurd rfl hu
    | cons d u => cases e; exact .inl ⟨c, u, rfl, h⟩
  · have : startsWith (u ++ l) c!"b'" = true := by rw [e]; simp
    rw [startsWith_ends hl (by decide)] at this
    obtain ⟨r, hr⟩ := (startsWith_iff _ _).mp this
    exact .inr ⟨r, hr⟩

/-! ### Ranges in longer texts -/

omit [Env] in
theorem ends_noEq {l : Text} (hl : Ends l) (v : Text) : l ≠ '=' :: v := by
  rcases hl with rfl | ⟨c, r, rfl, hc⟩
  · simp
  · rintro ⟨⟩; revert hc; decide

theorem rangeAt_ext {name u l : Text} {es : List (Text × Number)} (hl : Ends l) (h : RangeAt name es u []) : RangeAt name es (u ++ l) l := by
  have key : ∀ {u r n}, NumberAt u n r → NumberAt (u ++ l) n (r ++ l) := fun h => numberAt_ext hl h
  cases h with
  | range h1 h2 h3 => exact .range (digitByte_ext h1) (v := _ ++ l) (by simpa using key h2) (by simpa using key h3)
  | inclusive hk h1 h2 h3 => exact .inclusive hk (digitByte_ext h1) (v := _ ++ l) (by simpa using key h2) (by simpa using key h3)
  | start h1 h2 h3 => exact .start (numHead_append h1 hl) (by simpa using key h2) (ends_noEq hl)
  | stop h1 =>
    rw [List.append_assoc]
    exact .stop (by simpa using key h1)
  | last hk h1 =>
    rw [List.append_assoc]
    exact .last hk (by simpa using key h1)

theorem rangeAt_cut {name u l : Text} {es : List (Text × Number)} (hl : Ends l) (h : RangeAt name es u l) :
    ∃ t, t ≠ [] ∧ u = t ++ l ∧ RangeAt name es t [] := by
  have key : ∀ {u n}, NumberAt (u ++ l) n l → NumberAt u n [] := fun h => numberAt_cut (r := []) hl (by simpa using h)
  have key' : ∀ {u v n}, NumberAt (u ++ l) n (v ++ l) → NumberAt u n v := fun h => numberAt_cut hl h
  cases h with
  | range h1 h2 h3 =>
    obtain ⟨t3, -, rfl⟩ := numberAt_suffix h3
    obtain ⟨t2, n2, rfl⟩ := numberAt_suffix h2
    have e : t2 ++ (c!".." ++ (t3 ++ l)) = (t2 ++ (c!".." ++ t3)) ++ l := by simp
    rw [e] at h1 h2
    refine ⟨_, by simp, e, .range (digitByte_cut hl (by simp) h1) (v := t3) (key' (by simpa using h2)) (key h3)⟩
  | inclusive hk h1 h2 h3 =>
    obtain ⟨t3, -, rfl⟩ := numberAt_suffix h3
    obtain ⟨t2, n2, rfl⟩ := numberAt_suffix h2
    have e : t2 ++ (c!"..=" ++ (t3 ++ l)) = (t2 ++ (c!"..=" ++ t3)) ++ l := by simp
    rw [e] at h1 h2
    refine ⟨_, by simp, e, .inclusive hk (digitByte_cut hl (by simp) h1) (v := t3) (key' (by simpa using h2)) (key h3)⟩
  | start h1 h2 h3 =>
    obtain ⟨t2, n2, rfl⟩ := numberAt_suffix h2
    have e : t2 ++ (c!".." ++ l) = (t2 ++ c!"..") ++ l := by simp
    rw [e] at h1 h2
    refine ⟨_, by simp, e, .start (numHead_cut h1 (by simp) hl) (key' (by simpa using h2)) (by simp)⟩
  | stop h1 =>
    obtain ⟨t3, -, rfl⟩ := numberAt_suffix h1
    exact ⟨c!".." ++ t3, by simp, by simp, .stop (key h1)⟩
  | last hk h1 =>
    obtain ⟨t3, -, rfl⟩ := numberAt_suffix h1
    exact ⟨c!"..=" ++ t3, by simp, by simp, .last hk (key h1)⟩

/-! ### The reader -/

theorem special_iff {s : St} : ∃ b, (do
      if ← checkIdent c!"inf" then pure true
      else if ← checkIdent c!"inff32" then pure true
      else if ← checkIdent c!"inff64" then pure true
      else if ← checkIdent c!"NaN" then pure true
      else if ← checkIdent c!"NaNf32" then pure true
      else checkIdent c!"NaNf64" : P Bool) s = .ok b s ∧ (b = true ↔ ∃ w v u, (w, v) ∈ floatWords ∧ s.rest = w ++ u ∧ NoIdentStart u) := by
  have hi : ∀ w, (startsWith s.rest w && !headXid (s.rest.drop w.length)) = true ↔ ∃ u, s.rest = w ++ u ∧ NoIdentStart u := by
    intro w
    rw [Bool.and_eq_true, startsWith_iff]
    constructor
    · rintro ⟨⟨r, h⟩, h2⟩
      rw [h] at h2
      exact ⟨r, h, by simpa [headXid_false] using h2⟩
    · rintro ⟨r, h, h2⟩
      rw [h]
      exact ⟨⟨r, rfl⟩, by simpa [headXid_false] using h2⟩
  refine ⟨floatWords.any fun e => startsWith s.rest e.1 && !headXid (s.rest.drop e.1.length), ?_, ?_⟩
  · obtain ⟨ck, hck⟩ : ∃ ck : Text → Bool, ck = fun w => startsWith s.rest w && !headXid (s.rest.drop w.length) := ⟨_, rfl⟩
    have hc : ∀ w, checkIdent w s = .ok (ck w) s := fun _ => by rw [hck]; rfl
    have e : (floatWords.any fun e => startsWith s.rest e.1 && !headXid (s.rest.drop e.1.length)) = floatWords.any fun e => ck e.1 := by rw [hck]
    rw [e]
    simp only [floatWords, List.any_cons, List.any_nil, Bool.or_false]
    clear hi hck e
    cases h1 : ck c!"inf"
    · cases h2 : ck c!"inff32"
      · cases h3 : ck c!"inff64"
        · cases h4 : ck c!"NaN"
          · cases h5 : ck c!"NaNf32" <;> simp [bind_apply, hc, h1, h2, h3, h4, h5]
          · simp [bind_apply, hc, h1, h2, h3, h4]
        · simp [bind_apply, hc, h1, h2, h3]
      · simp [bind_apply, hc, h1, h2]
    · simp [bind_apply, hc, h1]
  · rw [List.any_eq_true]
    constructor
    · rintro ⟨⟨w, v⟩, hm, h⟩
      obtain ⟨u, h1, h2⟩ := (hi w).mp h
      exact ⟨w, v, u, hm, h1, h2⟩
    · rintro ⟨w, v, u, hm, h1, h2⟩
      exact ⟨⟨w, v⟩, hm, (hi w).mpr ⟨u, h1, h2⟩⟩

/-- What reading the notation of a range gives. -/
theorem rangeStruct_inv {name : Text} {fields : List Text} {s s' : St} {o : Option (List (Text × Number))} (h : rangeStruct name fields s = .ok o s') :
    (o = none ∧ s' = s) ∨ ∃ es, o = some es ∧ fields = es.map Prod.fst ∧ RangeAt name es s.rest s'.rest := by
  unfold rangeStruct at h
  rw [getSt_bind] at h
  have num : ∀ {t t' : St} {n : Number}, anyNumber t = .ok n t' → NumberAt t.rest n t'.rest := fun h => number_iff.mp ⟨_, h, rfl⟩
  replace h := ite_inv h; rcases h with ⟨hc, h⟩ | ⟨-, h⟩
  · rcases ite_inv h with ⟨hh, h⟩ | ⟨-, h⟩
    · have hh := headStart_iff.mp hh
      replace h := bind_ok h; obtain ⟨a, s2, h2, h⟩ := h
      replace h := bind_ok h; obtain ⟨incl, s3, h3, h⟩ := h
      have hin : (incl = true ∧ s2.rest = c!"..=" ++ s3.rest) ∨ (incl = false ∧ s2.rest = c!".." ++ s3.rest) := by
        replace h3 := bind_ok h3; obtain ⟨b, s4, h4, h3⟩ := h3
        rcases consumeStr_inv h4 with ⟨rfl, r4, -⟩ | ⟨rfl, rfl, -⟩
        · replace h3 := if_tt h3; cases h3; exact .inl ⟨rfl, r4⟩
        · replace h3 := if_ff h3
          replace h3 := bind_ok h3; obtain ⟨b, s5, h5, h3⟩ := h3
          rcases consumeStr_inv h5 with ⟨rfl, r5, -⟩ | ⟨rfl, -, -⟩
          · replace h3 := if_tt h3; cases h3; exact .inr ⟨rfl, r5⟩
          · replace h3 := if_ff h3; cases h3
      replace h := ite_inv h; rcases h with ⟨-, h⟩ | ⟨c1, h⟩
      · cases h
      replace h := ite_inv h; rcases h with ⟨-, h⟩ | ⟨c2, h⟩
      · cases h
      replace h := bind_ok h; obtain ⟨e, s6, h6, h⟩ := h
      cases h
      have n2 := num h2
      have n6 := num h6
      right
      rcases hin with ⟨rfl, hr⟩ | ⟨rfl, hr⟩
      · rw [hr] at n2
        rcases hc with ⟨rfl, -⟩ | ⟨rfl, rfl | rfl⟩
        · exact absurd rfl c1
        · exact ⟨_, rfl, rfl, .inclusive (.inl rfl) hh n2 n6⟩
        · exact ⟨_, rfl, rfl, .inclusive (.inr rfl) hh n2 n6⟩
      · rw [hr] at n2
        rcases hc with ⟨rfl, rfl⟩ | ⟨rfl, -⟩
        · exact ⟨_, rfl, rfl, .range hh n2 n6⟩
        · exact absurd rfl c2
    · cases h; exact .inl ⟨rfl, rfl⟩
  replace h := ite_inv h; rcases h with ⟨⟨rfl, rfl⟩, h⟩ | ⟨-, h⟩
  · replace h := bind_ok h; obtain ⟨sp, s2, h2, h⟩ := h
    obtain ⟨b, k1, k2⟩ := special_iff (s := s)
    rw [k1] at h2; cases h2
    replace h := ite_inv h; rcases h with ⟨hh, h⟩ | ⟨-, h⟩
    · replace h := bind_ok h; obtain ⟨a, s3, h3, h⟩ := h
      replace h := bind_ok h; obtain ⟨b1, s4, h4, h⟩ := h
      rcases consumeStr_inv h4 with ⟨rfl, r4, -⟩ | ⟨rfl, rfl, q4⟩
      · replace h := if_tt h; cases h
      replace h := if_ff h
      replace h := bind_ok h; obtain ⟨b2, s5, h5, h⟩ := h
      rcases consumeStr_inv h5 with ⟨rfl, r5, -⟩ | ⟨rfl, rfl, -⟩
      · replace h := if_ff h; cases h
        have n3 := num h3
        rw [r5] at n3
        refine .inr ⟨_, rfl, rfl, .start ?_ n3 ?_⟩
        · rw [Bool.or_eq_true] at hh
          rcases hh with hh | hh
          · rcases headStart_iff.mp hh with h | ⟨u, h⟩
            · exact .inl h
            · exact .inr (.inl ⟨u, h⟩)
          · exact .inr (.inr (k2.mp hh))
        · intro v hv
          rw [r5, hv] at q4
          simp at q4
      · replace h := if_tt h; cases h
    · cases h; exact .inl ⟨rfl, rfl⟩
  replace h := ite_inv h; rcases h with ⟨⟨e1, e2, hs⟩, h⟩ | ⟨-, h⟩
  · replace h := bind_ok h; obtain ⟨b1, s2, h2, h⟩ := h
    rcases consumeStr_inv h2 with ⟨rfl, -, -⟩ | ⟨rfl, rfl, -⟩
    · replace h := if_tt h; cases h
    replace h := if_ff h
    replace h := bind_ok h; obtain ⟨b2, s3, h3, h⟩ := h
    rcases consumeStr_inv h3 with ⟨rfl, r3, -⟩ | ⟨rfl, -, q⟩
    · replace h := bind_ok h; obtain ⟨e, s4, h4, h⟩ := h
      cases h
      refine .inr ⟨_, rfl, e1, ?_⟩
      rw [r3, e2]
      exact .stop (num h4)
    · rw [hs] at q; cases q
  replace h := ite_inv h; rcases h with ⟨⟨hf, e2, hs⟩, h⟩ | ⟨-, h⟩
  · replace h := bind_ok h; obtain ⟨b1, s2, h2, h⟩ := h
    rcases consumeStr_inv h2 with ⟨rfl, r2, -⟩ | ⟨rfl, rfl, -⟩
    · replace h := if_ff h
      replace h := bind_ok h; obtain ⟨e, s4, h4, h⟩ := h
      cases h
      rw [r2, e2]
      rcases hf with rfl | rfl
      · exact .inr ⟨_, rfl, rfl, .last (.inl rfl) (num h4)⟩
      · exact .inr ⟨_, rfl, rfl, .last (.inr rfl) (num h4)⟩
    · replace h := if_tt h
      replace h := bind_ok h; obtain ⟨_, s4, h4, h⟩ := h
      cases h
  · cases h; exact .inl ⟨rfl, rfl⟩

omit [Env] in
theorem dots_noEq {v : Text} (h : ∀ w, v ≠ '=' :: w) : startsWith (c!".." ++ v) c!"..=" = false := by
  cases v with
  | nil => rfl
  | cons c v =>
    have : c ≠ '=' := fun e => h v (by rw [e])
    simp [startsWith, List.isPrefixOf, Ne.symm this]

/-- The notation of a range is read. -/
theorem rangeAt_read {name r : Text} {es : List (Text × Number)} {s : St} (h : RangeAt name es s.rest r) :
    RunsW (rangeStruct name (es.map Prod.fst)) s (some es) r := by
  unfold RunsW rangeStruct
  rw [getSt_bind]
  generalize hu : s.rest = u at h
  cases h with
  | @range _ v _ a b h1 h2 h3 =>
    obtain ⟨s2, a1, a2, a3⟩ := number_ok hu h2
    have q : startsWith s2.rest c!"..=" = false := by rw [a2]; exact dots_noEq h3.noEq
    obtain ⟨s4, b1, b2, b3⟩ := number_ok (s := { s2 with prev := s2.rest, rest := v }) rfl h3
    refine ⟨s4, ?_, b2, (a3.trans (.step _ _ _)).trans b3⟩
    rw [if_pos (.inl ⟨rfl, rfl⟩)]
    refine (congrFun (if_pos (headStart_iff.mpr h1)) s).trans ?_
    simp only [bind_apply, a1, consumeStr_false q, Bool.false_eq_true, ↓reduceIte, consumeStr_true (s := s2) (t := c!"..") (by rw [a2]; simp)]
    simp only [a2, List.cons_append, List.nil_append, List.length_cons, List.length_nil, List.drop_succ_cons, List.drop_zero] at b1 ⊢
    simp only [pure_apply]
    rw [if_neg (by decide), if_neg (by decide), bind_apply, b1]
    simp
  | @inclusive k _ v _ a b hk h1 h2 h3 =>
    obtain ⟨s2, a1, a2, a3⟩ := number_ok hu h2
    obtain ⟨s4, b1, b2, b3⟩ := number_ok (s := { s2 with prev := s2.rest, rest := v }) rfl h3
    refine ⟨s4, ?_, b2, (a3.trans (.step _ _ _)).trans b3⟩
    rw [if_pos (.inr ⟨rfl, by rcases hk with rfl | rfl <;> simp⟩)]
    refine (congrFun (if_pos (headStart_iff.mpr h1)) s).trans ?_
    simp only [bind_apply, a1, Bool.false_eq_true, ↓reduceIte, consumeStr_true (s := s2) (t := c!"..=") (by rw [a2]; simp)]
    simp only [a2, List.cons_append, List.nil_append, List.length_cons, List.length_nil, List.drop_succ_cons, List.drop_zero] at b1 ⊢
    simp only [pure_apply]
    rw [if_neg (by decide), if_neg (by decide), bind_apply, b1]
    simp
  | @start _ _ a h1 h2 h3 =>
    obtain ⟨s2, a1, a2, a3⟩ := number_ok hu h2
    have q : startsWith s2.rest c!"..=" = false := by rw [a2]; exact dots_noEq h3
    refine ⟨{ s2 with prev := s2.rest, rest := r }, ?_, rfl, a3.trans (.step _ _ _)⟩
    obtain ⟨b, k1, k2⟩ := special_iff (s := s)
    rw [if_neg (by simp), if_pos ⟨rfl, rfl⟩, bind_apply, k1]
    simp only
    rw [if_pos]
    · simp only [bind_apply, a1, consumeStr_false q, Bool.false_eq_true, ↓reduceIte, consumeStr_true (s := s2) (t := c!"..") (by rw [a2]; simp)]
      simp [a2]
    · rw [Bool.or_eq_true]
      rcases h1 with h | ⟨w, h⟩ | h
      · exact .inl (headStart_iff.mpr (.inl h))
      · exact .inl (headStart_iff.mpr (.inr ⟨w, h⟩))
      · exact .inr (k2.mpr (by rw [hu]; exact h))
  | @stop v _ b h1 =>
    obtain ⟨s4, b1, b2, b3⟩ := number_ok (s := { s with prev := s.rest, rest := v }) rfl h1
    have q : startsWith s.rest c!"..=" = false := by rw [hu]; exact dots_noEq h1.noEq
    refine ⟨s4, ?_, b2, KeepsW.trans (.step _ _ _) b3⟩
    rw [if_neg (by simp), if_neg (by simp), if_pos ⟨rfl, rfl, by simp⟩]
    simp only [bind_apply, consumeStr_false q, Bool.false_eq_true, ↓reduceIte, consumeStr_true (s := s) (t := c!"..") (by rw [hu]; simp)]
    simp only [hu, List.cons_append, List.nil_append, List.length_cons, List.length_nil, List.drop_succ_cons, List.drop_zero] at b1 ⊢
    rw [b1]
    rfl
  | @last k v _ b hk h1 =>
    obtain ⟨s4, b1, b2, b3⟩ := number_ok (s := { s with prev := s.rest, rest := v }) rfl h1
    refine ⟨s4, ?_, b2, KeepsW.trans (.step _ _ _) b3⟩
    rw [if_neg (by simp), if_neg (by simp), if_neg (by simp), if_pos ⟨by rcases hk with rfl | rfl <;> simp, rfl, by simp⟩]
    simp only [bind_apply, Bool.false_eq_true, ↓reduceIte, consumeStr_true (s := s) (t := c!"..=") (by rw [hu]; simp)]
    simp only [hu, List.cons_append, List.nil_append, List.length_cons, List.length_nil, List.drop_succ_cons, List.drop_zero] at b1 ⊢
    rw [if_neg (by simp), bind_apply, b1]
    rfl

/-! ### The fields -/

theorem numTo_iff {D : Nat → Ty} : ∀ {f : Nat} {T : Ty} {n : Number} {v : SVal}, numTo D f T n = .ok v ↔ NumAs D f T n v := by
  intro f
  induction f with
  | zero =>
    intro T n v
    constructor
    · intro h; cases h
    · intro h; cases h
  | succ f ih =>
    intro T n v
    constructor
    · intro h
      cases T with
      | int t =>
        cases n with
        | int t' i =>
          simp only [numTo] at h
          split at h
          · next hc => cases h; exact .int hc.1 hc.2
          · cases h
        | f32 _ => cases h
        | f64 _ => cases h
      | f32 =>
        cases n with
        | int t' i =>
          simp only [numTo] at h
          split at h
          · cases h
          · next hc => cases h; exact .int32 hc
        | f32 _ => cases h; exact .f32
        | f64 _ => cases h; exact .narrow
      | f64 =>
        cases n with
        | int t' i =>
          simp only [numTo] at h
          split at h
          · cases h
          · next hc => cases h; exact .int64 hc
        | f32 _ => cases h; exact .widen
        | f64 _ => cases h; exact .f64
      | value => cases n <;> (cases h; exact .value)
      | ref i => cases n <;> exact .ref (ih.mp h)
      | _ => cases n <;> cases h
    · intro h
      cases h with
      | int h1 h2 => simp only [numTo]; rw [if_pos ⟨h1, h2⟩]
      | int32 h => simp only [numTo]; rw [if_neg h]
      | int64 h => simp only [numTo]; rw [if_neg h]
      | @value _ n => cases n <;> rfl
      | @ref _ i n _ h => cases n <;> exact ih.mpr h
      | _ => rfl

/-- The entries of a range are those of the struct. -/
theorem visitRange_iff {conv : Ty → Number → Except Err SVal} {isOption : Ty → Bool} {name u r : Text} {fields : List (Text × Ty)}
    {es : List (Text × Number)} {fs : List (Text × SVal)} (h : RangeAt name es u r) (hf : fields.map Prod.fst = es.map Prod.fst) :
    visitRange conv isOption fields es = .ok fs ↔ RangeFields (fun T n v => conv T n = .ok v) fields es fs := by
  have one : ∀ {k : Text} {a : Number} {fields : List (Text × Ty)}, fields.map Prod.fst = [k] →
      (visitRange conv isOption fields [(k, a)] = .ok fs ↔ RangeFields (fun T n v => conv T n = .ok v) fields [(k, a)] fs) := by
    intro k a fields hf
    match fields, hf with
    | [(k', T)], e =>
      obtain rfl : k' = k := by simpa using e
      cases hc : conv T a with
      | error e =>
        have : visitRange conv isOption [(k', T)] [(k', a)] = .error e := by
          simp [visitRange, visitRange.go, hc, bind, Except.bind]
        rw [this]
        refine ⟨fun h => (by cases h), fun h => ?_⟩
        match fs, h with
        | [_], h => exact absurd (hc.symm.trans h.1.2.2) (by simp)
      | ok v =>
        have : visitRange conv isOption [(k', T)] [(k', a)] = .ok [(k', v)] := by
          simp [visitRange, visitRange.go, collectFields, hc, bind, Except.bind, Except.map]
        rw [this]
        refine ⟨fun h => by cases h; exact ⟨⟨rfl, rfl, hc⟩, trivial⟩, fun h => ?_⟩
        match fs, h with
        | [(k2, v2)], ⟨⟨_, e, hv⟩, _⟩ =>
          obtain rfl : k2 = k' := e
          have hv := hc.symm.trans hv
          cases hv; rfl
  have two : ∀ {k l : Text} {a b : Number} {fields : List (Text × Ty)}, k ≠ l → fields.map Prod.fst = [k, l] →
      (visitRange conv isOption fields [(k, a), (l, b)] = .ok fs ↔ RangeFields (fun T n v => conv T n = .ok v) fields [(k, a), (l, b)] fs) := by
    intro k l a b fields hne hf
    match fields, hf with
    | [(k', T), (l', U)], e =>
      obtain ⟨rfl, rfl⟩ : k' = k ∧ l' = l := by simpa using e
      cases hc : conv T a with
      | error e =>
        have : visitRange conv isOption [(k', T), (l', U)] [(k', a), (l', b)] = .error e := by
          simp [visitRange, visitRange.go, hc, bind, Except.bind]
        rw [this]
        refine ⟨fun h => (by cases h), fun h => ?_⟩
        match fs, h with
        | [_, _], h => exact absurd (hc.symm.trans h.1.2.2) (by simp)
      | ok v =>
        cases hd : conv U b with
        | error e =>
          have : visitRange conv isOption [(k', T), (l', U)] [(k', a), (l', b)] = .error e := by
            simp [visitRange, visitRange.go, hc, hd, bind, Except.bind, hne]
          rw [this]
          refine ⟨fun h => (by cases h), fun h => ?_⟩
          match fs, h with
          | [_, _], h => exact absurd (hd.symm.trans h.2.1.2.2) (by simp)
        | ok w =>
          have : visitRange conv isOption [(k', T), (l', U)] [(k', a), (l', b)] = .ok [(k', v), (l', w)] := by
            simp [visitRange, visitRange.go, collectFields, hc, hd, bind, Except.bind, Except.map, hne]
          rw [this]
          refine ⟨fun h => by cases h; exact ⟨⟨rfl, rfl, hc⟩, ⟨rfl, rfl, hd⟩, trivial⟩, fun h => ?_⟩
          match fs, h with
          | [(k2, v2), (l2, w2)], ⟨⟨_, e, hv⟩, ⟨_, e', hw⟩, _⟩ =>
            obtain rfl : k2 = k' := e
            obtain rfl : l2 = l' := e'
            have hv := hc.symm.trans hv
            have hw := hd.symm.trans hw
            cases hv; cases hw; rfl
  cases h with
  | range => exact two (by simp) hf
  | inclusive hk => exact two (by rcases hk with rfl | rfl <;> simp) hf
  | start => exact one hf
  | stop => exact one hf
  | last => exact one hf

theorem rangeAt_start {name u r : Text} {es : List (Text × Number)} (h : RangeAt name es u r) : TokStart u := by
  have key : ∀ {u : Text}, DigitHead u ∨ ByteHead u → TokStart u := by
    rintro u (h | ⟨w, h⟩)
    · exact num_tokStart (.inl h)
    · exact num_tokStart (.inr (.inl ⟨w, h⟩))
  cases h with
  | range h1 => exact key h1
  | inclusive _ h1 => exact key h1
  | start h1 => exact num_tokStart h1
  | stop => exact ⟨'.', _, rfl, by decide, by decide⟩
  | last => exact ⟨'.', _, rfl, by decide, by decide⟩

theorem rangeFields_names {as : Ty → Number → SVal → Prop} : ∀ {fields : List (Text × Ty)} {es : List (Text × Number)} {fs : List (Text × SVal)},
    RangeFields as fields es fs → fields.map Prod.fst = es.map Prod.fst
  | [], [], [], _ => rfl
  | _ :: _, _ :: _, _ :: _, h => by rw [List.map_cons, List.map_cons, h.1.1, rangeFields_names h.2]
  | [], _ :: _, _, h => (nomatch h)
  | [], [], _ :: _, h => (nomatch h)
  | _ :: _, [], _, h => (nomatch h)
  | _ :: _, _ :: _, [], h => (nomatch h)

/-- A range is read as the struct. -/
theorem rangeAt_reads {rec : Ty → P SVal} {isOption : Ty → Bool} {D : Nat → Ty} {f : Nat} {x : Exts} {name w : Text} {deny : Bool}
    {fields : List (Text × Ty)} {es : List (Text × Number)} {fs : List (Text × SVal)} (h : RangeAt name es w [])
    (hf : RangeFields (NumAs D f) fields es fs) : ReadsA x 0 (deStruct rec isOption (numTo D f) name deny fields) w (.struct name fs) := by
  refine readsA_tok (rangeAt_start h) fun d l q hd hl hq => ?_
  obtain ⟨s', g1, g2, g3⟩ := rangeAt_read (s := d) (r := l ++ q) (by rw [hd]; exact rangeAt_ext (ends_follow hl hq) h)
  refine ⟨s', ?_, g2, g3⟩
  unfold deStruct
  have hn := rangeFields_names hf
  simp only [bind_apply, hn, g1]
  rw [(visitRange_iff h hn).mpr (by simpa only [numTo_iff] using hf)]
  rfl

end Ron
