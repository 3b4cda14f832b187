import Verif.Lemmas.AnyNumber
import Verif.Lemmas.Numeric
/-!
# Reading numbers and ranges as values
-/

namespace Ron

variable [Env]

omit [Env] in
theorem digitHead_start {t : Text} {c : Char} (h : isDigit c = true ∨ c ∈ ['+', '-', '.']) : isNumberStart t c = true := by
  unfold isNumberStart
  rcases h with h | h
  · have : c ≠ 'b' := by rintro rfl; revert h; decide
    simp [h, this]
  · simp only [List.mem_cons, List.not_mem_nil, or_false] at h
    rcases h with rfl | rfl | rfl <;> simp

omit [Env] in
theorem start_digitHead {t : Text} {c : Char} (h : isNumberStart t c = true) :
    (isDigit c = true ∨ c ∈ ['+', '-', '.']) ∨ (c = 'b' ∧ startsWith t c!"b'" = true) := by
  unfold isNumberStart at h
  simp only [Bool.and_eq_true, Bool.or_eq_true, beq_iff_eq, bne_iff_ne] at h
  obtain ⟨(((h | rfl) | rfl) | rfl) | rfl, h2⟩ := h
  · exact .inl (.inl h)
  · exact .inl (by decide)
  · exact .inl (by decide)
  · exact .inl (by decide)
  · exact .inr ⟨rfl, by simpa using h2⟩

theorem NumberAt.ne_nil {u r : Text} {n : Number} (h : NumberAt u n r) : u ≠ [] := by
  rintro rfl
  obtain ⟨s', h1, -⟩ := number_ok (s := St.init []) rfl h
  exact anyNumber_nil (s := St.init []) rfl h1

/-- How a number may begin. -/
theorem NumberAt.head {u r : Text} {n : Number} (h : NumberAt u n r) : ∃ c v, u = c :: v ∧ (c ∈ floatAlphabet ∨ c = 'i' ∨ c = 'N' ∨ c = 'b') := by
  have fl : ∀ {n r}, AnyFloat u n r → ∃ c v, u = c :: v ∧ (c ∈ floatAlphabet ∨ c = 'i' ∨ c = 'N' ∨ c = 'b') := by
    intro n r h
    have run : ∀ {t r : Text}, FloatSplit u t r → t ≠ [] → ∃ c v, u = c :: v ∧ (c ∈ floatAlphabet ∨ c = 'i' ∨ c = 'N' ∨ c = 'b') := by
      intro t r hsp hne
      cases t with
      | nil => exact absurd rfl hne
      | cons c t => exact ⟨c, _, hsp.text, .inl (hsp.chars c (by simp))⟩
    cases h with
    | word hw =>
      obtain ⟨hw, e, -⟩ := hw
      cases hw <;> exact ⟨_, _, e, by decide⟩
    | plain hsp hne => exact run hsp hne
    | suffix hsp hne => exact run hsp hne
  have int : ∀ {sg b body after}, NumSplit u sg b body after → ValidBody b.base body → ∃ c v, u = c :: v ∧ (c ∈ floatAlphabet ∨ c = 'i' ∨ c = 'N' ∨ c = 'b') := by
    intro sg b body after hsp hv
    have e := hsp.text
    cases sg with
    | plus => exact ⟨_, _, e, by decide⟩
    | minus => exact ⟨_, _, e, by decide⟩
    | none =>
      cases b with
      | bin => exact ⟨_, _, e, by decide⟩
      | oct => exact ⟨_, _, e, by decide⟩
      | hex => exact ⟨_, _, e, by decide⟩
      | dec =>
        cases body with
        | nil => exact absurd rfl hv.1
        | cons c body =>
          refine ⟨c, _, e, .inl ?_⟩
          obtain ⟨c', b', hb', hd⟩ := ValidBody.dec_head hv
          cases hb'
          exact (floatAlphabet_iff c).mp (by simp [isFloatChar, hd])
  cases h with
  | byte e hb =>
    obtain ⟨w, rfl⟩ := hb.form
    exact ⟨_, _, e, by decide⟩
  | float _ h => exact fl h
  | int _ h =>
    cases h with
    | plain hsp _ hv => exact int hsp hv
    | suffix hsp _ hv => exact int hsp hv
  | other _ _ h => exact fl h

theorem NumberAt.noEq {u r : Text} {n : Number} (h : NumberAt u n r) (v : Text) : u ≠ '=' :: v := by
  obtain ⟨c, w, e, hc⟩ := h.head
  rw [e]
  rintro e'
  injection e' with e'
  subst e'
  revert hc
  decide

/-- A number does not begin with `..`. -/
theorem NumberAt.noDots {u r : Text} {n : Number} (h : NumberAt u n r) (v : Text) : u ≠ '.' :: '.' :: v := by
  rintro rfl
  have hf : ¬ FloatLike ('.' :: '.' :: v) := by
    rw [floatLike_iff]
    show ¬ decide (floatLen ('.' :: '.' :: v) > whileLen isIntChar ('.' :: '.' :: v)) = true
    rw [floatLen_dots]
    simp
  have fl : ∀ {n r}, ¬ AnyFloat ('.' :: '.' :: v) n r := by
    intro n r h
    have run : ∀ {t r : Text}, FloatSplit ('.' :: '.' :: v) t r → t = [] := by
      intro t r hsp
      have := floatLen_of_run hsp.chars hsp.noDots hsp.follow
      rw [← hsp.text, floatLen_dots] at this
      exact List.length_eq_zero_iff.mp this.symm
    cases h with
    | word hw =>
      obtain ⟨hw, e, -⟩ := hw
      cases hw <;> simp at e
    | plain hsp hne => exact hne (run hsp)
    | suffix hsp hne => exact hne (run hsp)
  cases h with
  | byte e hb => obtain ⟨w, rfl⟩ := hb.form; simp at e
  | float h => exact hf h
  | other _ _ h => exact fl h
  | int _ h =>
    have int : ∀ {sg b body after}, NumSplit ('.' :: '.' :: v) sg b body after → ValidBody b.base body → False := by
      intro sg b body after hsp hv
      have e := hsp.text
      cases sg with
      | plus => simp [LitSign.text] at e
      | minus => simp [LitSign.text] at e
      | none =>
        cases b with
        | bin => simp [LitSign.text, LitBase.pre] at e
        | oct => simp [LitSign.text, LitBase.pre] at e
        | hex => simp [LitSign.text, LitBase.pre] at e
        | dec =>
          obtain ⟨c', b', rfl, hd⟩ := ValidBody.dec_head hv
          simp [LitSign.text, LitBase.pre] at e
          rw [← e.1] at hd
          revert hd; decide
    cases h with
    | plain hsp _ hv => exact int hsp hv
    | suffix hsp _ hv => exact int hsp hv

/-- The rest of a number or range. -/
theorem rangeTail_iff {s : St} {a : Number} {v : Value} : (∃ s', floatRangeOrValue a s = .ok v s' ∧ s'.rest = []) ↔
    (s.rest = [] ∧ v = .num a) ∨ (s.rest = c!".." ∧ v = .map (mapOfList [(.str c!"start", .num a)])) ∨
    (∃ q b, s.rest = c!".." ++ q ∧ (DigitHead q ∨ ByteHead q) ∧ NumberAt q b [] ∧
      v = .map (mapOfList [(.str c!"start", .num a), (.str c!"end", .num b)])) ∨
    ∃ q b, s.rest = c!"..=" ++ q ∧ NumberAt q b [] ∧ v = .map (mapOfList [(.str c!"start", .num a), (.str c!"end", .num b)]) := by
  constructor
  · rintro ⟨s', h, he⟩
    unfold floatRangeOrValue at h
    rw [bind_apply] at h
    by_cases h1 : startsWith s.rest c!"..=" = true
    · obtain ⟨q, hq⟩ := (startsWith_iff _ _).mp h1
      rw [consumeStr_true h1] at h
      simp only [↓reduceIte] at h
      replace h := bind_ok h; obtain ⟨b, s1, g1, h⟩ := h
      cases h
      refine .inr (.inr (.inr ⟨q, b, hq, ?_, rfl⟩))
      have := number_iff.mp ⟨_, g1, he⟩
      simp only [hq] at this
      exact this
    · rw [consumeStr_false (by simpa using h1)] at h
      simp only [Bool.false_eq_true, ↓reduceIte] at h
      rw [bind_apply] at h
      by_cases h2 : startsWith s.rest c!".." = true
      · obtain ⟨q, hq⟩ := (startsWith_iff _ _).mp h2
        rw [consumeStr_true h2] at h
        simp only [↓reduceIte, hq] at h
        rw [getSt_bind] at h
        simp only [show List.drop [('.' : Char), '.'].length ([('.' : Char), '.'] ++ q) = q from rfl] at h
        cases q with
        | nil => cases h; exact .inr (.inl ⟨hq, rfl⟩)
        | cons c q =>
          cases hst : isNumberStart (c :: q) c with
          | false =>
            simp only [hst, Bool.not_false, ↓reduceIte] at h
            cases h; cases he
          | true =>
            simp only [hst, Bool.not_true, Bool.false_eq_true, ↓reduceIte] at h
            replace h := bind_ok h; obtain ⟨b, s1, g1, h⟩ := h
            cases h
            refine .inr (.inr (.inl ⟨c :: q, b, hq, ?_, number_iff.mp ⟨_, g1, he⟩, rfl⟩))
            rcases start_digitHead hst with h | ⟨-, h⟩
            · exact .inl ⟨c, q, rfl, h⟩
            · exact .inr ((startsWith_iff _ _).mp h)
      · rw [consumeStr_false (by simpa using h2)] at h
        simp only [Bool.false_eq_true, ↓reduceIte] at h
        cases h
        exact .inl ⟨he, rfl⟩
  · rintro (⟨h, rfl⟩ | ⟨h, rfl⟩ | ⟨q, b, h, hd, hn, rfl⟩ | ⟨q, b, h, hn, rfl⟩) <;> unfold floatRangeOrValue <;> simp only [bind_apply]
    · rw [consumeStr_false (by rw [h]; rfl)]
      simp only [Bool.false_eq_true, ↓reduceIte, bind_apply]
      rw [consumeStr_false (by rw [h]; rfl)]
      exact ⟨s, rfl, h⟩
    · rw [consumeStr_false (by rw [h]; rfl)]
      simp only [Bool.false_eq_true, ↓reduceIte, bind_apply]
      rw [consumeStr_true (by rw [h]; rfl)]
      simp only [↓reduceIte, h, bind_apply, getSt_apply]
      exact ⟨_, rfl, rfl⟩
    · obtain ⟨c, q, rfl⟩ : ∃ c q', q = c :: q' := by
        cases q with
        | nil => exact absurd rfl hn.ne_nil
        | cons c q => exact ⟨c, q, rfl⟩
      have hc : c ≠ '=' := by rintro rfl; exact hn.noEq q rfl
      rw [consumeStr_false (by rw [h]; simp [startsWith, List.isPrefixOf, Ne.symm hc])]
      simp only [Bool.false_eq_true, ↓reduceIte, bind_apply]
      rw [consumeStr_true (by rw [h]; rfl)]
      simp only [↓reduceIte, h, bind_apply, getSt_apply, show List.drop [('.' : Char), '.'].length ([('.' : Char), '.'] ++ c :: q) = c :: q from rfl]
      have hst : isNumberStart (c :: q) c = true := by
        rcases hd with ⟨c', q', e, hc'⟩ | ⟨q', e⟩
        · cases e; exact digitHead_start hc'
        · cases e; rfl
      simp only [hst, Bool.not_true, Bool.false_eq_true, ↓reduceIte, bind_apply]
      obtain ⟨s', g1, g2, -⟩ := number_ok (s := { s with prev := [('.' : Char), '.'] ++ c :: q, rest := c :: q }) rfl hn
      simp only [g1]
      exact ⟨s', rfl, g2⟩
    · rw [consumeStr_true (by rw [h]; exact startsWith_append _ _)]
      simp only [↓reduceIte, h, bind_apply]
      obtain ⟨s', g1, g2, -⟩ := number_ok (s := { s with prev := [('.' : Char), '.', '='] ++ q, rest := q }) rfl hn
      rw [show List.drop [('.' : Char), '.', '='].length ([('.' : Char), '.', '='] ++ q) = q from rfl, g1]
      exact ⟨s', rfl, g2⟩

theorem numText_iff {s : St} {v : Value} : (∃ s', numeric s = .ok v s' ∧ s'.rest = []) ↔ NumText s.rest v := by
  have dots : ∀ {u r : Text} {n : Number}, NumberAt u n r → startsWith u c!"..=" = false ∧ startsWith u c!".." = false := by
    intro u r n h
    have : startsWith u c!".." = false := by
      rw [Bool.eq_false_iff]
      intro h'
      obtain ⟨q, hq⟩ := (startsWith_iff _ _).mp h'
      exact h.noDots q hq
    refine ⟨?_, this⟩
    rw [Bool.eq_false_iff]
    intro h'
    obtain ⟨q, hq⟩ := (startsWith_iff _ _).mp h'
    exact h.noDots ('=' :: q) hq
  have first : ∀ {n r}, NumberAt s.rest n r → ∃ s1, s1.rest = r ∧ numeric s = floatRangeOrValue n s1 := by
    intro n r h
    obtain ⟨s1, g1, g2, -⟩ := number_ok (s := s) rfl h
    refine ⟨s1, g2, ?_⟩
    unfold numeric
    simp only [bind_apply, getSt_apply, consumeStr_false (dots h).1, consumeStr_false (dots h).2, Bool.false_eq_true, ↓reduceIte, g1]
  constructor
  · rintro ⟨s', h, he⟩
    unfold numeric at h
    rw [getSt_bind, bind_apply] at h
    by_cases h1 : startsWith s.rest c!"..=" = true
    · obtain ⟨q, hq⟩ := (startsWith_iff _ _).mp h1
      rw [consumeStr_true h1] at h
      simp only [↓reduceIte] at h
      replace h := bind_ok h; obtain ⟨b, s1, g1, h⟩ := h
      cases h
      have := number_iff.mp ⟨_, g1, he⟩
      simp only [hq] at this
      rw [hq]
      exact .last this
    · rw [consumeStr_false (by simpa using h1)] at h
      simp only [Bool.false_eq_true, ↓reduceIte] at h
      rw [bind_apply] at h
      by_cases h2 : startsWith s.rest c!".." = true
      · obtain ⟨q, hq⟩ := (startsWith_iff _ _).mp h2
        rw [consumeStr_true h2] at h
        simp only [↓reduceIte, hq, show List.drop [('.' : Char), '.'].length ([('.' : Char), '.'] ++ q) = q from rfl,
          show List.drop 2 ([('.' : Char), '.'] ++ q) = q from rfl] at h
        rw [hq]
        cases q with
        | nil => cases h; exact .full
        | cons c q =>
          cases hst : isNumberStart (c!".." ++ c :: q) c with
          | false =>
            simp only [hst, Bool.false_eq_true, ↓reduceIte] at h
            cases h; cases he
          | true =>
            simp only [hst, ↓reduceIte] at h
            replace h := bind_ok h; obtain ⟨b, s1, g1, h⟩ := h
            cases h
            refine .stop ?_ (number_iff.mp ⟨_, g1, he⟩)
            rcases start_digitHead hst with h | ⟨-, h⟩
            · exact ⟨c, q, rfl, h⟩
            · cases h
      · rw [consumeStr_false (by simpa using h2)] at h
        simp only [Bool.false_eq_true, ↓reduceIte] at h
        replace h := bind_ok h; obtain ⟨a, s1, g1, h⟩ := h
        have hn := number_iff.mp ⟨_, g1, rfl⟩
        rcases rangeTail_iff.mp ⟨_, h, he⟩ with ⟨e, rfl⟩ | ⟨e, rfl⟩ | ⟨q, b, e, hd, hb, rfl⟩ | ⟨q, b, e, hb, rfl⟩ <;> rw [e] at hn
        · exact .number hn
        · exact .start hn
        · exact .startEnd hn hd hb
        · exact .startLast hn hb
  · intro h
    generalize hu : s.rest = u at h
    cases h with
    | number h =>
      obtain ⟨s1, e, g⟩ := first (hu ▸ h)
      rw [g]; exact rangeTail_iff.mpr (.inl ⟨e, rfl⟩)
    | start h =>
      obtain ⟨s1, e, g⟩ := first (hu ▸ h)
      rw [g]; exact rangeTail_iff.mpr (.inr (.inl ⟨e, rfl⟩))
    | startEnd h hd hb =>
      obtain ⟨s1, e, g⟩ := first (hu ▸ h)
      rw [g]; exact rangeTail_iff.mpr (.inr (.inr (.inl ⟨_, _, e, hd, hb, rfl⟩)))
    | startLast h hb =>
      obtain ⟨s1, e, g⟩ := first (hu ▸ h)
      rw [g]; exact rangeTail_iff.mpr (.inr (.inr (.inr ⟨_, _, e, hb, rfl⟩)))
    | @stop q b hd hn =>
      unfold numeric
      obtain ⟨c, q, rfl, hc⟩ := hd
      have hc' : c ≠ '=' := by rintro rfl; exact hn.noEq q rfl
      simp only [bind_apply, getSt_apply]
      rw [consumeStr_false (by rw [hu]; simp [startsWith, List.isPrefixOf, Ne.symm hc'])]
      simp only [Bool.false_eq_true, ↓reduceIte, bind_apply]
      rw [consumeStr_true (by rw [hu]; rfl)]
      simp only [↓reduceIte, hu, show List.drop [('.' : Char), '.'].length ([('.' : Char), '.'] ++ c :: q) = c :: q from rfl,
        show List.drop 2 ([('.' : Char), '.'] ++ c :: q) = c :: q from rfl, digitHead_start hc, bind_apply]
      obtain ⟨s', g1, g2, -⟩ := number_ok (s := { s with prev := [('.' : Char), '.'] ++ c :: q, rest := c :: q }) rfl hn
      simp only [g1]
      exact ⟨s', rfl, g2⟩
    | @last q b hn =>
      unfold numeric
      simp only [bind_apply, getSt_apply]
      rw [consumeStr_true (by rw [hu]; exact startsWith_append _ _)]
      simp only [↓reduceIte, hu, bind_apply]
      obtain ⟨s', g1, g2, -⟩ := number_ok (s := { s with prev := [('.' : Char), '.', '='] ++ q, rest := q }) rfl hn
      rw [show List.drop [('.' : Char), '.', '='].length ([('.' : Char), '.', '='] ++ q) = q from rfl, g1]
      exact ⟨s', rfl, g2⟩
    | full =>
      unfold numeric
      simp only [bind_apply, getSt_apply]
      rw [consumeStr_false (by rw [hu]; rfl)]
      simp only [Bool.false_eq_true, ↓reduceIte, bind_apply]
      rw [consumeStr_true (by rw [hu]; rfl)]
      simp only [↓reduceIte, hu]
      exact ⟨_, rfl, rfl⟩

/-- Reading the text alone. -/
theorem numText_read {w : Text} {v : Value} (h : NumHead w) : NumText w v ↔ ∃ s, deValue (St.init w) = .ok v s ∧ s.rest = [] := by
  rw [deValue_numeric h]
  exact (numText_iff (s := St.init w)).symm

end Ron
