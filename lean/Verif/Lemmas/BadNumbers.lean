import Verif.Spec.BadNumbers
import Verif.Lemmas.BadStrings
/-! # Lemmas about malformed integers -/

namespace Ron

theorem runValue_accum (sg : LitSign) (base : Nat) (t : Text) :
    accum (decide (sg = .minus)) base 0 (litDigits t) = runValue sg base t := by
  rw [accum_zero]; unfold runValue; cases sg <;> simp [LitSign.apply]

theorem accum_append (neg : Bool) (base : Nat) (ds es : List Nat) : ∀ acc, accum neg base acc (ds ++ es) = accum neg base (accum neg base acc ds) es := by
  induction ds with
  | nil => intro acc; simp [accum_nil]
  | cons d ds ih => intro acc; simp only [List.cons_append, accum_cons, ih]

/-- Digits of the base, then anything. -/
theorem intDigits_prefix (t : IntTy) (neg : Bool) (base whole : Nat) (hb : 1 ≤ base) (cs p : Text) :
    ∀ (i : Nat) (acc : Int) (s : St), whole ≤ s.rest.length → AllDigits base p →
    (if neg then acc ≤ 0 else 0 ≤ acc) → t.InRange acc →
    intDigits t neg base whole (p ++ cs) i acc s =
      if t.InRange (accum neg base acc (litDigits p)) then
        intDigits t neg base whole cs (i + p.length) (accum neg base acc (litDigits p)) s
      else .err .integerOutOfBounds { s with prev := s.rest, rest := s.rest.drop whole } := by
  induction p with
  | nil =>
    intro i acc s hw _ _ hr
    rw [show litDigits [] = [] from rfl, accum_nil, if_pos hr]
    rfl
  | cons c p ih =>
    intro i acc s hw hcs hacc hr
    have hcs' : AllDigits base p := fun x hx => hcs x (by simp [hx])
    have hi : i + (c :: p).length = (i + 1) + p.length := by simp; omega
    rw [hi, List.cons_append]
    rcases hcs c (by simp) with rfl | ⟨d, hd, hdb⟩
    · rw [intDigits, if_pos (by simp), litDigits_cons_us]
      exact ih (i + 1) acc s hw hcs' hacc hr
    · have hc : (c == '_') = false := by
        rw [beq_eq_false_iff_ne]; rintro rfl; rw [hexVal_underscore] at hd; cases hd
      rw [litDigits_cons p hd, accum_cons]
      conv => lhs; rw [intDigits]
      simp only [hc, Bool.false_eq_true, ↓reduceIte, ite_P, bind_apply, advance_ok hw, fail_apply, decodeHexP,
        decodeHex_eq, hd, pure_apply, ge_iff_le, Nat.not_le.mpr hdb]
      have hbase : (1 : Int) ≤ (base : Int) := by exact_mod_cast hb
      have hmul : if neg then acc * base ≤ 0 else 0 ≤ acc * base := by
        cases neg
        · simp only [Bool.false_eq_true, ↓reduceIte] at *; exact Int.mul_nonneg hacc (by omega)
        · simp only [↓reduceIte] at *
          have : acc * base ≤ acc * 1 := Int.mul_le_mul_of_nonpos_left hacc hbase
          omega
      have hd0 : (0 : Int) ≤ d := Int.natCast_nonneg d
      generalize hm : acc * (base : Int) = m at *
      generalize ha : (if neg = true then m - (d : Int) else m + d) = a
      have hacc' : if neg then a ≤ 0 else 0 ≤ a := by subst ha; cases neg <;> simp at * <;> omega
      have hmono := accum_mono neg base hb a hacc' (litDigits p)
      have h0 := t.zero_inRange
      unfold IntTy.InRange at h0
      by_cases h1 : t.InRange m
      · rw [if_neg (by simpa using h1)]
        by_cases h2 : t.InRange a
        · rw [if_neg (by simpa using h2)]
          exact ih (i + 1) a s hw hcs' hacc' h2
        · rw [if_pos h2, if_neg]
          intro h3
          apply h2
          unfold IntTy.InRange at *
          cases neg <;> simp at * <;> omega
      · rw [if_pos h1, if_neg]
        intro h3
        apply h1
        unfold IntTy.InRange at *
        subst ha
        cases neg <;> simp at * <;> omega

theorem accum_sign (neg : Bool) (base : Nat) (hb : 1 ≤ base) (ds : List Nat) : if neg then accum neg base 0 ds ≤ 0 else 0 ≤ accum neg base 0 ds :=
  accum_mono neg base hb 0 (by cases neg <;> simp) ds

theorem IntTy.InRange.of_mul {t : IntTy} {neg : Bool} {v : Int} {base : Nat} (hb : 1 ≤ base) (hv : if neg then v ≤ 0 else 0 ≤ v)
    (h : t.InRange (v * base)) : t.InRange v := by
  have hbase : (1 : Int) ≤ (base : Int) := by exact_mod_cast hb
  have h0 := t.zero_inRange
  cases neg
  · simp only [Bool.false_eq_true, ↓reduceIte] at hv
    have : v * 1 ≤ v * base := Int.mul_le_mul_of_nonneg_left hbase hv
    unfold IntTy.InRange at *; omega
  · simp only [↓reduceIte] at hv
    have : v * base ≤ v * 1 := Int.mul_le_mul_of_nonpos_left hv hbase
    unfold IntTy.InRange at *; omega

theorem intDigits_bad {t : IntTy} {sg : LitSign} {base : Nat} {body after l : Text} {e : Err} {s : St} (hb : 1 ≤ base)
    (hs : s.rest = body ++ after) (hne : body ≠ []) (hnu : body.head? ≠ some '_') (h : BadDigits t sg base body e l) :
    intDigits t (decide (sg = .minus)) base body.length body 0 0 s = .err e { s with prev := s.rest, rest := l ++ after } := by
  have hw : body.length ≤ s.rest.length := by rw [hs]; simp
  have hd : s.rest.drop body.length = after := by rw [hs, List.drop_left]
  generalize hN : body.length = N at *
  cases h with
  | none h => exact absurd h hne
  | underscore h => exact absurd h hnu
  | @digit p q c d hE hp ha hc hd' hin =>
    subst hE
    rw [intDigits_prefix t _ base _ hb _ p 0 0 s hw ha (by cases sg <;> simp) t.zero_inRange]
    simp only [runValue_accum] at *
    have hsg := accum_sign (decide (sg = .minus)) base hb (litDigits p)
    rw [runValue_accum] at hsg
    rw [if_pos (hin.of_mul hb hsg)]
    have hcu : (c == '_') = false := by
      rw [beq_eq_false_iff_ne]; rintro rfl; rw [hexVal_underscore] at hc; cases hc
    have hpl : 0 + p.length ≤ s.rest.length := by rw [hs]; simp
    rw [intDigits]
    simp only [hcu, Bool.false_eq_true, ↓reduceIte, bind_apply, hin, not_true_eq_false, decodeHexP, decodeHex_eq, hc, pure_apply,
      ge_iff_le, hd', advance_ok hpl, fail_apply]
    rw [hs]; simp
  | @large p q c hE hp ha hc hin =>
    subst hE
    rw [intDigits_prefix t _ base _ hb _ p 0 0 s hw ha (by cases sg <;> simp) t.zero_inRange]
    simp only [runValue_accum]
    split
    · rw [intDigits]
      simp only [beq_eq_false_iff_ne.mpr hc, Bool.false_eq_true, ↓reduceIte, bind_apply, hin, not_false_eq_true, advance_ok hw, fail_apply, hd]
      rfl
    · rw [hd]; rfl
  | @larger p q c d hE hp ha hc hd' hin =>
    subst hE
    have hcu : c ≠ '_' := by
      rintro rfl; rw [hexVal_underscore] at hc; cases hc
    have e1 : p ++ c :: q = (p ++ [c]) ++ q := by simp
    rw [e1, intDigits_prefix t _ base _ hb _ (p ++ [c]) 0 0 s hw ?_ (by cases sg <;> simp) t.zero_inRange]
    · simp only [runValue_accum, hin, ↓reduceIte, hd]; rfl
    · intro x hx
      simp only [List.mem_append, List.mem_singleton] at hx
      rcases hx with hx | rfl
      · exact ha x hx
      · exact .inr ⟨d, hc, hd'⟩

theorem run_intChar {body : Text} (h : ∀ c ∈ body, c = '_' ∨ ∃ d, hexVal c = some d) : ∀ c ∈ body, isIntChar c = true := by
  intro c hc
  rcases h c hc with rfl | ⟨d, hd⟩
  · decide
  · simp [isIntChar, hexVal_isHex.mpr ⟨d, hd⟩]

theorem stop_intChar {after : Text} (h : ∀ c r, after = c :: r → c ≠ '_' ∧ hexVal c = none) : ∀ c r, after = c :: r → isIntChar c = false :=
  fun c r e => isIntChar_spec.mpr (h c r e)

theorem run_whileLen {body after : Text} (h : ∀ c ∈ body, c = '_' ∨ ∃ d, hexVal c = some d)
    (h' : ∀ c r, after = c :: r → c ≠ '_' ∧ hexVal c = none) : whileLen isIntChar (body ++ after) = body.length := by
  rw [whileLen_append _ _ _ (run_intChar h), whileLen_stop _ _ (stop_intChar h')]; rfl

theorem parseInteger_bad {t : IntTy} {sg : LitSign} {base : Nat} {body after l : Text} {e : Err} {s : St} (hb : 1 ≤ base)
    (hs : s.rest = body ++ after) (hrun : ∀ c ∈ body, c = '_' ∨ ∃ d, hexVal c = some d)
    (hstop : ∀ c r, after = c :: r → c ≠ '_' ∧ hexVal c = none) (h : BadDigits t sg base body e l) :
    ∃ p, parseInteger t (decide (sg = .minus)) base s = .err e { s with prev := p, rest := l ++ after } := by
  have hn : whileLen isIntChar s.rest = body.length := by rw [hs, run_whileLen hrun hstop]
  unfold parseInteger
  simp only [bind_apply, getSt_apply, hn, ite_P, fail_apply]
  by_cases hne : body = []
  · subst hne
    simp only [List.nil_append] at hs
    cases h with
    | none => exact ⟨s.prev, by simp [← hs]⟩
    | underscore h => simp at h
    | digit h => simp at h
    | large h => simp at h
    | larger h => simp at h
  · have hl : (body.length == 0) = false := by
      cases body with
      | nil => exact absurd rfl hne
      | cons c b => simp
    simp only [hl, Bool.false_eq_true, ↓reduceIte]
    by_cases hu : body.head? = some '_'
    · have hsw : startsWith s.rest ['_'] = true := by
        cases body with
        | nil => exact absurd rfl hne
        | cons c b =>
          rw [hs]
          simp only [List.head?_cons, Option.some.injEq] at hu
          simp [startsWith, hu]
      simp only [hsw, ↓reduceIte]
      cases h with
      | none h => exact absurd h hne
      | underscore h => exact ⟨s.prev, by simp [← hs]⟩
      | digit _ h => exact absurd hu h
      | large _ h => exact absurd hu h
      | larger _ h => exact absurd hu h
    · have hsw : startsWith s.rest ['_'] = false := by
        cases body with
        | nil => exact absurd rfl hne
        | cons c b =>
          rw [hs]
          simp only [List.head?_cons, Option.some.injEq] at hu
          simp [startsWith, List.isPrefixOf, Ne.symm hu]
      simp only [hsw, Bool.false_eq_true, ↓reduceIte]
      refine ⟨s.rest, ?_⟩
      rw [show List.take body.length s.rest = body by rw [hs, List.take_left]]
      exact intDigits_bad hb hs hne hu h

theorem runValue_us (sg : LitSign) (base : Nat) (p : Text) : runValue sg base (p ++ ['_']) = runValue sg base p := by
  unfold runValue; simp [litDigits]

/-- A run of digits is a number of the type or is bad. -/
theorem digits_total (t : IntTy) (sg : LitSign) (base : Nat) {body : Text} (hrun : ∀ c ∈ body, c = '_' ∨ ∃ d, hexVal c = some d) :
    (ValidBody base body ∧ t.InRange (runValue sg base body)) ∨ ∃ e l, BadDigits t sg base body e l := by
  by_cases hne : body = []
  · exact .inr ⟨_, _, .none hne⟩
  by_cases hu : body.head? = some '_'
  · exact .inr ⟨_, _, .underscore hu⟩
  have key : ∀ q p, body = p ++ q → AllDigits base p → t.InRange (runValue sg base p) →
      (ValidBody base body ∧ t.InRange (runValue sg base body)) ∨ ∃ e l, BadDigits t sg base body e l := by
    intro q
    induction q with
    | nil =>
      intro p hp ha hin
      simp only [List.append_nil] at hp
      subst hp
      exact .inl ⟨⟨hne, hu, ha⟩, hin⟩
    | cons c q ih =>
      intro p hp ha hin
      rcases hrun c (by rw [hp]; simp) with rfl | ⟨d, hd⟩
      · refine ih (p ++ ['_']) (by simp [hp]) ?_ (by rw [runValue_us]; exact hin)
        intro x hx
        simp only [List.mem_append, List.mem_singleton] at hx
        rcases hx with hx | rfl
        · exact ha x hx
        · exact .inl rfl
      · have hcu : c ≠ '_' := by rintro rfl; rw [hexVal_underscore] at hd; cases hd
        by_cases h1 : t.InRange (runValue sg base p * base)
        · by_cases h2 : base ≤ d
          · exact .inr ⟨_, _, .digit hp hu ha hd h2 h1⟩
          · by_cases h3 : t.InRange (runValue sg base (p ++ [c]))
            · refine ih (p ++ [c]) (by simp [hp]) ?_ h3
              intro x hx
              simp only [List.mem_append, List.mem_singleton] at hx
              rcases hx with hx | rfl
              · exact ha x hx
              · exact .inr ⟨d, hd, by omega⟩
            · exact .inr ⟨_, _, .larger hp hu ha hd (by omega) h3⟩
        · exact .inr ⟨_, _, .large hp hu ha hcu h1⟩
  refine key body [] rfl (by intro x hx; cases hx) ?_
  have : runValue sg base [] = 0 := by unfold runValue; cases sg <;> simp [litDigits, posValue, LitSign.apply]
  rw [this]; exact t.zero_inRange

variable [Env]

omit [Env] in
theorem basePrefix_split {b : LitBase} {v : Text} {s : St} (hs : s.rest = b.pre ++ v)
    (hd : b = .dec → ∀ (b' : LitBase) (r : Text), b'.pre ≠ [] → v ≠ b'.pre ++ r) :
    ∃ p, basePrefix s = .ok b.base { s with prev := p, rest := v } := by
  unfold basePrefix
  cases b with
  | bin =>
    refine ⟨s.rest, ?_⟩
    rw [bind_apply, consumeStr_true (by rw [hs]; simp [LitBase.pre]), hs]; rfl
  | oct =>
    refine ⟨s.rest, ?_⟩
    rw [bind_apply, consumeStr_false (by rw [hs]; simp [LitBase.pre])]
    simp only [Bool.false_eq_true, ↓reduceIte]
    rw [bind_apply, consumeStr_true (by rw [hs]; simp [LitBase.pre]), hs]; rfl
  | hex =>
    refine ⟨s.rest, ?_⟩
    rw [bind_apply, consumeStr_false (by rw [hs]; simp [LitBase.pre])]
    simp only [Bool.false_eq_true, ↓reduceIte]
    rw [bind_apply, consumeStr_false (by rw [hs]; simp [LitBase.pre])]
    simp only [Bool.false_eq_true, ↓reduceIte]
    rw [bind_apply, consumeStr_true (by rw [hs]; simp [LitBase.pre]), hs]; rfl
  | dec =>
    refine ⟨s.prev, ?_⟩
    have hs : s.rest = v := hs
    have key : ∀ b' : LitBase, b'.pre ≠ [] → startsWith s.rest b'.pre = false := by
      intro b' hb'
      rw [Bool.eq_false_iff]; intro h
      obtain ⟨r, hr⟩ := (startsWith_iff _ _).mp h
      exact hd rfl b' r hb' (hs.symm.trans hr)
    rw [bind_apply, consumeStr_false (by exact key .bin (by decide))]
    simp only [Bool.false_eq_true, ↓reduceIte]
    rw [bind_apply, consumeStr_false (by exact key .oct (by decide))]
    simp only [Bool.false_eq_true, ↓reduceIte]
    rw [bind_apply, consumeStr_false (by exact key .hex (by decide)), ← hs]; rfl

/-- No suffix: the digits are read at the target type. -/
theorem unsigned_plain {tg : IntTarget} {neg : Bool} {bk : Text} {b : LitBase} {body after : Text} {s : St} (hs : s.rest = b.pre ++ (body ++ after))
    (hd : b = .dec → ∀ (b' : LitBase) (r : Text), b'.pre ≠ [] → body ++ after ≠ b'.pre ++ r)
    (hrun : ∀ c ∈ body, c = '_' ∨ ∃ d, hexVal c = some d) (hstop : ∀ c r, after = c :: r → c ≠ '_' ∧ hexVal c = none)
    (hn : ∀ S r, ¬ SuffixAt after S r) :
    ∃ p, unsignedPart tg neg bk s = tg.parse neg b.base { s with prev := p, rest := body ++ after } := by
  obtain ⟨p, hp⟩ := basePrefix_split hs hd
  unfold unsignedPart
  simp only [bind_apply, hp, getSt_apply, run_whileLen hrun hstop, List.drop_left, ite_P]
  split
  · simp only [cursor_apply, advance_apply, List.length_append, Nat.le_add_right, ↓reduceIte, List.drop_left]
    generalize hs2 : ({ s with prev := body ++ after, rest := after } : St) = s2
    rcases consumeSuffix_cases suffixOrder s2 with ⟨t', q, hm, hq, hnq, hcs⟩ | hcs
    · exact absurd ⟨mem_suffixOrder.mp hm, by rw [← hq, ← hs2], hnq⟩ (hn t' q)
    · rw [hcs]
      simp only [bind_apply, setCursor_apply]
      exact ⟨_, by rw [← hs2]⟩
  · exact ⟨p, rfl⟩

/-- A suffix: what becomes of bad digits. -/
theorem unsigned_suffix {tg : IntTarget} {sg : LitSign} {bk : Text} {b : LitBase} {body after r l : Text} {S : IntTy} {e : Err} {s : St}
    (hs : s.rest = b.pre ++ (body ++ after))
    (hd : b = .dec → ∀ (b' : LitBase) (r : Text), b'.pre ≠ [] → body ++ after ≠ b'.pre ++ r)
    (hrun : ∀ c ∈ body, c = '_' ∨ ∃ d, hexVal c = some d) (hstop : ∀ c r, after = c :: r → c ≠ '_' ∧ hexVal c = none)
    (hS : SuffixAt after S r) (hb : BadDigits S sg b.base body e l) :
    Errs (unsignedPart tg (decide (sg = .minus)) bk) s e (if e = .expectedInteger ∨ e = .integerOutOfBounds then r else l ++ after) := by
  obtain ⟨ha, rfl, hr⟩ := hS
  obtain ⟨p, hp⟩ := basePrefix_split hs hd
  unfold Errs unsignedPart
  have h1 : (startsWith (S.suffix ++ r) ['i'] || startsWith (S.suffix ++ r) ['u']) = true := by
    cases S <;> simp [IntTy.suffix]
  simp only [bind_apply, hp, getSt_apply, run_whileLen hrun hstop, List.drop_left, h1, cursor_apply, advance_apply, len_le_append, ↓reduceIte]
  rw [consumeSuffix_some rfl hr suffixOrder (mem_suffixOrder.mpr ha)]
  simp only [bind_apply, getSt_apply, setCursor_apply, attempt_apply]
  obtain ⟨p', hp'⟩ := parseInteger_bad b.one_le (s := { s with prev := S.suffix ++ r, rest := body ++ (S.suffix ++ r) }) rfl hrun hstop hb
  rw [hp']
  cases hb with
  | none h =>
    simp only [bind_apply, List.nil_append]
    rw [skipIdentifier_suffix rfl hr]
    exact ⟨_, rfl, by simp, ⟨⟨rfl, rfl, rfl, rfl, rfl⟩, rfl, rfl⟩⟩
  | underscore h => exact ⟨_, rfl, by simp, ⟨⟨rfl, rfl, rfl, rfl, rfl⟩, rfl, rfl⟩⟩
  | digit h => exact ⟨_, rfl, by simp, ⟨⟨rfl, rfl, rfl, rfl, rfl⟩, rfl, rfl⟩⟩
  | large h =>
    simp only [bind_apply, List.nil_append]
    rw [skipIdentifier_suffix rfl hr]
    exact ⟨_, rfl, by simp, ⟨⟨rfl, rfl, rfl, rfl, rfl⟩, rfl, rfl⟩⟩
  | larger h =>
    simp only [bind_apply, List.nil_append]
    rw [skipIdentifier_suffix rfl hr]
    exact ⟨_, rfl, by simp, ⟨⟨rfl, rfl, rfl, rfl, rfl⟩, rfl, rfl⟩⟩

omit [Env] in
theorem intExpected_called (t : IntTy) : intExpected t = t.called := by cases t <;> decide

/-- After the sign. -/
theorem integer_split {tg : IntTarget} {u body after : Text} {sg : LitSign} {b : LitBase} {s : St} (hs : s.rest = u)
    (h : NumSplit u sg b body after) (hnb : ∀ r, u ≠ 'b' :: '\'' :: r) :
    ∃ p, integer tg s = unsignedPart tg (decide (sg = .minus)) u { s with prev := p, rest := b.pre ++ (body ++ after) } := by
  subst hs
  have ht := h.text
  have hu := h.unsigned
  generalize b.pre ++ (body ++ after) = w at *
  unfold integer
  cases hr : s.rest with
  | nil => exact absurd hr h.nonempty
  | cons c v =>
    rw [hr] at ht hu hnb
    have hpk : peekCharOrEof s = .ok c s := by simp [peekCharOrEof, hr]
    simp only [bind_apply, getSt_apply, hpk, ite_P, skipNextChar_apply, hr, List.drop_one, List.tail_cons]
    cases sg with
    | plus =>
      injection ht with h1 h2
      subst h1; subst h2
      exact ⟨s.prev, by simp⟩
    | minus =>
      injection ht with h1 h2
      subst h1; subst h2
      exact ⟨s.prev, by simp⟩
    | none =>
      obtain ⟨h1, h2⟩ := hu rfl
      simp only [List.head?_cons, ne_eq, Option.some.injEq] at h1 h2
      have hc : (if (c == 'b') = true then consumeStr c!"b'" s else (pure false : P Bool) s) = .ok false s := by
        split
        · refine consumeStr_false ?_
          rw [Bool.eq_false_iff]; intro h
          obtain ⟨r, hr'⟩ := (startsWith_iff _ _).mp h
          exact hnb r (hr.symm.trans hr')
        · rfl
      simp only [beq_iff_eq, h1, h2, ↓reduceIte]
      simp only [beq_iff_eq] at hc
      rw [hc]
      have : s.rest = w := hr.trans ht
      refine ⟨s.prev, ?_⟩
      rw [← this]
      simp

theorem integer_good {T : IntTy} {u r : Text} {v : Int} {s : St} (hs : s.rest = u) (hnb : ∀ r, u ≠ 'b' :: '\'' :: r) (h : GoodInt T u v r) :
    RunsW (integer (.one T)) s (T, v) r := by
  cases h with
  | @plain body _ sg b hsp hn hv hin =>
    obtain ⟨p, hp⟩ := integer_split (tg := .one T) hs hsp hnb
    obtain ⟨p', hp'⟩ := unsigned_plain (tg := .one T) (neg := decide (sg = .minus)) (bk := u) (s := { s with prev := p, rest := b.pre ++ (body ++ r) }) rfl
      hsp.decimal hsp.run hsp.stop hn
    rw [hp', IntTarget.parse_valid b.one_le rfl hv (stop_intChar hsp.stop), runValue_accum, if_pos (by exact hin)] at hp
    exact ⟨_, hp, rfl, ⟨⟨rfl, rfl, rfl, rfl, rfl⟩, rfl, rfl⟩⟩
  | @suffix body _ _ sg b hsp hS hv hin =>
    obtain ⟨ha, rfl, hr⟩ := hS
    obtain ⟨p, hp⟩ := integer_split (tg := .one T) hs hsp hnb
    obtain ⟨p', hp'⟩ := unsignedPart_lit (tg := .one T) (neg := decide (sg = .minus)) (backup := u) (sfx := some T)
      (s := { s with prev := p, rest := b.pre ++ (body ++ (T.suffix ++ r)) }) rfl hv hr (by intro t h; cases h; exact ha)
    rw [hp', runValue_accum, if_pos (by exact hin)] at hp
    simp only [IntTarget.tryFrom, ↓reduceIte] at hp
    exact ⟨_, hp, rfl, ⟨⟨rfl, rfl, rfl, rfl, rfl⟩, rfl, rfl⟩⟩

theorem integer_badInt {T : IntTy} {u r : Text} {e : Err} {s : St} (hs : s.rest = u) (hnb : ∀ r, u ≠ 'b' :: '\'' :: r) (h : BadInt T u e r) :
    Errs (integer (.one T)) s e r := by
  cases h with
  | eof => exact ⟨s, by simp [integer, peekCharOrEof, hs], hs, KeepsW.refl s⟩
  | @plain _ body after l sg b _ hsp hn hb =>
    obtain ⟨p, hp⟩ := integer_split (tg := .one T) hs hsp hnb
    obtain ⟨p', hp'⟩ := unsigned_plain (tg := .one T) (neg := decide (sg = .minus)) (bk := u) (s := { s with prev := p, rest := b.pre ++ (body ++ after) }) rfl
      hsp.decimal hsp.run hsp.stop hn
    obtain ⟨p2, hp2⟩ := parseInteger_bad b.one_le (s := { s with prev := p', rest := body ++ after }) rfl hsp.run hsp.stop hb
    refine ⟨{ s with prev := p2, rest := l ++ after }, ?_, rfl, ⟨⟨rfl, rfl, rfl, rfl, rfl⟩, rfl, rfl⟩⟩
    rw [hp, hp']
    simp only [IntTarget.parse, bind_apply, hp2]
  | @here _ body after l r sg b S _ hsp hS hb h1 h2 =>
    obtain ⟨p, hp⟩ := integer_split (tg := .one T) hs hsp hnb
    have := unsigned_suffix (tg := .one T) (bk := u) (s := { s with prev := p, rest := b.pre ++ (body ++ after) }) rfl hsp.decimal hsp.run hsp.stop hS hb
    simp only [h1, h2, or_self, ↓reduceIte] at this
    unfold Errs at *
    rw [hp]
    obtain ⟨s', a1, a2, a3⟩ := this
    exact ⟨s', a1, a2, (KeepsW.step s p _).trans a3⟩
  | @past _ body after l _ sg b S _ hsp hS hb h1 =>
    obtain ⟨p, hp⟩ := integer_split (tg := .one T) hs hsp hnb
    have := unsigned_suffix (tg := .one T) (bk := u) (s := { s with prev := p, rest := b.pre ++ (body ++ after) }) rfl hsp.decimal hsp.run hsp.stop hS hb
    simp only [h1, ↓reduceIte] at this
    unfold Errs at *
    rw [hp]
    obtain ⟨s', a1, a2, a3⟩ := this
    exact ⟨s', a1, a2, (KeepsW.step s p _).trans a3⟩
  | @other _ lit body after _ sg b S hsp hS hv hin hST hlit =>
    obtain ⟨ha, rfl, hr⟩ := hS
    obtain ⟨p, hp⟩ := integer_split (tg := .one T) hs hsp hnb
    obtain ⟨p', hp'⟩ := unsignedPart_lit (tg := .one T) (neg := decide (sg = .minus)) (backup := u) (sfx := some S)
      (s := { s with prev := p, rest := b.pre ++ (body ++ (S.suffix ++ r)) }) rfl hv hr (by intro t h; cases h; exact ha)
    rw [hp', runValue_accum, if_pos (by exact hin)] at hp
    have ht : List.take (u.length - r.length) u = lit := by rw [hlit]; simp
    simp only [IntTarget.tryFrom, hST, ↓reduceIte, ht, intExpected_called] at hp
    exact ⟨_, hp, rfl, ⟨⟨rfl, rfl, rfl, rfl, rfl⟩, rfl, rfl⟩⟩

omit [Env] in
/-- Every text can be divided. -/
theorem numSplit_total {u : Text} (hu : u ≠ []) : ∃ sg b body after, NumSplit u sg b body after := by
  have h1 : ∃ (sg : LitSign) (v : Text), u = sg.text ++ v ∧ (sg = .none → u.head? ≠ some '+' ∧ u.head? ≠ some '-') := by
    cases u with
    | nil => exact absurd rfl hu
    | cons c v =>
      by_cases h1 : c = '+'
      · exact ⟨.plus, v, by simp [LitSign.text, h1], by simp⟩
      · by_cases h2 : c = '-'
        · exact ⟨.minus, v, by simp [LitSign.text, h2], by simp⟩
        · exact ⟨.none, c :: v, rfl, by simp [h1, h2]⟩
  obtain ⟨sg, v, h1, h2⟩ := h1
  have h3 : ∃ (b : LitBase) (w : Text), v = b.pre ++ w ∧ (b = .dec → ∀ (b' : LitBase) (r : Text), b'.pre ≠ [] → w ≠ b'.pre ++ r) := by
    by_cases h : ∃ (b : LitBase) (w : Text), b.pre ≠ [] ∧ v = b.pre ++ w
    · obtain ⟨b, w, hb, e⟩ := h
      exact ⟨b, w, e, by rintro rfl; exact absurd rfl hb⟩
    · exact ⟨.dec, v, rfl, fun _ b' r hb' e => h ⟨b', r, hb', e⟩⟩
  obtain ⟨b, w, h3, h4⟩ := h3
  obtain ⟨body, after, hw, hbody, -, hstop⟩ := whileLen_split isIntChar w
  refine ⟨sg, b, body, after, hu, by rw [h1, h3, hw], h2, by rw [← hw]; exact h4, ?_, fun c r e => isIntChar_spec.mp (hstop c r e)⟩
  intro c hc
  by_cases h : c = '_'
  · exact .inl h
  · right
    have hi := hbody c hc
    cases hx : hexVal c with
    | none => rw [isIntChar_spec.mpr ⟨h, hx⟩] at hi; cases hi
    | some d => exact ⟨d, rfl⟩

theorem int_total (T : IntTy) (u : Text) : (∃ v r, GoodInt T u v r) ∨ ∃ e r, BadInt T u e r := by
  by_cases hu : u = []
  · subst hu; exact .inr ⟨_, _, .eof⟩
  obtain ⟨sg, b, body, after, hsp⟩ := numSplit_total hu
  by_cases hS : ∃ S r, SuffixAt after S r
  · obtain ⟨S, r, hS⟩ := hS
    rcases digits_total S sg b.base hsp.run with ⟨hv, hin⟩ | ⟨e, l, hb⟩
    · by_cases hST : S = T
      · subst hST
        exact .inl ⟨_, _, .suffix hsp hS hv hin⟩
      · refine .inr ⟨_, _, .other hsp hS hv hin hST (lit := sg.text ++ (b.pre ++ (body ++ S.suffix))) ?_⟩
        rw [hsp.text, hS.2.1]; simp
    · by_cases h : e = .expectedInteger ∨ e = .integerOutOfBounds
      · exact .inr ⟨_, _, .past hsp hS hb h⟩
      · exact .inr ⟨_, _, .here hsp hS hb (fun h' => h (.inl h')) (fun h' => h (.inr h'))⟩
  · have hS : ∀ S r, ¬ SuffixAt after S r := fun S r h => hS ⟨S, r, h⟩
    rcases digits_total T sg b.base hsp.run with ⟨hv, hin⟩ | ⟨e, l, hb⟩
    · exact .inl ⟨_, _, .plain hsp hS hv hin⟩
    · exact .inr ⟨_, _, .plain hsp hS hb⟩

end Ron
