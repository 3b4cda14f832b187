import Verif.Lemmas.Layout
import Verif.Spec.IntLit
/-! Lemmas about integer literals. -/

set_option linter.unusedSimpArgs false

namespace Ron

theorem char_le_iff (a b : Char) : a ≤ b ↔ a.toNat ≤ b.toNat := by
  rw [Char.le_def, UInt32.le_iff_toNat_le]; rfl

theorem decodeHex_eq (c : Char) : decodeHex c = hexVal c := by
  unfold decodeHex hexVal
  simp only [char_le_iff, Bool.and_eq_true, decide_eq_true_eq]
  have h0 : '0'.toNat = 48 := rfl
  have h1 : '9'.toNat = 57 := rfl
  have h2 : 'a'.toNat = 97 := rfl
  have h3 : 'f'.toNat = 102 := rfl
  have h4 : 'A'.toNat = 65 := rfl
  have h5 : 'F'.toNat = 70 := rfl
  simp only [h0, h1, h2, h3, h4, h5]
  split
  · rfl
  · split
    · congr 1; omega
    · split
      · congr 1; omega
      · rfl

theorem hexVal_isHex {c : Char} : isHexDigit c = true ↔ ∃ d, hexVal c = some d := by
  unfold isHexDigit hexVal
  simp only [Bool.or_eq_true, Bool.and_eq_true, decide_eq_true_eq]
  split
  · simp [*]
  · split
    · simp [*]
    · split
      · simp [*]
      · simp [*]

theorem hexVal_lt {c : Char} {d : Nat} (h : hexVal c = some d) : d < 16 := by
  unfold hexVal at h
  simp only [char_le_iff] at h
  have h0 : '0'.toNat = 48 := rfl
  have h1 : '9'.toNat = 57 := rfl
  have h2 : 'a'.toNat = 97 := rfl
  have h3 : 'f'.toNat = 102 := rfl
  have h4 : 'A'.toNat = 65 := rfl
  have h5 : 'F'.toNat = 70 := rfl
  simp only [h0, h1, h2, h3, h4, h5] at h
  split at h
  · cases h; omega
  · split at h
    · cases h; omega
    · split at h
      · cases h; omega
      · cases h

theorem hexVal_underscore : hexVal '_' = none := by decide

theorem litDigits_cons_us (t : Text) : litDigits ('_' :: t) = litDigits t := by simp [litDigits]

theorem litDigits_cons {c : Char} {d : Nat} (t : Text) (h : hexVal c = some d) :
    litDigits (c :: t) = d :: litDigits t := by
  have : c ≠ '_' := by rintro rfl; rw [hexVal_underscore] at h; cases h
  simp [litDigits, this, h]

/-- The exact result of accumulating digits, for both signs. -/
def accum (neg : Bool) (base : Nat) (acc : Int) (ds : List Nat) : Int :=
  acc * (base ^ ds.length : Nat) + (if neg then - (posValue base ds : Int) else posValue base ds)

theorem accum_nil (neg : Bool) (base : Nat) (acc : Int) : accum neg base acc [] = acc := by
  cases neg <;> simp [accum, posValue]

theorem accum_cons (neg : Bool) (base : Nat) (acc : Int) (d : Nat) (ds : List Nat) :
    accum neg base acc (d :: ds) = accum neg base (if neg then acc * base - d else acc * base + d) ds := by
  cases neg <;> simp [accum, posValue, Nat.pow_succ] <;> grind

theorem accum_mono (neg : Bool) (base : Nat) (hb : 1 ≤ base) (acc : Int) (hacc : if neg then acc ≤ 0 else 0 ≤ acc)
    (ds : List Nat) : if neg then accum neg base acc ds ≤ acc else acc ≤ accum neg base acc ds := by
  have hp : 1 ≤ (base ^ ds.length : Nat) := Nat.pos_of_ne_zero (by
    intro h; have := Nat.pow_eq_zero.mp h; omega)
  have hp' : (1 : Int) ≤ ((base ^ ds.length : Nat) : Int) := by exact_mod_cast hp
  unfold accum
  generalize ((base ^ ds.length : Nat) : Int) = p at *
  have hv : (0 : Int) ≤ (posValue base ds : Int) := Int.natCast_nonneg _
  generalize (posValue base ds : Int) = v at *
  cases neg
  · simp only [Bool.false_eq_true, ↓reduceIte] at *
    have : acc * 1 ≤ acc * p := Int.mul_le_mul_of_nonneg_left hp' hacc
    omega
  · simp only [↓reduceIte] at *
    have : acc * p ≤ acc * 1 := Int.mul_le_mul_of_nonpos_left hacc hp'
    omega

theorem IntTy.zero_inRange (t : IntTy) : t.InRange 0 := by cases t <;> decide

theorem intDigits_valid (t : IntTy) (neg : Bool) (base whole : Nat) (hb : 1 ≤ base) (cs : Text) :
    ∀ (i : Nat) (acc : Int) (s : St), whole ≤ s.rest.length → (∀ c ∈ cs, c = '_' ∨ ∃ d, hexVal c = some d ∧ d < base) →
    (if neg then acc ≤ 0 else 0 ≤ acc) → t.InRange acc →
    intDigits t neg base whole cs i acc s =
      if t.InRange (accum neg base acc (litDigits cs)) then
        .ok (accum neg base acc (litDigits cs)) { s with prev := s.rest, rest := s.rest.drop whole }
      else .err .integerOutOfBounds { s with prev := s.rest, rest := s.rest.drop whole } := by
  induction cs with
  | nil =>
    intro i acc s hw _ _ hr
    rw [show litDigits [] = [] from rfl, accum_nil, if_pos hr]
    rw [intDigits, bind_apply, advance_ok hw]
    rfl
  | cons c cs ih =>
    intro i acc s hw hcs hacc hr
    have hcs' : ∀ c ∈ cs, c = '_' ∨ ∃ d, hexVal c = some d ∧ d < base := fun x hx => hcs x (by simp [hx])
    rcases hcs c (by simp) with rfl | ⟨d, hd, hdb⟩
    · rw [intDigits, if_pos (by simp), litDigits_cons_us]
      exact ih (i + 1) acc s hw hcs' hacc hr
    · have hc : (c == '_') = false := by
        rw [beq_eq_false_iff_ne]; rintro rfl; rw [hexVal_underscore] at hd; cases hd
      rw [intDigits, litDigits_cons cs hd, accum_cons]
      simp only [hc, Bool.false_eq_true, ↓reduceIte, ite_P, bind_apply, advance_ok hw, fail_apply, decodeHexP,
        decodeHex_eq, hd, pure_apply, ge_iff_le, Nat.not_le.mpr hdb]
      have hbase : (1 : Int) ≤ (base : Int) := by exact_mod_cast hb
      have hmul : if neg then acc * base ≤ 0 else 0 ≤ acc * base := by
        cases neg
        · simp only [Bool.false_eq_true, ↓reduceIte] at *; exact Int.mul_nonneg hacc (by omega)
        · simp only [↓reduceIte] at *
          have : acc * base ≤ acc * 1 := Int.mul_le_mul_of_nonpos_left hacc hbase
          omega
      have hd0 : (0 : Int) ≤ d := Int.natCast_nonneg d
      generalize hm : acc * (base : Int) = m at *
      generalize ha : (if neg = true then m - (d : Int) else m + d) = a
      have hacc' : if neg then a ≤ 0 else 0 ≤ a := by subst ha; cases neg <;> simp at * <;> omega
      have hmono := accum_mono neg base hb a hacc' (litDigits cs)
      have h0 := t.zero_inRange
      unfold IntTy.InRange at h0
      by_cases h1 : t.InRange m
      · rw [if_neg (by simpa using h1)]
        by_cases h2 : t.InRange a
        · rw [if_neg (by simpa using h2)]
          exact ih (i + 1) a s hw hcs' hacc' h2
        · rw [if_pos h2, if_neg]
          intro h3
          apply h2
          unfold IntTy.InRange at *
          cases neg <;> simp at * <;> omega
      · rw [if_pos h1, if_neg]
        intro h3
        apply h1
        unfold IntTy.InRange at *
        subst ha
        cases neg <;> simp at * <;> omega

/-! ### `parse_integer` -/

theorem accum_zero (neg : Bool) (base : Nat) (ds : List Nat) :
    accum neg base 0 ds = if neg then - (posValue base ds : Int) else posValue base ds := by
  simp [accum]

theorem whileLen_stop (f : Char → Bool) (r : Text) (h : ∀ c r', r = c :: r' → f c = false) : whileLen f r = 0 := by
  cases r with
  | nil => rfl
  | cons c r => exact whileLen_cons_false f c r (h c r rfl)

theorem ValidBody.intChars {base : Nat} {t : Text} (h : ValidBody base t) : ∀ c ∈ t, isIntChar c = true := by
  intro c hc
  rcases h.2.2 c hc with rfl | ⟨d, hd, _⟩
  · decide
  · simp [isIntChar, hexVal_isHex.mpr ⟨d, hd⟩]

theorem parseInteger_valid {t : IntTy} {neg : Bool} {base : Nat} {body r : Text} {s : St} (hb : 1 ≤ base)
    (hs : s.rest = body ++ r) (hv : ValidBody base body) (hr : ∀ c r', r = c :: r' → isIntChar c = false) :
    parseInteger t neg base s =
      if t.InRange (accum neg base 0 (litDigits body)) then
        .ok (accum neg base 0 (litDigits body)) { s with prev := s.rest, rest := r }
      else .err .integerOutOfBounds { s with prev := s.rest, rest := r } := by
  have hn : whileLen isIntChar s.rest = body.length := by
    rw [hs, whileLen_append _ _ _ hv.intChars, whileLen_stop _ _ hr]; rfl
  have h0 : body ≠ [] := hv.1
  have hus : startsWith s.rest ['_'] = false := by
    rw [hs]
    cases body with
    | nil => exact absurd rfl h0
    | cons c b =>
      have := hv.2.1
      simp at this
      simp; exact fun h => this h.symm
  unfold parseInteger
  simp only [bind_apply, getSt_apply, hn, ite_P, fail_apply, hus, Bool.false_eq_true, ↓reduceIte]
  rw [if_neg (by simp [h0]), hs, List.take_left]
  rw [intDigits_valid t neg base body.length hb body 0 0 s (by rw [hs]; simp) hv.2.2 (by cases neg <;> simp) t.zero_inRange]
  rw [hs, List.drop_left]

theorem intDigits_sound (t : IntTy) (neg : Bool) (base whole : Nat) (cs : Text) :
    ∀ (i : Nat) (acc : Int) (s s' : St) (v : Int), intDigits t neg base whole cs i acc s = .ok v s' →
    (∀ c ∈ cs, c = '_' ∨ ∃ d, hexVal c = some d ∧ d < base) := by
  induction cs with
  | nil => intro i acc s s' v _ c hc; cases hc
  | cons c cs ih =>
    intro i acc s s' v h
    rw [intDigits] at h
    by_cases hc : c = '_'
    · subst hc
      simp only [beq_self_eq_true, ↓reduceIte] at h
      intro x hx
      rcases List.mem_cons.mp hx with rfl | hx
      · exact .inl rfl
      · exact ih _ _ _ _ _ h x hx
    · have hc' : (c == '_') = false := by simpa using hc
      simp only [hc', Bool.false_eq_true, ↓reduceIte, ite_P, bind_apply, fail_apply, decodeHexP,
        decodeHex_eq] at h
      split at h
      · exfalso; revert h; cases advance whole s <;> simp
      · cases hd : hexVal c with
        | none => simp only [hd, fail_apply] at h; cases h
        | some d =>
          simp only [hd, pure_apply] at h
          split at h
          · exfalso; revert h; cases advance i s <;> simp
          · rename_i hlt
            generalize (if neg = true then acc * (base : Int) - d else acc * base + d) = a at h
            split at h
            · exfalso; revert h; cases advance whole s <;> simp
            · intro x hx
              rcases List.mem_cons.mp hx with rfl | hx
              · exact .inr ⟨d, hd, by omega⟩
              · exact ih _ _ _ _ _ h x hx

theorem isIntChar_spec {c : Char} : isIntChar c = false ↔ c ≠ '_' ∧ hexVal c = none := by
  unfold isIntChar
  rw [Bool.or_eq_false_iff]
  constructor
  · rintro ⟨h1, h2⟩
    refine ⟨by simpa using h2, ?_⟩
    cases h : hexVal c with
    | none => rfl
    | some d => rw [hexVal_isHex.mpr ⟨d, h⟩] at h1; cases h1
  · rintro ⟨h1, h2⟩
    refine ⟨?_, by simpa using h1⟩
    rw [Bool.eq_false_iff]
    intro h
    obtain ⟨d, hd⟩ := hexVal_isHex.mp h
    rw [h2] at hd; cases hd

theorem parseInteger_sound {t : IntTy} {neg : Bool} {base : Nat} {s s' : St} {v : Int} (hb : 1 ≤ base)
    (h : parseInteger t neg base s = .ok v s') :
    ∃ body, s.rest = body ++ s'.rest ∧ ValidBody base body ∧ (∀ c r', s'.rest = c :: r' → isIntChar c = false) ∧
      v = accum neg base 0 (litDigits body) ∧ t.InRange v ∧ s' = { s with prev := s.rest, rest := s'.rest } := by
  obtain ⟨body, r, hs, hbody, hn, hr⟩ := whileLen_split isIntChar s.rest
  have h2 := h
  unfold parseInteger at h
  simp only [bind_apply, getSt_apply, hn, ite_P, fail_apply] at h
  split at h
  · cases h
  split at h
  · cases h
  rename_i hne hus
  rw [hs, List.take_left] at h
  have hv : ValidBody base body := by
    refine ⟨by simpa using hne, ?_, intDigits_sound _ _ _ _ _ _ _ _ _ _ h⟩
    intro hh
    apply hus
    rw [hs]
    cases body with
    | nil => simp at hh
    | cons c b => simp at hh; simp [hh]
  rw [parseInteger_valid hb hs hv hr] at h2
  split at h2
  · rename_i hin
    injection h2 with h3 h4
    refine ⟨body, ?_, hv, ?_, h3.symm, h3 ▸ hin, ?_⟩
    · rw [← h4]; exact hs
    · rw [← h4]; exact hr
    · rw [← h4]
  · cases h2

/-! ### identifiers -/

variable [Env]

theorem isIntChar_xid {c : Char} (h : Env.xidCont c = false) : isIntChar c = false := by
  by_cases hc : c.toNat < 128
  · rw [Env.xidCont_ascii c hc] at h
    simp only [isAsciiAlpha, isDigit, Bool.or_eq_false_iff] at h
    unfold isIntChar isHexDigit
    simp only [Bool.or_eq_false_iff, Bool.and_eq_false_iff, decide_eq_false_iff_not, char_le_iff] at *
    have h1 : 'a'.toNat = 97 := rfl
    have h2 : 'f'.toNat = 102 := rfl
    have h3 : 'z'.toNat = 122 := rfl
    have h4 : 'A'.toNat = 65 := rfl
    have h5 : 'F'.toNat = 70 := rfl
    have h6 : 'Z'.toNat = 90 := rfl
    refine ⟨⟨⟨?_, ?_⟩, ?_⟩, h.2⟩ <;> omega
  · unfold isIntChar isHexDigit
    simp only [Bool.or_eq_false_iff, Bool.and_eq_false_iff, decide_eq_false_iff_not, char_le_iff]
    have h1 : '9'.toNat = 57 := rfl
    have h2 : 'f'.toNat = 102 := rfl
    have h5 : 'F'.toNat = 70 := rfl
    refine ⟨⟨⟨?_, ?_⟩, ?_⟩, ?_⟩
    · omega
    · omega
    · omega
    · rw [beq_eq_false_iff_ne]; rintro rfl; exact hc (by decide)

theorem headXid_false {r : Text} : headXid r = false ↔ NoIdentStart r := by
  unfold headXid NoIdentStart
  cases r with
  | nil => simp
  | cons c r =>
    constructor
    · rintro h c' r' e; injection e with e1 e2; subst e1; exact h
    · intro h; exact h c r rfl

theorem checkIdent_apply (t : Text) (s : St) :
    checkIdent t s = .ok (startsWith s.rest t && !headXid (s.rest.drop t.length)) s := rfl

theorem consumeIdent_true {t r : Text} {s : St} (h : s.rest = t ++ r) (hr : NoIdentStart r) :
    consumeIdent t s = .ok true { s with prev := s.rest, rest := r } := by
  unfold consumeIdent
  simp only [checkIdent_apply, bind_apply, ite_P, advance_apply, len_le_append, pure_apply, h, startsWith_append, List.drop_left,
    headXid_false.mpr hr, Bool.not_false, Bool.and_self, ↓reduceIte]

theorem consumeIdent_false {t : Text} {s : St} (h : startsWith s.rest t = false ∨ headXid (s.rest.drop t.length) = true) :
    consumeIdent t s = .ok false s := by
  unfold consumeIdent
  rcases h with h | h <;> simp [checkIdent_apply, h]

theorem consumeIdent_cases (t : Text) (s : St) :
    (∃ r, s.rest = t ++ r ∧ NoIdentStart r ∧ consumeIdent t s = .ok true { s with prev := s.rest, rest := r }) ∨
    ((startsWith s.rest t = false ∨ headXid (s.rest.drop t.length) = true) ∧ consumeIdent t s = .ok false s) := by
  by_cases h : startsWith s.rest t = true
  · obtain ⟨r, hr⟩ := (startsWith_iff _ _).mp h
    by_cases hx : headXid r = true
    · right
      have : headXid (s.rest.drop t.length) = true := by rw [hr, List.drop_left]; exact hx
      exact ⟨.inr this, consumeIdent_false (.inr this)⟩
    · left
      have := headXid_false.mp (by simpa using hx)
      exact ⟨r, hr, this, consumeIdent_true hr this⟩
  · right
    have h : startsWith s.rest t = false := by simpa using h
    exact ⟨.inl h, consumeIdent_false (.inl h)⟩

omit [Env] in
theorem suffix_prefix (t t' : IntTy) (r : Text) (h : t ≠ t') : startsWith (t'.suffix ++ r) t.suffix = false := by
  revert h
  cases t <;> cases t' <;> simp [IntTy.suffix]

theorem mem_suffixOrder {t : IntTy} : t ∈ suffixOrder ↔ t.Avail := by
  unfold suffixOrder IntTy.Avail
  cases Env.int128 <;> cases t <;> simp

theorem consumeSuffix_some {t : IntTy} {r : Text} {s : St} (hs : s.rest = t.suffix ++ r) (hr : NoIdentStart r) :
    ∀ l : List IntTy, t ∈ l → consumeSuffix l s = .ok (some t) { s with prev := s.rest, rest := r } := by
  intro l
  induction l with
  | nil => intro h; cases h
  | cons a l ih =>
    intro h
    rw [consumeSuffix]
    by_cases hat : a = t
    · subst hat
      rw [bind_apply, consumeIdent_true hs hr]; rfl
    · rw [bind_apply, consumeIdent_false (.inl (by rw [hs]; exact suffix_prefix a t r hat))]
      simp only [Bool.false_eq_true, ↓reduceIte]
      exact ih (by rcases List.mem_cons.mp h with h | h; exact absurd h.symm hat; exact h)

theorem consumeSuffix_cases (l : List IntTy) (s : St) :
    (∃ t r, t ∈ l ∧ s.rest = t.suffix ++ r ∧ NoIdentStart r ∧
      consumeSuffix l s = .ok (some t) { s with prev := s.rest, rest := r }) ∨
    consumeSuffix l s = .ok none s := by
  induction l with
  | nil => right; rfl
  | cons a l ih =>
    rw [consumeSuffix, bind_apply]
    rcases consumeIdent_cases a.suffix s with ⟨r, h1, h2, h3⟩ | ⟨_, h3⟩
    · left
      exact ⟨a, r, by simp, h1, h2, by rw [h3]; rfl⟩
    · rw [h3]
      simp only [Bool.false_eq_true, ↓reduceIte]
      rcases ih with ⟨t, r, hm, h⟩ | h
      · exact .inl ⟨t, r, by simp [hm], h⟩
      · exact .inr h

theorem NoIdentStart.whileLen {r : Text} (h : NoIdentStart r) : whileLen Env.xidCont r = 0 :=
  whileLen_stop _ _ h

theorem xid_ascii_lower {c : Char} (h : isAsciiAlpha c = true) : Env.xidStart c = true := by
  rw [Env.xidStart_ascii c, h]
  simp only [isAsciiAlpha, Bool.or_eq_true, Bool.and_eq_true, decide_eq_true_eq, char_le_iff] at h
  have h3 : 'z'.toNat = 122 := rfl
  have h6 : 'Z'.toNat = 90 := rfl
  omega

theorem xid_cont_ascii {c : Char} (h : (isAsciiAlpha c || isDigit c || c == '_') = true) : Env.xidCont c = true := by
  rw [Env.xidCont_ascii c, h]
  simp only [isAsciiAlpha, isDigit, Bool.or_eq_true, Bool.and_eq_true, decide_eq_true_eq, char_le_iff, beq_iff_eq] at h
  have h3 : 'z'.toNat = 122 := rfl
  have h6 : 'Z'.toNat = 90 := rfl
  have h7 : '9'.toNat = 57 := rfl
  rcases h with (h | h) | h
  · omega
  · omega
  · subst h; decide

theorem suffix_cont (t : IntTy) : ∀ c ∈ t.suffix, Env.xidCont c = true := by
  intro c hc
  apply xid_cont_ascii
  cases t <;> simp [IntTy.suffix] at hc <;> rcases hc with rfl | rfl | rfl | rfl <;> decide

theorem skipIdentifier_suffix {t : IntTy} {r : Text} {s : St} (hs : s.rest = t.suffix ++ r) (hr : NoIdentStart r) :
    skipIdentifier s = .ok (some t.suffix) { s with prev := s.rest, rest := r } := by
  obtain ⟨c, u, hcu, hcc⟩ : ∃ c u, t.suffix = c :: u ∧ (c = 'i' ∨ c = 'u') := by
    cases t <;> exact ⟨_, _, rfl, by simp⟩
  have h1 : startsStringLike s.rest = false := by
    rw [hs, hcu]; rcases hcc with rfl | rfl <;> simp [startsStringLike]
  have h2 : startsWith s.rest c!"r#" = false := by
    rw [hs, hcu]; rcases hcc with rfl | rfl <;> simp
  have h3 : isIdentFirst c = true := by
    have : Env.xidStart c = true := by rcases hcc with rfl | rfl <;> exact xid_ascii_lower (by decide)
    simp [isIdentFirst, this]
  have h4 : whileLen Env.xidCont (u ++ r) = u.length := by
    rw [whileLen_append _ _ _ (fun c hc => suffix_cont t c (by rw [hcu]; simp [hc])), hr.whileLen]; rfl
  unfold skipIdentifier
  simp only [bind_apply, getSt_apply, ite_P, h1, h2, Bool.false_eq_true, ↓reduceIte]
  have h5 : s.rest = c :: (u ++ r) := by rw [hs, hcu]; rfl
  have hle : 1 + u.length ≤ s.rest.length := by rw [h5]; simp; omega
  rw [h5]
  simp only [h3, h4, ite_P, bind_apply, advance_ok hle, pure_apply, ↓reduceIte]
  have : List.drop (1 + u.length) (c :: (u ++ r)) = r := by rw [Nat.add_comm]; simp
  have h6 : List.take (1 + u.length) (c :: (u ++ r)) = c :: u := by rw [Nat.add_comm]; simp
  rw [h5, this, h6, hcu]

/-! ### `integer` -/

omit [Env] in
theorem LitBase.one_le (b : LitBase) : 1 ≤ b.base := by cases b <;> decide

theorem NoIdentStart.notInt {r : Text} (h : NoIdentStart r) : ∀ c r', r = c :: r' → isIntChar c = false :=
  fun c r' e => isIntChar_xid (h c r' e)

/-- The text after the digits. -/
theorem tail_notInt {sfx : Option IntTy} {r : Text} (hr : NoIdentStart r) :
    ∀ c r', suffixText sfx ++ r = c :: r' → isIntChar c = false := by
  cases sfx with
  | none => exact hr.notInt
  | some t =>
    intro c r' e
    have : c = 'i' ∨ c = 'u' := by cases t <;> simp [suffixText, IntTy.suffix] at e <;> simp [← e.1]
    rcases this with rfl | rfl <;> decide

omit [Env] in
theorem ValidBody.dec_head {body : Text} (h : ValidBody 10 body) :
    ∃ c b, body = c :: b ∧ isDigit c = true := by
  cases body with
  | nil => exact absurd rfl h.1
  | cons c b =>
    refine ⟨c, b, rfl, ?_⟩
    rcases h.2.2 c (by simp) with rfl | ⟨d, hd, hlt⟩
    · exact absurd rfl h.2.1
    · unfold hexVal at hd
      unfold isDigit
      simp only [Bool.and_eq_true, decide_eq_true_eq]
      split at hd
      · assumption
      · split at hd
        · cases hd; omega
        · split at hd
          · cases hd; omega
          · cases hd

omit [Env] in
theorem basePrefix_lit {b : LitBase} {body u : Text} {s : St} (hs : s.rest = b.pre ++ (body ++ u))
    (hv : ValidBody b.base body) (hu : ∀ c r', u = c :: r' → c ≠ 'b' ∧ c ≠ 'o' ∧ c ≠ 'x') :
    ∃ p, basePrefix s = .ok b.base { s with prev := p, rest := body ++ u } := by
  unfold basePrefix
  cases b with
  | bin =>
    refine ⟨s.rest, ?_⟩
    rw [bind_apply, consumeStr_true (by rw [hs]; simp [LitBase.pre]), hs]; rfl
  | oct =>
    refine ⟨s.rest, ?_⟩
    rw [bind_apply, consumeStr_false (by rw [hs]; simp [LitBase.pre])]
    simp only [Bool.false_eq_true, ↓reduceIte]
    rw [bind_apply, consumeStr_true (by rw [hs]; simp [LitBase.pre]), hs]; rfl
  | hex =>
    refine ⟨s.rest, ?_⟩
    rw [bind_apply, consumeStr_false (by rw [hs]; simp [LitBase.pre])]
    simp only [Bool.false_eq_true, ↓reduceIte]
    rw [bind_apply, consumeStr_false (by rw [hs]; simp [LitBase.pre])]
    simp only [Bool.false_eq_true, ↓reduceIte]
    rw [bind_apply, consumeStr_true (by rw [hs]; simp [LitBase.pre]), hs]; rfl
  | dec =>
    refine ⟨s.prev, ?_⟩
    have hs : s.rest = body ++ u := hs
    have key : ∀ x : Char, x = 'b' ∨ x = 'o' ∨ x = 'x' → startsWith s.rest ['0', x] = false := by
      intro x hx
      rw [Bool.eq_false_iff]; intro h
      obtain ⟨r, hr⟩ := (startsWith_iff _ _).mp h
      rw [hs] at hr
      cases body with
      | nil => exact absurd rfl hv.1
      | cons c1 b1 =>
        cases b1 with
        | nil =>
          simp at hr
          obtain ⟨h1, h2, h3⟩ := hu x r hr.2
          rcases hx with rfl | rfl | rfl <;> simp_all
        | cons c2 b2 =>
          simp at hr
          have : c2 = x := hr.2.1
          rcases hv.2.2 c2 (by simp) with h1 | ⟨d, hd, hlt⟩
          · rcases hx with rfl | rfl | rfl <;> simp_all
          · subst this
            have hlt : d < 10 := hlt
            rcases hx with rfl | rfl | rfl
            · have : hexVal 'b' = some 11 := by decide
              rw [this] at hd; cases hd; omega
            · have : hexVal 'o' = none := by decide
              rw [this] at hd; cases hd
            · have : hexVal 'x' = none := by decide
              rw [this] at hd; cases hd
    rw [bind_apply, consumeStr_false (key 'b' (by simp))]
    simp only [Bool.false_eq_true, ↓reduceIte]
    rw [bind_apply, consumeStr_false (key 'o' (by simp))]
    simp only [Bool.false_eq_true, ↓reduceIte]
    rw [bind_apply, consumeStr_false (key 'x' (by simp))]
    simp only [Bool.false_eq_true, ↓reduceIte, pure_apply]
    rw [← hs]
    rfl

/-- What `integer` makes of a literal without suffix. -/
def intTypeOf (tg : IntTarget) (neg : Bool) : IntTy :=
  match tg with
  | .one t => t
  | .any => if neg then largeS else largeU

def intResult (tg : IntTarget) (neg : Bool) (v : Int) : IntTy × Int :=
  match tg with
  | .one t => (t, v)
  | .any => (if neg then smallestS v else smallestU v, v)

theorem IntTarget.parse_valid {tg : IntTarget} {neg : Bool} {base : Nat} {body r : Text} {s : St} (hb : 1 ≤ base)
    (hs : s.rest = body ++ r) (hv : ValidBody base body) (hr : ∀ c r', r = c :: r' → isIntChar c = false) :
    tg.parse neg base s =
      if (intTypeOf tg neg).InRange (accum neg base 0 (litDigits body)) then
        .ok (intResult tg neg (accum neg base 0 (litDigits body))) { s with prev := s.rest, rest := r }
      else .err .integerOutOfBounds { s with prev := s.rest, rest := r } := by
  by_cases hin : (intTypeOf tg neg).InRange (accum neg base 0 (litDigits body))
  · rw [if_pos hin]
    cases tg with
    | one t =>
      simp only [IntTarget.parse, bind_apply, parseInteger_valid hb hs hv hr, intResult]
      rw [if_pos (by exact hin)]
      rfl
    | any =>
      cases neg <;> simp only [IntTarget.parse, Bool.false_eq_true, ↓reduceIte, bind_apply, parseInteger_valid hb hs hv hr,
        intResult] <;> rw [if_pos (by exact hin)] <;> rfl
  · rw [if_neg hin]
    cases tg with
    | one t =>
      simp only [IntTarget.parse, bind_apply, parseInteger_valid hb hs hv hr]
      rw [if_neg (by exact hin)]
    | any =>
      cases neg <;> simp only [IntTarget.parse, Bool.false_eq_true, ↓reduceIte, bind_apply, parseInteger_valid hb hs hv hr]
        <;> rw [if_neg (by exact hin)]

/-- The type that decides about the range. -/
def litType (tg : IntTarget) (neg : Bool) (sfx : Option IntTy) : IntTy := sfx.getD (intTypeOf tg neg)

theorem unsignedPart_lit {tg : IntTarget} {neg : Bool} {b : LitBase} {body r backup : Text} {sfx : Option IntTy}
    {s : St} (hs : s.rest = b.pre ++ (body ++ (suffixText sfx ++ r))) (hv : ValidBody b.base body)
    (hr : NoIdentStart r) (ha : ∀ t, sfx = some t → t.Avail) :
    ∃ p, unsignedPart tg neg backup s =
      if (litType tg neg sfx).InRange (accum neg b.base 0 (litDigits body)) then
        match sfx with
        | none => .ok (intResult tg neg (accum neg b.base 0 (litDigits body))) { s with prev := p, rest := r }
        | some t => tg.tryFrom t (accum neg b.base 0 (litDigits body)) (backup.take (backup.length - r.length))
            { s with prev := p, rest := r }
      else .err .integerOutOfBounds { s with prev := p, rest := r } := by
  have htail := tail_notInt (sfx := sfx) hr
  obtain ⟨p, hp⟩ := basePrefix_lit hs hv (by
    intro c r' e
    cases sfx with
    | none =>
      have := hr c r' e
      refine ⟨?_, ?_, ?_⟩ <;> (rintro rfl; rw [xid_cont_ascii (by decide)] at this; cases this)
    | some t =>
      have : c = 'i' ∨ c = 'u' := by cases t <;> simp [suffixText, IntTy.suffix] at e <;> simp [← e.1]
      rcases this with rfl | rfl <;> decide)
  have hn : whileLen isIntChar (body ++ (suffixText sfx ++ r)) = body.length := by
    rw [whileLen_append _ _ _ hv.intChars, whileLen_stop _ _ htail]; rfl
  unfold unsignedPart
  simp only [bind_apply, hp, getSt_apply, hn, List.drop_left]
  cases sfx with
  | none =>
    refine ⟨body ++ r, ?_⟩
    have h1 : startsWith ([] ++ r) ['i'] = false := by
      rw [Bool.eq_false_iff]; intro h
      obtain ⟨q, hq⟩ := (startsWith_iff _ _).mp h
      have := hr 'i' q hq
      rw [xid_cont_ascii (by decide)] at this; cases this
    have h2 : startsWith ([] ++ r) ['u'] = false := by
      rw [Bool.eq_false_iff]; intro h
      obtain ⟨q, hq⟩ := (startsWith_iff _ _).mp h
      have := hr 'u' q hq
      rw [xid_cont_ascii (by decide)] at this; cases this
    simp only [suffixText, h1, h2, Bool.or_self, Bool.false_eq_true, ↓reduceIte]
    rw [IntTarget.parse_valid b.one_le rfl hv htail]
    rfl
  | some t =>
    have h1 : (startsWith (t.suffix ++ r) ['i'] || startsWith (t.suffix ++ r) ['u']) = true := by
      cases t <;> simp [IntTy.suffix]
    refine ⟨t.suffix ++ r, ?_⟩
    simp only [suffixText, h1, ite_P, bind_apply, cursor_apply, advance_apply, len_le_append, List.drop_left, ↓reduceIte]
    rw [consumeSuffix_some rfl hr suffixOrder (mem_suffixOrder.mpr (ha t rfl))]
    simp only [bind_apply, getSt_apply, setCursor_apply, attempt_apply]
    rw [parseInteger_valid b.one_le rfl hv htail]
    by_cases hin : t.InRange (accum neg b.base 0 (litDigits body))
    · simp only [hin, ↓reduceIte, litType, Option.getD_some, bind_apply, suffixText]
      rw [skipIdentifier_suffix rfl hr]
    · simp only [hin, ↓reduceIte, litType, Option.getD_some, bind_apply, suffixText]
      rw [skipIdentifier_suffix rfl hr]
      rfl

omit [Env] in
theorem accum_value (l : IntLit) :
    accum (decide (l.sign = .minus)) l.base.base 0 (litDigits l.body) = l.value := by
  unfold IntLit.value
  rw [accum_zero]
  cases l.sign <;> simp [LitSign.apply]

/-- `integer` on a literal: complete description. -/
theorem integer_lit {tg : IntTarget} {l : IntLit} {r : Text} {s : St} (hs : s.rest = l.text ++ r) (hv : l.Valid)
    (hr : NoIdentStart r) (ha : ∀ t, l.suffix = some t → t.Avail) :
    ∃ p, integer tg s =
      if (litType tg (decide (l.sign = .minus)) l.suffix).InRange l.value then
        match l.suffix with
        | none => .ok (intResult tg (decide (l.sign = .minus)) l.value) { s with prev := p, rest := r }
        | some t => tg.tryFrom t l.value l.text { s with prev := p, rest := r }
      else .err .integerOutOfBounds { s with prev := p, rest := r } := by
  rw [← accum_value]
  obtain ⟨sign, b, body, sfx⟩ := l
  unfold IntLit.Valid at hv
  unfold IntLit.text at hs
  simp only at *
  have htake : List.take (s.rest.length - r.length) s.rest = IntLit.text ⟨sign, b, body, sfx⟩ := by
    rw [hs]; simp [IntLit.text]
    rw [show sign.text.length + (b.pre.length + (body.length + ((suffixText sfx).length + r.length))) - r.length =
      sign.text.length + (b.pre.length + (body.length + ((suffixText sfx).length))) by omega]
    rw [show sign.text ++ (b.pre ++ (body ++ (suffixText sfx ++ r))) = (sign.text ++ (b.pre ++ (body ++ (suffixText sfx)))) ++ r by simp]
    rw [List.take_left' (by simp)]
  have hs' : s.rest = sign.text ++ (b.pre ++ (body ++ (suffixText sfx ++ r))) := by rw [hs]; simp
  unfold integer
  cases sign with
  | none =>
    have hhead : ∃ c u, s.rest = c :: u ∧ c ≠ '+' ∧ c ≠ '-' ∧ c ≠ 'b' := by
      cases b with
      | bin => exact ⟨_, _, hs', by decide⟩
      | oct => exact ⟨_, _, hs', by decide⟩
      | hex => exact ⟨_, _, hs', by decide⟩
      | dec =>
        obtain ⟨c, b', hb', hd⟩ := hv.dec_head
        refine ⟨c, _, by rw [hs', hb']; rfl, ?_⟩
        refine ⟨?_, ?_, ?_⟩ <;> (rintro rfl; revert hd; decide)
    obtain ⟨c, u, hcu, h1, h2, h3⟩ := hhead
    obtain ⟨p, hp⟩ := unsignedPart_lit (tg := tg) (neg := false) (backup := s.rest) hs' hv hr ha
    refine ⟨p, ?_⟩
    have hpk : peekCharOrEof s = .ok c s := by simp [peekCharOrEof, hcu]
    simp only [bind_apply, getSt_apply, hpk, ite_P, skipNextChar_apply, pure_apply, beq_iff_eq, h1, h2, h3, ↓reduceIte,
      Bool.false_eq_true]
    rw [hp, htake]
    simp
  | plus =>
    obtain ⟨p, hp⟩ := unsignedPart_lit (tg := tg) (neg := false) (backup := s.rest)
      (s := { s with rest := s.rest.drop 1 }) (by simp [hs', LitSign.text]) hv hr ha
    refine ⟨p, ?_⟩
    have hpk : peekCharOrEof s = .ok '+' s := by simp [peekCharOrEof, hs', LitSign.text]
    simp only [bind_apply, getSt_apply, hpk, ite_P, skipNextChar_apply, beq_self_eq_true, ↓reduceIte]
    rw [hp, htake]
    simp
  | minus =>
    obtain ⟨p, hp⟩ := unsignedPart_lit (tg := tg) (neg := true) (backup := s.rest)
      (s := { s with rest := s.rest.drop 1 }) (by simp [hs', LitSign.text]) hv hr ha
    refine ⟨p, ?_⟩
    have hpk : peekCharOrEof s = .ok '-' s := by simp [peekCharOrEof, hs', LitSign.text]
    simp only [bind_apply, getSt_apply, hpk, ite_P, skipNextChar_apply, beq_iff_eq, ↓reduceIte,
      show ¬ ('-' = '+') by decide]
    rw [hp, htake]
    simp

/-! ### Soundness of `integer` -/

omit [Env] in
theorem basePrefix_cases (s : St) : ∃ b : LitBase, ∃ r p, s.rest = b.pre ++ r ∧
    basePrefix s = .ok b.base { s with prev := p, rest := r } := by
  unfold basePrefix
  by_cases h1 : startsWith s.rest c!"0b" = true
  · obtain ⟨r, hr⟩ := (startsWith_iff _ _).mp h1
    refine ⟨.bin, r, s.rest, hr, ?_⟩
    rw [bind_apply, consumeStr_true h1, hr]; rfl
  · rw [bind_apply, consumeStr_false (by simpa using h1)]
    by_cases h2 : startsWith s.rest c!"0o" = true
    · obtain ⟨r, hr⟩ := (startsWith_iff _ _).mp h2
      refine ⟨.oct, r, s.rest, hr, ?_⟩
      simp only [Bool.false_eq_true, ↓reduceIte]
      rw [bind_apply, consumeStr_true h2, hr]; rfl
    · simp only [Bool.false_eq_true, ↓reduceIte]
      rw [bind_apply, consumeStr_false (by simpa using h2)]
      by_cases h3 : startsWith s.rest c!"0x" = true
      · obtain ⟨r, hr⟩ := (startsWith_iff _ _).mp h3
        refine ⟨.hex, r, s.rest, hr, ?_⟩
        simp only [Bool.false_eq_true, ↓reduceIte]
        rw [bind_apply, consumeStr_true h3, hr]; rfl
      · simp only [Bool.false_eq_true, ↓reduceIte]
        rw [bind_apply, consumeStr_false (by simpa using h3)]
        exact ⟨.dec, s.rest, s.prev, rfl, rfl⟩

theorem IntTarget.parse_sound {tg : IntTarget} {neg : Bool} {base : Nat} {s s' : St} {t : IntTy} {v : Int}
    (hb : 1 ≤ base) (h : tg.parse neg base s = .ok (t, v) s') :
    ∃ body, s.rest = body ++ s'.rest ∧ ValidBody base body ∧ (∀ c r', s'.rest = c :: r' → isIntChar c = false) ∧
      v = accum neg base 0 (litDigits body) ∧ (intTypeOf tg neg).InRange v ∧ (t, v) = intResult tg neg v ∧
      KeepsW s s' := by
  have key : ∀ {T : IntTy} {f : Int → IntTy}, (do let v ← parseInteger T neg base; pure (f v, v) : P _) s = .ok (t, v) s' →
      ∃ body, s.rest = body ++ s'.rest ∧ ValidBody base body ∧ (∀ c r', s'.rest = c :: r' → isIntChar c = false) ∧
      v = accum neg base 0 (litDigits body) ∧ T.InRange v ∧ t = f v ∧ KeepsW s s' := by
    intro T f h
    rw [bind_apply] at h
    cases hp : parseInteger T neg base s with
    | err e s1 => rw [hp] at h; cases h
    | ok v1 s1 =>
      rw [hp] at h
      simp only [pure_apply] at h
      injection h with h1 h2
      injection h1 with h3 h4
      subst h4; subst h2
      obtain ⟨body, a1, a2, a3, a4, a5, a6⟩ := parseInteger_sound hb hp
      exact ⟨body, a1, a2, a3, a4, a5, h3.symm, by rw [a6]; exact KeepsW.step _ _ _⟩
  cases tg with
  | one T =>
    obtain ⟨body, a1, a2, a3, a4, a5, a6, a7⟩ := key (T := T) (f := fun _ => T) h
    exact ⟨body, a1, a2, a3, a4, a5, by rw [a6]; rfl, a7⟩
  | any =>
    cases neg
    · obtain ⟨body, a1, a2, a3, a4, a5, a6, a7⟩ := key (T := largeU) (f := smallestU) h
      exact ⟨body, a1, a2, a3, a4, a5, by rw [a6]; rfl, a7⟩
    · obtain ⟨body, a1, a2, a3, a4, a5, a6, a7⟩ := key (T := largeS) (f := smallestS) h
      exact ⟨body, a1, a2, a3, a4, a5, by rw [a6]; rfl, a7⟩

omit [Env] in
theorem tryFrom_ok {tg : IntTarget} {t t' : IntTy} {v v' : Int} {ron : Text} {s s' : St}
    (h : tg.tryFrom t v ron s = .ok (t', v') s') :
    s' = s ∧ t' = t ∧ v' = v ∧ (tg = .any ∨ tg = .one t) := by
  cases tg with
  | any =>
    simp only [IntTarget.tryFrom, pure_apply] at h
    injection h with h1 h2
    injection h1 with h3 h4
    exact ⟨h2.symm, h3.symm, h4.symm, .inl rfl⟩
  | one T =>
    simp only [IntTarget.tryFrom, ite_P, pure_apply, fail_apply] at h
    split at h
    · rename_i hT
      injection h with h1 h2
      injection h1 with h3 h4
      exact ⟨h2.symm, h3.symm, h4.symm, .inr (by rw [hT])⟩
    · cases h

theorem unsignedPart_sound {tg : IntTarget} {neg : Bool} {backup : Text} {s s' : St} {t : IntTy} {v : Int}
    (h : unsignedPart tg neg backup s = .ok (t, v) s') :
    ∃ (b : LitBase) (body : Text) (sfx : Option IntTy),
      s.rest = b.pre ++ (body ++ (suffixText sfx ++ s'.rest)) ∧ ValidBody b.base body ∧
      v = accum neg b.base 0 (litDigits body) ∧ (litType tg neg sfx).InRange v ∧
      (sfx = none → (t, v) = intResult tg neg v ∧ ∀ c r', s'.rest = c :: r' → isIntChar c = false) ∧
      (∀ t', sfx = some t' → t = t' ∧ t'.Avail ∧ (tg = .any ∨ tg = .one t') ∧ NoIdentStart s'.rest) ∧ KeepsW s s' := by
  obtain ⟨b, r, p, hb, hp⟩ := basePrefix_cases s
  unfold unsignedPart at h
  simp only [bind_apply, hp, getSt_apply] at h
  generalize hs1 : ({ s with prev := p, rest := r } : St) = s1 at h
  have hrest : s1.rest = r := by rw [← hs1]
  have hk1 : KeepsW s s1 := by rw [← hs1]; exact KeepsW.step _ _ _
  have plain : ∀ s2 : St, s2.rest = r → KeepsW s s2 → tg.parse neg b.base s2 = .ok (t, v) s' → ∃ (b : LitBase) (body : Text) (sfx : Option IntTy),
      s.rest = b.pre ++ (body ++ (suffixText sfx ++ s'.rest)) ∧ ValidBody b.base body ∧
      v = accum neg b.base 0 (litDigits body) ∧ (litType tg neg sfx).InRange v ∧
      (sfx = none → (t, v) = intResult tg neg v ∧ ∀ c r', s'.rest = c :: r' → isIntChar c = false) ∧
      (∀ t', sfx = some t' → t = t' ∧ t'.Avail ∧ (tg = .any ∨ tg = .one t') ∧ NoIdentStart s'.rest) ∧ KeepsW s s' := by
    intro s2 h2 hk h
    obtain ⟨body, a1, a2, a3, a4, a5, a6, a7⟩ := IntTarget.parse_sound b.one_le h
    refine ⟨b, body, none, ?_, a2, a4, a5, fun _ => ⟨a6, a3⟩, fun t' ht' => (by cases ht'), hk.trans a7⟩
    rw [hb, ← h2, a1]; rfl
  simp only [ite_P] at h
  split at h
  · rw [← hrest] at h
    simp only [bind_apply, cursor_apply, advance_apply, whileLen_le, ↓reduceIte] at h
    generalize hs2 : ({ s1 with prev := s1.rest, rest := s1.rest.drop (whileLen isIntChar s1.rest) } : St) = s2 at h
    rcases consumeSuffix_cases suffixOrder s2 with ⟨t', q, hm, hq, hnq, hcs⟩ | hcs
    · rw [hcs] at h
      simp only [bind_apply, getSt_apply, setCursor_apply, attempt_apply] at h
      generalize hs3 : ({ s2 with prev := s2.rest, rest := s1.rest, preWs := s1.preWs, lastWs := s1.lastWs } : St) = s3 at h
      have hk3 : KeepsW s1 s3 := by rw [← hs3, ← hs2]; exact ⟨⟨rfl, rfl, rfl, rfl, rfl⟩, rfl, rfl⟩
      have h3r : s3.rest = r := by rw [← hs3]; exact hrest
      cases hpi : parseInteger t' neg b.base s3 with
      | err e s4 =>
        rw [hpi] at h
        exfalso
        cases hsk : skipIdentifier s4 <;> cases e <;> simp only [bind_apply, fail_apply, hsk] at h <;> cases h
      | ok v1 s4 =>
        rw [hpi] at h
        simp only [bind_apply] at h
        obtain ⟨body, a1, a2, a3, a4, a5, a6⟩ := parseInteger_sound b.one_le hpi
        have hbody : whileLen isIntChar s1.rest = body.length := by
          rw [hrest, ← h3r, a1, whileLen_append _ _ _ a2.intChars, whileLen_stop _ _ a3]; rfl
        have h4 : s4.rest = t'.suffix ++ q := by
          rw [← hq, ← hs2]
          show s4.rest = List.drop (whileLen isIntChar s1.rest) s1.rest
          rw [hbody, hrest, ← h3r, a1, List.drop_left]
        rw [skipIdentifier_suffix h4 hnq] at h
        simp only at h
        obtain ⟨e1, e2, e3, e4⟩ := tryFrom_ok h
        subst e2; subst e3
        have hs'r : s'.rest = q := by rw [e1]
        refine ⟨b, body, some t, ?_, a2, a4, a5, fun h => (by cases h), ?_, ?_⟩
        · rw [hb, ← h3r, a1, h4, hs'r]; rfl
        · intro t'' ht''; cases ht''
          exact ⟨rfl, mem_suffixOrder.mp hm, e4, hs'r ▸ hnq⟩
        · refine (hk1.trans hk3).trans ?_
          rw [e1, a6]
          exact ⟨⟨rfl, rfl, rfl, rfl, rfl⟩, rfl, rfl⟩
    · rw [hcs] at h
      simp only [bind_apply, setCursor_apply] at h
      refine plain _ ?_ ?_ h
      · exact hrest
      · refine hk1.trans ?_
        rw [← hs2]; exact ⟨⟨rfl, rfl, rfl, rfl, rfl⟩, rfl, rfl⟩
  · exact plain s1 hrest hk1 h

/-- `integer` on anything but a byte literal: whatever it accepts is a literal with that value. -/
theorem integer_sound {tg : IntTarget} {s s' : St} {t : IntTy} {v : Int} (hnb : startsWith s.rest c!"b'" = false)
    (h : integer tg s = .ok (t, v) s') :
    ∃ l : IntLit, l.Valid ∧ s.rest = l.text ++ s'.rest ∧ v = l.value ∧
      (litType tg (decide (l.sign = .minus)) l.suffix).InRange v ∧
      (l.suffix = none → (t, v) = intResult tg (decide (l.sign = .minus)) v ∧
        ∀ c r', s'.rest = c :: r' → isIntChar c = false) ∧
      (∀ t', l.suffix = some t' → t = t' ∧ t'.Avail ∧ (tg = .any ∨ tg = .one t') ∧ NoIdentStart s'.rest) ∧
      KeepsW s s' := by
  unfold integer at h
  simp only [bind_apply, getSt_apply] at h
  cases hr : s.rest with
  | nil =>
    have hpk : peekCharOrEof s = .err .eof s := by simp [peekCharOrEof, hr]
    rw [hpk] at h; cases h
  | cons c u =>
    have hpk : peekCharOrEof s = .ok c s := by simp [peekCharOrEof, hr]
    simp only [hpk, ite_P, bind_apply, skipNextChar_apply, hr, List.drop_one, List.tail_cons] at h
    have fin : ∀ (sg : LitSign) (s1 : St) (backup : Text), KeepsW s s1 → c :: u = sg.text ++ s1.rest →
        unsignedPart tg (decide (sg = .minus)) backup s1 = .ok (t, v) s' →
        ∃ l : IntLit, l.Valid ∧ c :: u = l.text ++ s'.rest ∧ v = l.value ∧
          (litType tg (decide (l.sign = .minus)) l.suffix).InRange v ∧
          (l.suffix = none → (t, v) = intResult tg (decide (l.sign = .minus)) v ∧
            ∀ c r', s'.rest = c :: r' → isIntChar c = false) ∧
          (∀ t', l.suffix = some t' → t = t' ∧ t'.Avail ∧ (tg = .any ∨ tg = .one t') ∧ NoIdentStart s'.rest) ∧
          KeepsW s s' := by
      intro sg s1 backup hk hrest h
      obtain ⟨b, body, sfx, a1, a2, a3, a4, a5, a6, a7⟩ := unsignedPart_sound h
      refine ⟨⟨sg, b, body, sfx⟩, a2, ?_, ?_, a4, a5, a6, hk.trans a7⟩
      · rw [hrest, a1]; simp [IntLit.text]
      · rw [a3, ← accum_value]
    split at h
    · rename_i hc; simp only [beq_iff_eq] at hc; subst hc
      exact fin .plus { s with rest := u } _ ⟨⟨rfl, rfl, rfl, rfl, rfl⟩, rfl, rfl⟩ rfl h
    · split at h
      · rename_i hc; simp only [beq_iff_eq] at hc; subst hc
        exact fin .minus { s with rest := u } _ ⟨⟨rfl, rfl, rfl, rfl, rfl⟩, rfl, rfl⟩ rfl h
      · have : (if (c == 'b') = true then consumeStr c!"b'" s else (pure false : P Bool) s) = .ok false s := by
          split
          · exact consumeStr_false hnb
          · rfl
        rw [this] at h
        simp only [Bool.false_eq_true, ↓reduceIte] at h
        exact fin .none s _ (KeepsW.refl s) (by rw [← hr]; rfl) h

end Ron
