import Verif.Lemmas.Digits
/-!
# A concrete environment

The laws of `Env` are consistent: here is an environment that satisfies them.  Identifiers are ASCII; a finite float is
printed as its bit pattern in decimal.  It is used for examples only.
-/

set_option linter.unusedSimpArgs false

namespace Ron

/-- Printing of the witness. -/
def wfmt (nan inf neg integral : Bool) (n : Nat) : Text :=
  if nan then c!"NaN" else if inf then (if neg then c!"-inf" else c!"inf")
  else (if neg then ['-'] else []) ++ natText n ++ (if integral then [] else c!".5")

/-- Drop a minus sign. -/
def wabs (t : Text) : Text := if startsWith t ['-'] then t.drop 1 else t

/-- Digits of the witness format. -/
def wnum (t : Text) : Nat := posValue 10 (litDigits ((wabs t).takeWhile isDigit))

def wparse32 (t : Text) : Option F32 :=
  if t = c!"inf" then some F32.inf else if t = c!"+inf" then some F32.inf else if t = c!"-inf" then some F32.negInf
  else if t = c!"NaN" then some F32.nan else if t = c!"+NaN" then some F32.nan else if t = c!"-NaN" then some F32.negNan
  else if t = [] then none
  else some (BitVec.ofNat 32 (wnum t))

def wparse64 (t : Text) : Option F64 :=
  if t = c!"inf" then some F64.inf else if t = c!"+inf" then some F64.inf else if t = c!"-inf" then some F64.negInf
  else if t = c!"NaN" then some F64.nan else if t = c!"+NaN" then some F64.nan else if t = c!"-NaN" then some F64.negNan
  else if t = [] then none
  else some (BitVec.ofNat 64 (wnum t))

theorem wnum_fmt (neg : Bool) (n : Nat) (u : Text) (hu : ∀ c r, u = c :: r → isDigit c = false) :
    wnum ((if neg then ['-'] else []) ++ natText n ++ u) = n := by
  have hd := natText_digit n
  have key : ((natText n ++ u).takeWhile isDigit) = natText n := by
    rw [List.takeWhile_append_of_pos hd]
    cases u with
    | nil => simp
    | cons c r => simp [hu c r rfl]
  unfold wnum
  cases neg
  · simp only [Bool.false_eq_true, ↓reduceIte, List.nil_append]
    cases h : natText n with
    | nil => exact absurd h (natText_ne_nil n)
    | cons c r =>
      rw [h] at hd key
      have : c ≠ '-' := by rintro rfl; have := hd '-' (by simp); revert this; decide
      have e : wabs (c :: r ++ u) = c :: r ++ u := by
        unfold wabs; rw [if_neg]; simpa using Ne.symm this
      rw [e, key, ← h, natText_value]
  · simp only [↓reduceIte, List.append_assoc, List.cons_append, List.nil_append]
    rw [show wabs ('-' :: (natText n ++ u)) = natText n ++ u by simp [wabs]]
    rw [key, natText_value]

theorem special_ne (neg : Bool) (n : Nat) (u : Text) (w : Text)
    (hw : ∀ c r, w = c :: r → isDigit c = false ∧ (c = '-' → ∀ d r', r = d :: r' → isDigit d = false)) :
    (if neg then ['-'] else []) ++ natText n ++ u ≠ w := by
  intro h
  have hd := natText_digit n
  cases hx : natText n with
  | nil => exact absurd hx (natText_ne_nil n)
  | cons c r =>
    rw [hx] at hd h
    have hc := hd c (by simp)
    cases neg
    · simp at h
      have := (hw c _ h.symm).1
      rw [hc] at this; cases this
    · simp at h
      have := (hw '-' _ h.symm).2 rfl c _ rfl
      rw [hc] at this; cases this

/-- The witness. -/
@[reducible] def asciiEnv (i128 imap : Bool) : Env where
  int128 := i128
  indexmap := imap
  xidStart c := isAsciiAlpha c
  xidCont c := isAsciiAlpha c || isDigit c || c == '_'
  escU c := c.toNat < 32
  fmt32 b := wfmt b.isNan b.isInf b.isNeg b.integral b.toNat
  fmt64 b := wfmt b.isNan b.isInf b.isNeg b.integral b.toNat
  parse32 := wparse32
  parse64 := wparse64
  narrow b := if b = F64.inf then F32.inf else if b = F64.negInf then F32.negInf else if b = F64.nan then F32.nan
    else if b = F64.negNan then F32.negNan else 0
  widen b := if b = F32.inf then F64.inf else if b = F32.negInf then F64.negInf else if b = F32.nan then F64.nan
    else if b = F32.negNan then F64.negNan else 0
  intF32 i := BitVec.ofInt 32 i
  intF64 i := BitVec.ofInt 64 i
  xidStart_ascii _ _ := rfl
  xidCont_ascii _ _ := rfl
  xidStart_cont c h := by simp [h]
  xidCont_ws c h := by
    rw [isWs_iff] at h
    simp only [ronWhitespace, List.map_cons, List.map_nil, List.mem_cons, List.not_mem_nil, or_false] at h
    rcases h with h | h | h | h | h | h | h | h | h | h | h <;> (subst h; decide)
  fmt32_finite b hn hi := by
    refine ⟨natText b.toNat, c!"5", ⟨natText_ne_nil _, natText_digit _⟩, ⟨by simp, by decide⟩, ?_⟩
    simp only [wfmt, hn, hi, Bool.false_eq_true, ↓reduceIte]
  fmt64_finite b hn hi := by
    refine ⟨natText b.toNat, c!"5", ⟨natText_ne_nil _, natText_digit _⟩, ⟨by simp, by decide⟩, ?_⟩
    simp only [wfmt, hn, hi, Bool.false_eq_true, ↓reduceIte]
  parse32_fmt b hn hi := by
    simp only [wfmt, hn, hi, Bool.false_eq_true, ↓reduceIte, List.append_assoc]
    rw [← List.append_assoc]
    generalize hu : (if b.integral = true then [] else c!".5") ++ (if b.integral = true then ['.', '0'] else []) = u
    have hu' : ∀ c r, u = c :: r → isDigit c = false := by
      intro c r h; rw [h] at hu
      split at hu <;> simp at hu <;> (obtain ⟨rfl, _⟩ := hu; decide)
    unfold wparse32
    rw [if_neg (special_ne _ _ _ _ (by simp; decide)),
      if_neg (special_ne _ _ _ _ (by simp; decide)),
      if_neg (special_ne _ _ _ _ (by simp; decide)),
      if_neg (special_ne _ _ _ _ (by simp; decide)),
      if_neg (special_ne _ _ _ _ (by simp; decide)),
      if_neg (special_ne _ _ _ _ (by simp; decide)), wnum_fmt _ _ _ hu']
    rw [if_neg (by simp [natText_ne_nil])]
    simp
  parse64_fmt b hn hi := by
    simp only [wfmt, hn, hi, Bool.false_eq_true, ↓reduceIte, List.append_assoc]
    rw [← List.append_assoc]
    generalize hu : (if b.integral = true then [] else c!".5") ++ (if b.integral = true then ['.', '0'] else []) = u
    have hu' : ∀ c r, u = c :: r → isDigit c = false := by
      intro c r h; rw [h] at hu
      split at hu <;> simp at hu <;> (obtain ⟨rfl, _⟩ := hu; decide)
    unfold wparse64
    rw [if_neg (special_ne _ _ _ _ (by simp; decide)),
      if_neg (special_ne _ _ _ _ (by simp; decide)),
      if_neg (special_ne _ _ _ _ (by simp; decide)),
      if_neg (special_ne _ _ _ _ (by simp; decide)),
      if_neg (special_ne _ _ _ _ (by simp; decide)),
      if_neg (special_ne _ _ _ _ (by simp; decide)), wnum_fmt _ _ _ hu']
    rw [if_neg (by simp [natText_ne_nil])]
    simp
  parse32_decimal sg ip fp h1 h2 h3 := by
    unfold wparse32
    repeat' split
    all_goals first | rfl | skip
    rename_i h
    simp at h
  parse64_decimal sg ip fp h1 h2 h3 := by
    unfold wparse64
    repeat' split
    all_goals first | rfl | skip
    rename_i h
    simp at h
  fmt32_nan b h := by simp [wfmt, h]
  fmt64_nan b h := by simp [wfmt, h]
  fmt32_inf := by decide
  fmt64_inf := by decide
  parse32_inf := by decide
  parse64_inf := by decide
  parse32_nan := by decide
  parse64_nan := by decide
  narrow_special := by decide
  widen_special := by decide

end Ron
