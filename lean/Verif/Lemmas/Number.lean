import Verif.Lemmas.Integer
/-! Lemmas about floats and `any_number`. -/

set_option linter.unusedSimpArgs false

namespace Ron

/-- Length of the float literal at the front: the run of float characters, cut at `..`. -/
def floatLen (t : Text) : Nat :=
  (findSub c!".." (t.takeWhile isFloatChar)).getD (t.takeWhile isFloatChar).length

theorem floatLen_stop {c : Char} {r : Text} (h : isFloatChar c = false) : floatLen (c :: r) = 0 := by
  simp [floatLen, h, findSub]

@[simp] theorem floatLen_nil : floatLen [] = 0 := by simp [floatLen, findSub]

theorem floatLen_dots (r : Text) : floatLen ('.' :: '.' :: r) = 0 := by
  have : isFloatChar '.' = true := by decide
  simp [floatLen, this, findSub]

theorem floatLen_cons {c : Char} {r : Text} (h : isFloatChar c = true) (hd : c ≠ '.') :
    floatLen (c :: r) = floatLen r + 1 := by
  have hs : startsWith (c :: List.takeWhile isFloatChar r) c!".." = false := by simp; intro h; exact absurd h.symm hd
  unfold floatLen
  rw [List.takeWhile_cons, if_pos h, findSub, if_neg (by simp [hs])]
  cases findSub c!".." (List.takeWhile isFloatChar r) <;> simp

theorem floatLen_dot {c : Char} {r : Text} (hd : c ≠ '.') :
    floatLen ('.' :: c :: r) = floatLen (c :: r) + 1 := by
  have h : isFloatChar '.' = true := by decide
  have hs : startsWith ('.' :: List.takeWhile isFloatChar (c :: r)) c!".." = false := by
    rw [List.takeWhile_cons]
    split
    · simp; intro h; exact absurd h.symm hd
    · simp
  unfold floatLen
  rw [List.takeWhile_cons (a := '.'), if_pos h, findSub, if_neg (by simp [hs])]
  cases findSub c!".." (List.takeWhile isFloatChar (c :: r)) <;> simp

theorem floatLen_run {a r : Text} (h : ∀ c ∈ a, isFloatChar c = true ∧ c ≠ '.') :
    floatLen (a ++ r) = a.length + floatLen r := by
  induction a with
  | nil => simp
  | cons c a ih =>
    rw [List.cons_append, floatLen_cons (h c (by simp)).1 (h c (by simp)).2, ih (fun x hx => h x (by simp [hx]))]
    simp; omega

theorem nextIsFloat_eq (c : Char) (r : Text) : nextIsFloat (c :: r) =
    (let u := if c == '+' || c == '-' then r else c :: r
     decide (floatLen u > whileLen isIntChar u)) := rfl

variable [Env]

/-- What may follow a number: nothing that continues an identifier, no `.`, `+`, `-` except a range operator `..`. -/
def NumFollow (r : Text) : Prop :=
  NoIdentStart r ∧ ∀ c r', r = c :: r' → (c ≠ '.' ∧ c ≠ '+' ∧ c ≠ '-') ∨ (∃ r'', r = '.' :: '.' :: r'')

omit [Env] in
theorem isFloatChar_cases {c : Char} (h : isFloatChar c = true) :
    isDigit c = true ∨ c = 'e' ∨ c = 'E' ∨ c = '.' ∨ c = '+' ∨ c = '-' ∨ c = '_' := by
  simp only [isFloatChar, Bool.or_eq_true, beq_iff_eq] at h
  rcases h with (((((h | h) | h) | h) | h) | h) | h <;> simp [h]

theorem digit_cont {c : Char} (h : isDigit c = true) : Env.xidCont c = true := xid_cont_ascii (by simp [h])

theorem NumFollow.floatLen {r : Text} (h : NumFollow r) : floatLen r = 0 := by
  cases r with
  | nil => simp
  | cons c r =>
    rcases h.2 c r rfl with ⟨h1, h2, h3⟩ | ⟨r'', hr⟩
    · apply floatLen_stop
      rw [Bool.eq_false_iff]; intro hf
      have hx := h.1 c r rfl
      rcases isFloatChar_cases hf with h | h | h | h | h | h | h
      · rw [digit_cont h] at hx; cases hx
      · subst h; rw [xid_cont_ascii (by decide)] at hx; cases hx
      · subst h; rw [xid_cont_ascii (by decide)] at hx; cases hx
      · exact h1 h
      · exact h2 h
      · exact h3 h
      · subst h; rw [xid_cont_ascii (by decide)] at hx; cases hx
    · rw [hr]; exact floatLen_dots _

omit [Env] in
theorem hexVal_digit {c : Char} {d : Nat} (h : hexVal c = some d) (hd : d < 10) : isDigit c = true := by
  unfold hexVal at h
  unfold isDigit
  simp only [Bool.and_eq_true, decide_eq_true_eq]
  split at h
  · assumption
  · split at h
    · cases h; omega
    · split at h
      · cases h; omega
      · cases h

omit [Env] in
theorem digit_float {c : Char} (h : isDigit c = true) : isFloatChar c = true ∧ c ≠ '.' := by
  refine ⟨by simp [isFloatChar, h], ?_⟩
  rintro rfl; revert h; decide

theorem tail_floatLen {sfx : Option IntTy} {r : Text} (hr : NumFollow r) : floatLen (suffixText sfx ++ r) = 0 := by
  cases sfx with
  | none => exact hr.floatLen
  | some t =>
    cases t <;> exact floatLen_stop (by decide)

/-- A literal does not look like a float. -/
theorem nextIsFloat_lit {l : IntLit} {r : Text} (hv : l.Valid) (hr : NumFollow r) :
    nextIsFloat (l.text ++ r) = false := by
  obtain ⟨sign, b, body, sfx⟩ := l
  unfold IntLit.Valid at hv
  simp only at hv
  have hlen : floatLen (b.pre ++ (body ++ (suffixText sfx ++ r))) ≤
      whileLen isIntChar (b.pre ++ (body ++ (suffixText sfx ++ r))) := by
    cases b with
    | bin =>
      show floatLen ('0' :: 'b' :: _) ≤ whileLen isIntChar ('0' :: 'b' :: _)
      rw [floatLen_cons (by decide) (by decide), floatLen_stop (by decide), whileLen_cons_true _ _ _ (by decide)]
      omega
    | oct =>
      show floatLen ('0' :: 'o' :: _) ≤ whileLen isIntChar ('0' :: 'o' :: _)
      rw [floatLen_cons (by decide) (by decide), floatLen_stop (by decide), whileLen_cons_true _ _ _ (by decide)]
      omega
    | hex =>
      show floatLen ('0' :: 'x' :: _) ≤ whileLen isIntChar ('0' :: 'x' :: _)
      rw [floatLen_cons (by decide) (by decide), floatLen_stop (by decide), whileLen_cons_true _ _ _ (by decide)]
      omega
    | dec =>
      show floatLen (body ++ _) ≤ whileLen isIntChar (body ++ _)
      rw [floatLen_run, tail_floatLen hr, whileLen_append _ _ _ hv.intChars]
      · omega
      · intro c hc
        rcases hv.2.2 c hc with rfl | ⟨d, hd, hlt⟩
        · decide
        · exact digit_float (hexVal_digit hd hlt)
  have hhead : ∃ c u, b.pre ++ (body ++ (suffixText sfx ++ r)) = c :: u ∧ c ≠ '+' ∧ c ≠ '-' := by
    cases b with
    | bin => exact ⟨_, _, rfl, by decide⟩
    | oct => exact ⟨_, _, rfl, by decide⟩
    | hex => exact ⟨_, _, rfl, by decide⟩
    | dec =>
      obtain ⟨c, b', hb', hd⟩ := hv.dec_head
      refine ⟨c, _, by rw [hb']; rfl, ?_⟩
      refine ⟨?_, ?_⟩ <;> (rintro rfl; revert hd; decide)
  have e : IntLit.text ⟨sign, b, body, sfx⟩ ++ r = sign.text ++ (b.pre ++ (body ++ (suffixText sfx ++ r))) := by
    simp [IntLit.text]
  rw [e]
  cases sign with
  | none =>
    obtain ⟨c, u, hcu, h1, h2⟩ := hhead
    show nextIsFloat (b.pre ++ (body ++ (suffixText sfx ++ r))) = false
    rw [hcu] at hlen ⊢
    rw [nextIsFloat_eq]
    simp only [beq_iff_eq, h1, h2, Bool.or_eq_true, or_self, ↓reduceIte]
    simpa using hlen
  | plus =>
    show nextIsFloat ('+' :: (b.pre ++ (body ++ (suffixText sfx ++ r)))) = false
    rw [nextIsFloat_eq]
    simpa using hlen
  | minus =>
    show nextIsFloat ('-' :: (b.pre ++ (body ++ (suffixText sfx ++ r)))) = false
    rw [nextIsFloat_eq]
    simpa using hlen

omit [Env] in
/-- A literal begins with a sign or a digit. -/
theorem IntLit.head {l : IntLit} (hv : l.Valid) :
    ∃ c u, l.text = c :: u ∧ (isDigit c = true ∨ c = '+' ∨ c = '-') := by
  obtain ⟨sign, b, body, sfx⟩ := l
  cases sign with
  | plus => exact ⟨_, _, rfl, by simp⟩
  | minus => exact ⟨_, _, rfl, by simp⟩
  | none =>
    cases b with
    | bin => exact ⟨_, _, rfl, by decide⟩
    | oct => exact ⟨_, _, rfl, by decide⟩
    | hex => exact ⟨_, _, rfl, by decide⟩
    | dec =>
      obtain ⟨c, b', hb', hd⟩ := ValidBody.dec_head hv
      refine ⟨c, b' ++ suffixText sfx, ?_, .inl hd⟩
      simp only [IntLit.text, LitSign.text, LitBase.pre, List.nil_append]
      rw [show body = c :: b' from hb']; rfl

theorem anyNumber_notSpecial {s : St} (hi : startsWith s.rest ['i'] = false) (hn : startsWith s.rest ['N'] = false) :
    anyNumber s = (do
      let s ← getSt
      if nextIsFloat s.rest then float .any
      else
        let backup ← cursor
        match ← attempt (integer .any) with
        | .ok (t, v) => pure (.int t v)
        | .error e =>
          let intCursor ← cursor
          setCursor backup
          match ← attempt (float .any) with
          | .ok v =>
            let s' ← getSt
            if s'.rest.length ≤ intCursor.rest.length then pure v
            else
              setCursor intCursor
              fail e
          | .error _ =>
            setCursor intCursor
            fail e : P Number) s := by
  have key : ∀ (c : Char) (t : Text), startsWith s.rest [c] = false → consumeIdent (c :: t) s = .ok false s := by
    intro c t h
    apply consumeIdent_false
    left
    cases hr : s.rest with
    | nil => rfl
    | cons d u =>
      rw [hr] at h
      simp at h
      simp [h]
  unfold anyNumber
  simp only [bind_apply, key 'i' _ hi, key 'N' _ hn, Bool.false_eq_true, ↓reduceIte]
  rfl

/-- `any_number` on an integer literal that is in range. -/
theorem anyNumber_lit {l : IntLit} {r : Text} {s : St} (hs : s.rest = l.text ++ r) (hv : l.Valid)
    (hr : NumFollow r) (ha : ∀ t, l.suffix = some t → t.Avail)
    (hin : (litType .any (decide (l.sign = .minus)) l.suffix).InRange l.value) :
    RunsW anyNumber s (match l.suffix with
      | none => .int (if l.sign = .minus then smallestS l.value else smallestU l.value) l.value
      | some t => .int t l.value) r := by
  obtain ⟨c, u, hcu, hc⟩ := IntLit.head hv
  have hh : ∀ x : Char, x = 'i' ∨ x = 'N' → startsWith s.rest [x] = false := by
    intro x hx
    rw [hs, hcu]
    rcases hc with hc | hc | hc
    · rcases hx with rfl | rfl <;> simp <;> (rintro rfl; revert hc; decide)
    · subst hc; rcases hx with rfl | rfl <;> simp
    · subst hc; rcases hx with rfl | rfl <;> simp
  rw [RunsW, anyNumber_notSpecial (hh 'i' (by simp)) (hh 'N' (by simp))]
  obtain ⟨p, hp⟩ := integer_lit (tg := .any) hs hv hr.1 ha
  rw [if_pos hin] at hp
  have hnf := nextIsFloat_lit hv hr
  rw [← hs] at hnf
  refine ⟨{ s with prev := p, rest := r }, ?_, rfl, KeepsW.step _ _ _⟩
  simp only [bind_apply, getSt_apply, ite_P, hnf, Bool.false_eq_true, ↓reduceIte, cursor_apply, attempt_apply]
  rw [hp]
  cases hsf : l.suffix with
  | none =>
    simp only [intResult, pure_apply]
    by_cases h : l.sign = .minus <;> simp [h]
  | some t => simp [IntTarget.tryFrom]

end Ron
