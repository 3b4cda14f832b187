import Verif.Model.Parser
/-! Helper lemmas about the parser monad and its primitives. -/

namespace Ron

@[simp] theorem bind_apply {α β : Type} (f : P α) (g : α → P β) (s : St) :
    (f >>= g) s = match f s with | .ok a s' => g a s' | .err e s' => .err e s' := rfl

@[simp] theorem pure_apply {α : Type} (a : α) (s : St) : (pure a : P α) s = .ok a s := rfl
@[simp] theorem fail_apply {α : Type} (e : Err) (s : St) : (fail e : P α) s = .err e s := rfl
@[simp] theorem getSt_apply (s : St) : getSt s = .ok s s := rfl
@[simp] theorem modSt_apply (f : St → St) (s : St) : modSt f s = .ok () (f s) := rfl
@[simp] theorem cursor_apply (s : St) : cursor s = .ok ⟨s.rest, s.preWs, s.lastWs⟩ s := rfl
@[simp] theorem setCursor_apply (c : Cur) (s : St) :
    setCursor c s = .ok () { s with rest := c.rest, preWs := c.preWs, lastWs := c.lastWs } := rfl
@[simp] theorem advance_apply (n : Nat) (s : St) : advance n s =
    if n ≤ s.rest.length then .ok () { s with prev := s.rest, rest := s.rest.drop n } else .err .panic s := rfl
theorem advance_ok {n : Nat} {s : St} (h : n ≤ s.rest.length) :
    advance n s = .ok () { s with prev := s.rest, rest := s.rest.drop n } := by unfold advance; exact if_pos h
@[simp] theorem skipNextChar_apply (s : St) : skipNextChar s = .ok () { s with rest := s.rest.drop 1 } := rfl
@[simp] theorem peekChar_apply (s : St) : peekChar s = .ok s.rest.head? s := rfl
@[simp] theorem checkStr_apply (t : Text) (s : St) : checkStr t s = .ok (startsWith s.rest t) s := rfl
@[simp] theorem checkChar_apply (c : Char) (s : St) : checkChar c s = .ok (startsWith s.rest [c]) s := rfl
theorem consumeStr_apply (t : Text) (s : St) : consumeStr t s =
    if startsWith s.rest t then .ok true { s with prev := s.rest, rest := s.rest.drop t.length }
    else .ok false s := rfl
theorem consumeChar_apply (c : Char) (s : St) : consumeChar c s =
    if startsWith s.rest [c] then .ok true { s with prev := s.rest, rest := s.rest.drop 1 }
    else .ok false s := rfl
@[simp] theorem attempt_apply {α : Type} (f : P α) (s : St) : attempt f s =
    match f s with | .ok a s' => .ok (.ok a) s' | .err e s' => .ok (.error e) s' := rfl
@[simp] theorem mapErr_apply {α : Type} (g : Err → Err) (f : P α) (s : St) : mapErr g f s =
    match f s with | .ok a s' => .ok a s' | .err e s' => .err (g e) s' := rfl
@[simp] theorem ite_P {α : Type} (c : Prop) [Decidable c] (f g : P α) (s : St) :
    (if c then f else g) s = if c then f s else g s := by split <;> rfl

@[simp] theorem startsWith_nil_right (t : Text) : startsWith t [] = true := by simp [startsWith]
@[simp] theorem startsWith_nil_cons (c : Char) (p : Text) : startsWith [] (c :: p) = false := by simp [startsWith]
@[simp] theorem startsWith_cons (c d : Char) (t p : Text) :
    startsWith (c :: t) (d :: p) = (d == c && startsWith t p) := rfl
@[simp] theorem startsWith_append (p r : Text) : startsWith (p ++ r) p = true := by
  simp [startsWith]

theorem startsWith_iff (t p : Text) : startsWith t p = true ↔ ∃ r, t = p ++ r := by
  unfold startsWith
  rw [List.isPrefixOf_iff_prefix]
  exact ⟨fun ⟨r, h⟩ => ⟨r, h.symm⟩, fun ⟨r, h⟩ => ⟨r, h.symm⟩⟩

theorem consumeStr_true {t : Text} {s : St} (h : startsWith s.rest t = true) :
    consumeStr t s = .ok true { s with prev := s.rest, rest := s.rest.drop t.length } := by
  rw [consumeStr_apply, if_pos h]
theorem consumeStr_false {t : Text} {s : St} (h : startsWith s.rest t = false) : consumeStr t s = .ok false s := by
  rw [consumeStr_apply, if_neg (by simp [h])]
theorem consumeChar_true {c : Char} {s : St} {r : Text} (h : s.rest = c :: r) :
    consumeChar c s = .ok true { s with prev := s.rest, rest := r } := by
  rw [consumeChar_apply, if_pos (by simp [h])]; simp [h]
theorem consumeChar_false {c : Char} {s : St} (h : startsWith s.rest [c] = false) :
    consumeChar c s = .ok false s := by
  rw [consumeChar_apply, if_neg (by simp [h])]

theorem len_le_append (a b : Text) : a.length ≤ (a ++ b).length := by simp

theorem startsWith_le {t p : Text} (h : startsWith t p = true) : p.length ≤ t.length := by
  unfold startsWith at h
  exact (List.isPrefixOf_iff_prefix.mp h).length_le

/-- An occurrence lies in the text. -/
theorem findSub_le {pat : Text} : ∀ {t : Text} {i : Nat}, findSub pat t = some i → i + pat.length ≤ t.length := by
  intro t
  induction t with
  | nil =>
    intro i h
    unfold findSub at h
    split at h
    · rename_i hp
      rw [List.isEmpty_iff] at hp
      cases h
      simp [hp]
    · cases h
  | cons c r ih =>
    intro i h
    unfold findSub at h
    split at h
    · rename_i hp
      cases h
      simpa using startsWith_le hp
    · cases hf : findSub pat r with
      | none => rw [hf] at h; cases h
      | some j =>
        rw [hf] at h
        cases h
        have := ih hf
        simp only [List.length_cons]
        omega

/-- The offending underscore lies in the text. -/
theorem floatStrip_lt : ∀ (t : Text) (i : Nat) (a : Bool) (j : Nat), floatStrip t i a = .error j → j < i + t.length := by
  intro t
  induction t with
  | nil => intro i a j h; cases h
  | cons c r ih =>
    intro i a j h
    unfold floatStrip at h
    simp only [List.length_cons]
    split at h
    · split at h
      · have := ih _ _ _ h; omega
      · cases h; omega
    · dsimp only at h
      generalize hu : floatStrip r (i + 1) _ = u at h
      cases u with
      | ok f => cases h
      | error k =>
        cases h
        have := ih _ _ _ hu
        omega

/-- `whileLen` on a run followed by a stopper. -/
theorem whileLen_append (f : Char → Bool) (a r : Text) (ha : ∀ c ∈ a, f c = true) :
    whileLen f (a ++ r) = a.length + whileLen f r := by
  unfold whileLen
  rw [List.takeWhile_append_of_pos (by simpa using ha)]; simp

theorem whileLen_cons_false (f : Char → Bool) (c : Char) (r : Text) (h : f c = false) :
    whileLen f (c :: r) = 0 := by simp [whileLen, h]

theorem whileLen_cons_true (f : Char → Bool) (c : Char) (r : Text) (h : f c = true) :
    whileLen f (c :: r) = whileLen f r + 1 := by simp [whileLen, h]

@[simp] theorem whileLen_nil (f : Char → Bool) : whileLen f [] = 0 := rfl

theorem take_whileLen (f : Char → Bool) (t : Text) : t.take (whileLen f t) = t.takeWhile f := by
  induction t with
  | nil => rfl
  | cons c t ih =>
    unfold whileLen at *
    by_cases h : f c <;> simp [h, ih]

theorem drop_whileLen (f : Char → Bool) (t : Text) : t.drop (whileLen f t) = t.dropWhile f := by
  induction t with
  | nil => rfl
  | cons c t ih =>
    unfold whileLen at *
    by_cases h : f c <;> simp [h, ih]

@[simp] theorem whileLen_le (f : Char → Bool) (t : Text) : whileLen f t ≤ t.length := by
  unfold whileLen; exact (List.takeWhile_sublist f).length_le

/-- A text splits at the end of its longest run. -/
theorem whileLen_split (f : Char → Bool) (t : Text) :
    ∃ a r, t = a ++ r ∧ (∀ c ∈ a, f c = true) ∧ whileLen f t = a.length ∧
      (∀ c r', r = c :: r' → f c = false) := by
  refine ⟨t.takeWhile f, t.dropWhile f, (List.takeWhile_append_dropWhile).symm, ?_, rfl, ?_⟩
  · intro c hc; exact List.all_eq_true.mp (List.all_takeWhile) c hc
  · intro c r' h
    have := List.head?_dropWhile_not f t
    rw [h] at this; simpa using this

end Ron
