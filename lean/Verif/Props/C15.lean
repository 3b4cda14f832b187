import Verif.Lemmas.SafeDoc
import Verif.Lemmas.Eat
import Verif.Lemmas.Deq
/-!
# C15: no trailing input is ignored
-/

namespace Ron

/-- Layout up to the end of the input: the last line comment need not be closed. -/
def OnlyLayout (t : Text) : Prop := ∃ l u, t = l ++ u ∧ Layout l ∧ (u = [] ∨ OpenLine u)

theorem OnlyLayout.not_token {t l r : Text} {c : Char} (h : OnlyLayout t) (hl : Layout l) (ht : t = l ++ c :: r)
    (hc : NoLayoutStart (c :: r)) : False := by
  obtain ⟨l', u, e, hl', rfl | hu⟩ := h
  · obtain ⟨-, h⟩ := layout_unique hl hl' (.inl hc) (.inl (by intro c r h; cases h)) (ht.symm.trans e)
    cases h
  · obtain ⟨-, rfl⟩ := layout_unique hl hl' (.inl hc) (.inr (.inl hu)) (ht.symm.trans e)
    obtain ⟨b, hb, -⟩ := hu
    exact (hc _ _ hb).2 rfl

/-- `Deserializer::end` succeeds exactly if only layout remains. -/
theorem C15_end (s : St) : (∃ s', deEnd s = .ok () s') ↔ OnlyLayout s.rest := by
  have hd : ∀ s1, skipWs s = .ok () s1 → deEnd s = if s1.rest.isEmpty then .ok () s1 else .err .trailingCharacters s1 := by
    intro s1 h1
    unfold deEnd
    simp only [bind_apply, h1, getSt_apply, ite_P, pure_apply]
    rfl
  rcases skipWs_cases s with ⟨l, r, e, hl, hr, s1, h1, h2, -⟩ | ⟨l, u, e, hl, hu, s1, h1, h2, -, -⟩ | ⟨l, u, x, e, hl, hu, s1, h1⟩
  · rw [hd s1 h1, h2]
    cases r with
    | nil => simp only [List.isEmpty_nil, ↓reduceIte]; exact ⟨fun _ => ⟨l, [], e, hl, .inl rfl⟩, fun _ => ⟨s1, rfl⟩⟩
    | cons c r =>
      simp only [List.isEmpty_cons, Bool.false_eq_true, ↓reduceIte]
      exact ⟨(fun ⟨_, h⟩ => nomatch h), fun h => (OnlyLayout.not_token h hl e hr).elim⟩
  · rw [hd s1 h1, h2]
    exact ⟨fun _ => ⟨l, u, e, hl, .inr hu⟩, fun _ => ⟨s1, rfl⟩⟩
  · refine ⟨fun ⟨s', h⟩ => ?_, fun ⟨l', u', e', hl', h⟩ => ?_⟩
    · unfold deEnd at h
      rw [bind_apply, h1] at h
      cases h
    · rcases h with rfl | h
      · obtain ⟨-, rfl⟩ := layout_unique hl hl' (.inr (.inr ⟨x, hu⟩)) (.inl (by intro c r h; cases h)) (e.symm.trans e')
        obtain ⟨t, ht⟩ := hu.slash
        cases ht
      · obtain ⟨-, rfl⟩ := layout_unique hl hl' (.inr (.inr ⟨x, hu⟩)) (.inr (.inl h)) (e.symm.trans e')
        exact (h.not_error hu).elim

variable [Env]

/-- `from_str` with any seed succeeds exactly if the document opens, the seed succeeds and the seed leaves nothing but layout. -/
theorem C15 {α : Type} (o : Options) (f : P α) (t : Text) (v : α) : fromStr o f t = .ok v ↔
    ∃ s1 s2, deNew o (St.init t) = .ok () s1 ∧ f s1 = .ok v s2 ∧ OnlyLayout s2.rest := by
  unfold fromStr readDoc
  rw [bind_apply]
  cases h1 : deNew o (St.init t) with
  | err e s => exact ⟨(fun h => nomatch h), fun ⟨_, _, h, _⟩ => nomatch h⟩
  | ok _ s1 =>
    simp only [bind_apply]
    cases h2 : f s1 with
    | err e s => exact ⟨(fun h => nomatch h), fun ⟨s1', _, h, h', _⟩ => by cases h; rw [h2] at h'; cases h'⟩
    | ok a s2 =>
      simp only
      have he := C15_end s2
      cases h3 : deEnd s2 with
      | err e s =>
        refine ⟨(fun h => nomatch h), fun ⟨s1', s2', h, h', h''⟩ => ?_⟩
        cases h
        rw [h2] at h'
        cases h'
        obtain ⟨s', h⟩ := he.mpr h''
        rw [h3] at h
        cases h
      | ok u s3 =>
        have hl := he.mp ⟨s3, h3⟩
        refine ⟨fun h => ?_, fun ⟨s1', s2', h, h', h''⟩ => ?_⟩
        · cases h
          exact ⟨s1, s2, rfl, h2, hl⟩
        · cases h
          rw [h2] at h'
          cases h'
          rfl

/-- Anything else after the value is an error: if the seed stops before layout and then a token (anything that is neither
white space nor a comment), `from_str` fails with `TrailingCharacters`. -/
theorem C15_trailing {α : Type} (o : Options) (f : P α) (t : Text) (v : α) (s1 s2 : St) (l : Text) (c : Char) (r : Text)
    (h1 : deNew o (St.init t) = .ok () s1) (h2 : f s1 = .ok v s2) (hr : s2.rest = l ++ c :: r) (hl : Layout l)
    (hc : NoLayoutStart (c :: r)) : ∃ sp, fromStr o f t = .error (.trailingCharacters, sp) := by
  obtain ⟨s3, h3, h4, -⟩ := skipWs_ok hr hl hc
  have : deEnd s2 = .err .trailingCharacters s3 := by
    unfold deEnd
    simp only [bind_apply, h3, getSt_apply, ite_P, h4]
    rfl
  unfold fromStr readDoc
  simp only [bind_apply, h1, h2, this]
  exact ⟨_, rfl⟩

/-- For self-describing and for typed data the text splits into what was read, which is not empty, and the layout at the end. -/
theorem C15_split (o : Options) (T : Ty) (D : Nat → Ty) (n : Nat) :
    (∀ t v, fromStr o deValue t = .ok v → ∃ a b, t = a ++ b ∧ a ≠ [] ∧ OnlyLayout b) ∧
    (∀ t v, fromStr o (deTy D n T) t = .ok v → ∃ a b, t = a ++ b ∧ a ≠ [] ∧ OnlyLayout b) := by
  have key : ∀ {α : Type} {f : P α}, Fd true f → ∀ t v, fromStr o f t = .ok v → ∃ a b, t = a ++ b ∧ a ≠ [] ∧ OnlyLayout b := by
    intro α f hf t v h
    obtain ⟨s1, s2, h1, h2, h3⟩ := (C15 o f t v).mp h
    have hn := deNew_out o t
    rw [h1] at hn
    have he := hf.eat s1 hn.1 hn.2.2.2
    rw [h2] at he
    obtain ⟨x, hx⟩ := he.rest
    obtain ⟨y, hy⟩ := hn.1.rest
    refine ⟨y ++ x, s2.rest, ?_, ?_, h3⟩
    · rw [List.append_assoc, hx, hy, hn.2.1]
    · intro h0
      have : x = [] := (List.append_eq_nil_iff.mp h0).2
      subst this
      have := he.lt rfl
      rw [← hx] at this
      simp at this
  exact ⟨key deValue_Fd, key (deTy_Fd D n T)⟩

/-- Non-vacuity: layout and a comment without end after the value are fine; a second value is not, nor is a stray bracket. -/
example : let _ := asciiEnv true true
    fromStr {} deValue c!"true /* a */ // b" = .ok (.bool true) ∧
    (fromStr {} deValue c!"true /* a */ false").isOk = false ∧ (fromStr {} deValue c!"[true]]").isOk = false ∧
    (fromStr {} deValue c!"true/").isOk = false := by
  refine ⟨?_, ?_, ?_, ?_⟩ <;> decide +kernel

end Ron
