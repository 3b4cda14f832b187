import Verif.Lemmas.Layout
/-!
# C02: block comments nest and are closed by the matching delimiter
-/

namespace Ron

/-- A balanced block comment is consumed exactly up to its matching `*/`. -/
theorem C02_balanced_comment (s : St) (b r : Text) (hs : s.rest = c!"/*" ++ b ++ r) (hb : BlockTail 1 b) :
    ∃ s', skipComment s = .ok (some .block) s' ∧ s'.rest = r := by
  obtain ⟨s', h1, h2, -⟩ := skipComment_block (s := s) (b := b) (r := r) (by simpa using hs) hb
  exact ⟨s', h1, h2⟩

/-- A comment is accepted only if it is balanced, and only its balanced text is consumed. -/
theorem C02_accepted_is_balanced (s s' : St) (t : Text) (c : Option Comment) (hs : s.rest = c!"/*" ++ t)
    (h : skipComment s = .ok c s') : ∃ b, t = b ++ s'.rest ∧ BlockTail 1 b := by
  rcases skipComment_cases s with ⟨h1, _⟩ | ⟨_, _, e, _⟩ | ⟨_, e, _⟩ | ⟨b, r, e, hb, s1, g1, g2, _⟩ |
      ⟨_, _, _, s1, g⟩ | ⟨_, s1, g⟩ | ⟨_, _, _, _, _, s1, g⟩
  · rw [hs] at h1; simp at h1
  · rw [hs] at e; simp at e
  · rw [hs] at e; simp at e
  · rw [g1] at h; cases h
    rw [hs] at e
    simp only [List.cons_append, List.nil_append, List.cons.injEq, true_and] at e
    exact ⟨b, by rw [g2]; exact e, hb⟩
  · rw [g] at h; cases h
  · rw [g] at h; cases h
  · rw [g] at h; cases h

/-- A comment that is never balanced is rejected with `UnclosedBlockComment`, wherever layout is skipped. -/
theorem C02_unbalanced_rejected (s : St) (l t : Text) (hs : s.rest = l ++ c!"/*" ++ t) (hl : Layout l)
    (ht : ∀ b r, t = b ++ r → ¬ BlockTail 1 b) : ∃ s', skipWs s = .err .unclosedBlockComment s' := by
  have hs' : s.rest = l ++ '/' :: '*' :: t := by simpa using hs
  exact skipWs_error hs' hl (.inl ⟨t, rfl, ht, rfl⟩)

/-- The end of a comment is unique: a text has at most one balanced prefix. -/
theorem C02_end_unique (b b' r r' : Text) (hb : BlockTail 1 b) (hb' : BlockTail 1 b') (h : b ++ r = b' ++ r') :
    b = b' ∧ r = r' := hb.unique hb' h

/-- Non-vacuity: a comment of depth two, and an unbalanced one. -/
example : BlockTail 1 c!"/**/*/" ∧ (∀ b r, c!"a/*" = b ++ r → ¬ BlockTail 1 b) := by
  refine ⟨.opens (.closes (.closes .done)), ?_⟩
  intro b r h hb
  cases hb with
  | opens => simp at h
  | closes => simp at h
  | other _ _ hb =>
    cases hb with
    | opens hb =>
      cases hb <;> simp at h
    | closes => simp at h
    | other h1 _ hb =>
      cases hb with
      | opens => simp at h
      | closes => simp at h
      | other _ _ hb =>
        cases hb <;> simp at h

end Ron
