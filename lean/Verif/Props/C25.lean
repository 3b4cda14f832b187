import Verif.Model.Parser
/-!
# C25: error positions count lines and columns of the source
-/

namespace Ron

/-- Specification: reading one character moves a position. -/
def Position.step (p : Position) (c : Char) : Position :=
  if c = '\n' then ⟨p.line + 1, 1⟩ else ⟨p.line, p.col + 1⟩

/-- Specification: the position after reading a text from the start. -/
def Position.after (t : Text) : Position := t.foldl Position.step ⟨1, 1⟩

/-- The reported position is the one a reader counting lines and columns is at. -/
theorem C25_counts (t : Text) : Position.fromSrcEnd t = Position.after t := by
  have h : ∀ u : Text, Position.fromSrcEnd u.reverse = Position.after u.reverse := by
    intro u
    induction u with
    | nil => rfl
    | cons c u ih =>
      rw [List.reverse_cons]
      unfold Position.after at *
      rw [List.foldl_append, ← ih]
      simp only [List.foldl_cons, List.foldl_nil, Position.fromSrcEnd, Position.step, List.filter_append,
        List.reverse_append, List.reverse_cons, List.reverse_nil, List.nil_append, List.reverse_reverse,
        List.cons_append]
      by_cases hc : c = '\n'
      · subst hc; simp; omega
      · simp [hc]; omega
  have := h t.reverse
  simpa using this

/-- The line is one plus the number of newlines, the column one plus the number of characters after the last one. -/
theorem C25_line_column (a b : Text) (hb : '\n' ∉ b) :
    Position.fromSrcEnd b = ⟨1, 1 + b.length⟩ ∧
    Position.fromSrcEnd (a ++ '\n' :: b) = ⟨2 + a.count '\n', 1 + b.length⟩ := by
  have hf : b.filter (· == '\n') = [] := by
    rw [List.filter_eq_nil_iff]
    intro c hc
    simp only [beq_iff_eq]; rintro rfl; exact hb hc
  have ht : ∀ r : Text, (b.reverse ++ '\n' :: r).takeWhile (· != '\n') = b.reverse := by
    intro r
    rw [List.takeWhile_append_of_pos]
    · simp
    · intro c hc
      simp only [bne_iff_ne]; rintro rfl; exact hb (by simpa using hc)
  have ht' : b.reverse.takeWhile (· != '\n') = b.reverse := by
    have := List.takeWhile_append_of_pos (p := (· != '\n')) (l₁ := b.reverse) (l₂ := []) (by
      intro c hc
      simp only [bne_iff_ne]; rintro rfl; exact hb (by simpa using hc))
    simpa using this
  constructor
  · simp [Position.fromSrcEnd, hf, ht']
  · simp [Position.fromSrcEnd, hf, ht, List.count_eq_length_filter]; omega

/-- Order of positions in a text. -/
def Position.Lt (p q : Position) : Prop := p.line < q.line ∨ (p.line = q.line ∧ p.col < q.col)

theorem Position.Lt.trans {p q r : Position} (h : p.Lt q) (g : q.Lt r) : p.Lt r := by
  unfold Position.Lt at *; omega

theorem Position.Lt.step (p : Position) (c : Char) : p.Lt (p.step c) := by
  unfold Position.Lt Position.step
  split
  · left; show p.line < p.line + 1; omega
  · right; exact ⟨rfl, Nat.lt_succ_self _⟩

/-- Positions grow strictly along the source. -/
theorem C25_increasing (a b : Text) (hb : b ≠ []) : (Position.fromSrcEnd a).Lt (Position.fromSrcEnd (a ++ b)) := by
  rw [C25_counts, C25_counts]
  unfold Position.after
  rw [List.foldl_append]
  generalize a.foldl Position.step ⟨1, 1⟩ = p
  induction b generalizing p with
  | nil => exact absurd rfl hb
  | cons c b ih =>
    rw [List.foldl_cons]
    by_cases h : b = []
    · subst h; exact .step p c
    · exact (Position.Lt.step p c).trans (ih h _)

/-- A position identifies one place of the source. -/
theorem C25_unique (src p q : Text) (hp : p <+: src) (hq : q <+: src)
    (h : Position.fromSrcEnd p = Position.fromSrcEnd q) : p = q := by
  have key : ∀ p q : Text, p <+: q → Position.fromSrcEnd p = Position.fromSrcEnd q → p = q := by
    rintro p _ ⟨t, rfl⟩ h
    by_cases ht : t = []
    · simp [ht]
    · have := C25_increasing p t ht
      rw [← h] at this
      unfold Position.Lt at this; omega
  rcases List.prefix_or_prefix_of_prefix hp hq with h' | h'
  · exact key _ _ h' h
  · exact (key _ _ h' h.symm).symm

/-- Non-vacuity: a newline in the middle. -/
example : Position.fromSrcEnd c!"ab\ncde" = ⟨2, 4⟩ ∧ Position.after c!"ab\ncde" = ⟨2, 4⟩ := by decide

end Ron
