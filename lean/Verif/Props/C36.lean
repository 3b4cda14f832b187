import Verif.Lemmas.Write
import Verif.Lemmas.Layout
/-!
# C36: the pretty configuration cannot inject syntax
-/

set_option linter.unusedSimpArgs false

namespace Ron

variable [Env]

/-- Specification: only RON white space in the three configurable texts. -/
def PrettyConfig.Blank (c : PrettyConfig) : Prop :=
  (∀ x ∈ c.newLine, x ∈ ronWhitespace) ∧ (∀ x ∈ c.indentor, x ∈ ronWhitespace) ∧ (∀ x ∈ c.separator, x ∈ ronWhitespace)

omit [Env] in
theorem all_isWs_iff (t : Text) : t.all isWs = true ↔ ∀ x ∈ t, x ∈ ronWhitespace := by
  simp only [List.all_eq_true, isWs_iff]

/-- A configuration with any other character is refused before anything reaches the writer, whatever the data, the
options and the writer. -/
theorem C36_refused (o : Options) (c : PrettyConfig) (w : Writer) (v : SVal) (h : ¬ c.Blank) :
    ∃ m s, toWriter o (some c) w v = .err (.message m) s ∧ s.w = w := by
  unfold toWriter serNew
  simp only [wbind_apply, wget_apply, Ser.init, Option.map_some]
  by_cases h1 : c.newLine.all isWs = true
  · by_cases h2 : c.indentor.all isWs = true
    · have h3 : c.separator.all isWs = false := by
        apply Bool.eq_false_iff.mpr
        intro h3
        exact h ⟨(all_isWs_iff _).mp h1, (all_isWs_iff _).mp h2, (all_isWs_iff _).mp h3⟩
      simp only [h1, h2, h3, Bool.not_true, Bool.not_false, Bool.false_eq_true, ↓reduceIte]
      exact ⟨_, _, rfl, rfl⟩
    · simp only [h1, h2, Bool.not_true, Bool.not_false, Bool.false_eq_true, ↓reduceIte]
      exact ⟨_, _, rfl, rfl⟩
  · simp only [h1, Bool.not_true, Bool.not_false, Bool.false_eq_true, ↓reduceIte]
    exact ⟨_, _, rfl, rfl⟩

omit [Env] in
/-- The text of the header. -/
def headerText (names : List Text) (newLine : Text) : Text :=
  names.flatMap fun n => c!"#![enable(" ++ n ++ c!")]" ++ newLine

omit [Env] in
theorem header_quiet (names : List Text) (nl : Text) {s : Ser} (h : s.Quiet) :
    header names nl s = .ok () (s.put (headerText names nl)) := by
  induction names generalizing s with
  | nil => simp [header, headerText, Ser.put_nil]
  | cons n ns ih =>
    rw [header]
    simp only [wbind_apply, write_quiet h, write_quiet (h.put _)]
    rw [ih ((h.put _).put _)]
    simp [headerText, Ser.put_put]

omit [Env] in
theorem serNew_quiet {s : Ser} (hq : s.Quiet) (hb : ∀ c i, s.pretty = some (c, i) → c.Blank) :
    serNew s = .ok () (s.put (match s.pretty with
      | some (c, _) => headerText (s.defaultExtensions.compl.inter c.extensions).names c.newLine
      | none => [])) := by
  unfold serNew
  simp only [wbind_apply, wget_apply]
  cases hp : s.pretty with
  | none => simp [Ser.put_nil]
  | some p =>
    obtain ⟨c, i⟩ := p
    obtain ⟨h1, h2, h3⟩ := hb c i hp
    simp only [(all_isWs_iff _).mpr h1, (all_isWs_iff _).mpr h2, (all_isWs_iff _).mpr h3, Bool.not_true,
      Bool.false_eq_true, ↓reduceIte]
    exact header_quiet _ _ hq

/-- Every other configuration is accepted, and serialization goes on with the data. -/
theorem C36_accepted (o : Options) (c : PrettyConfig) (v : SVal) (h : c.Blank) :
    ∃ s, serNew (Ser.init o (some c) {}) = .ok () s ∧ s.pretty = some (c, 0) ∧ s.Quiet ∧
      toWriter o (some c) {} v = ser v s := by
  have h0 := serNew_quiet (s := Ser.init o (some c) {}) rfl (by
    intro c' i e
    simp only [Ser.init, Option.map_some, Option.some.injEq, Prod.mk.injEq] at e
    rw [← e.1]; exact h)
  refine ⟨_, h0, rfl, rfl, ?_⟩
  unfold toWriter
  rw [wbind_apply, h0]

/-- Non-vacuity: the default configuration is accepted, one with a comment as separator is not. -/
example : ({} : PrettyConfig).Blank ∧ ¬ ({ separator := c!"/**/" } : PrettyConfig).Blank := by
  constructor
  · refine ⟨?_, ?_, ?_⟩ <;> intro x hx <;> simp at hx <;> subst hx <;> decide
  · intro h
    have := h.2.2 '/' (by simp)
    revert this; decide

end Ron
