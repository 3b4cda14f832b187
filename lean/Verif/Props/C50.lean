import Verif.Model.Span
import Verif.Props.C25
import Verif.Props.C26
import Verif.Lemmas.Deq
import Verif.Lemmas.Witness
/-!
# C50: the substring that a span selects

`gs` are the graphemes of the text (external code).  A span of an error selects the text between its ends if the ends are in order and
the graphemes before them are single characters or `\r\n`.  Otherwise the claim is false, hence `_partial`: positions of errors count
characters, but positions are looked up counting graphemes (`C50_grapheme_fails`), and ends out of order (C26) are a panic
(`C50_order_fails`), as is the inclusive substring of an error at the end of the text (`C50_end_fails`).
-/

namespace Ron

/-- Specification: passing one grapheme moves a position. -/
def Position.pass (p : Position) (g : Text) : Position :=
  if g = c!"\n" ∨ g = c!"\r\n" then ⟨p.line + 1, 1⟩ else ⟨p.line, p.col + 1⟩

/-- Specification: the position after graphemes. -/
def Position.afterG (gs : List Text) : Position := gs.foldl Position.pass ⟨1, 1⟩

theorem Position.Lt.pass (p : Position) (g : Text) : p.Lt (p.pass g) := by
  unfold Position.Lt Position.pass
  split
  · left; show p.line < p.line + 1; omega
  · right; exact ⟨rfl, Nat.lt_succ_self _⟩

theorem foldl_pass_lt (p : Position) : ∀ (gs : List Text), gs ≠ [] → p.Lt (gs.foldl Position.pass p)
  | [], h => absurd rfl h
  | [g], _ => .pass p g
  | g :: g' :: gs, _ => (Position.Lt.pass p g).trans (foldl_pass_lt (p.pass g) (g' :: gs) (by simp))

theorem Position.Lt.irrefl {p : Position} (h : p.Lt p) : False := by
  unfold Position.Lt at h; omega

theorem graphemeLoop_iff (p : Position) : ∀ (gs : List Text) (k : Nat) (q : Position) (i : Nat),
    graphemeLoop p gs k q = some i ↔ ∃ j, i = k + j ∧ j ≤ gs.length ∧ (gs.take j).foldl Position.pass q = p
  | [], k, q, i => by
    unfold graphemeLoop
    constructor
    · intro h
      split at h
      · rename_i hq
        cases h
        exact ⟨0, rfl, Nat.le_refl _, hq⟩
      · cases h
    · rintro ⟨j, rfl, hj, h⟩
      obtain rfl : j = 0 := by simpa using hj
      simp only [List.take_nil, List.foldl_nil] at h
      simp [h]
  | g :: gs, k, q, i => by
    unfold graphemeLoop
    constructor
    · intro h
      split at h
      · rename_i hq
        cases h
        exact ⟨0, rfl, Nat.zero_le _, hq⟩
      · obtain ⟨j, rfl, hj, h⟩ := (graphemeLoop_iff p gs (k + 1) _ i).mp h
        exact ⟨j + 1, by omega, by simp; omega, h⟩
    · rintro ⟨j, rfl, hj, h⟩
      cases j with
      | zero => simp only [List.take_zero, List.foldl_nil] at h; simp [h]
      | succ j =>
        have hlt : q.Lt p := by
          rw [← h]
          exact foldl_pass_lt q _ (by simp)
        rw [if_neg (by rintro rfl; exact hlt.irrefl)]
        exact (graphemeLoop_iff p gs (k + 1) _ _).mpr ⟨j, by omega, by simpa using hj, h⟩

/-- A position is found at `i` exactly if it is the position after the first `i` graphemes. -/
theorem C50_index (p : Position) (gs : List Text) (i : Nat) :
    p.graphemeIndex gs = some i ↔ i ≤ gs.length ∧ Position.afterG (gs.take i) = p := by
  unfold Position.graphemeIndex
  split
  · rename_i hp
    subst hp
    constructor
    · intro h
      cases h
      exact ⟨Nat.zero_le _, by simp [Position.afterG]⟩
    · rintro ⟨h1, h2⟩
      cases i with
      | zero => rfl
      | succ i =>
        exfalso
        cases gs with
        | nil => simp at h1
        | cons g gs =>
          have := foldl_pass_lt ⟨1, 1⟩ ((g :: gs).take (i + 1)) (by simp)
          unfold Position.afterG at h2
          rw [h2] at this
          exact this.irrefl
  · rw [graphemeLoop_iff]
    constructor
    · rintro ⟨j, rfl, h1, h2⟩
      rw [Nat.zero_add]
      exact ⟨h1, h2⟩
    · rintro ⟨h1, h2⟩
      exact ⟨i, by omega, h1, h2⟩

/-- No two places of a text have the same position. -/
theorem C50_unique (gs : List Text) (i j : Nat) (hi : i ≤ gs.length) (hj : j ≤ gs.length)
    (h : Position.afterG (gs.take i) = Position.afterG (gs.take j)) : i = j := by
  have h1 := (C50_index _ gs i).mpr ⟨hi, h⟩
  have h2 := (C50_index _ gs j).mpr ⟨hj, rfl⟩
  rw [h1] at h2
  exact Option.some.inj h2

/-- The exclusive substring: `none` if an end is no position of the text, a panic if the end is before the start, else what is
between. -/
theorem C50_exclusive (sp : Span) (gs : List Text) :
    (∀ a b c, gs = a ++ (b ++ c) → sp = ⟨Position.afterG a, Position.afterG (a ++ b)⟩ → sp.substringExclusive gs = .ok (some b.flatten)) ∧
    (∀ a b c, gs = a ++ (b ++ c) → b ≠ [] → sp = ⟨Position.afterG (a ++ b), Position.afterG a⟩ → sp.substringExclusive gs = .error .panic) ∧
    ((∀ i ≤ gs.length, Position.afterG (gs.take i) ≠ sp.start) ∨ (∀ i ≤ gs.length, Position.afterG (gs.take i) ≠ sp.stop) →
      sp.substringExclusive gs = .ok none) := by
  refine ⟨?_, ?_, ?_⟩
  · rintro a b c rfl rfl
    have h1 := (C50_index (Position.afterG a) (a ++ (b ++ c)) a.length).mpr ⟨by simp, by rw [List.take_left]⟩
    have h2 := (C50_index (Position.afterG (a ++ b)) (a ++ (b ++ c)) (a ++ b).length).mpr ⟨by simp, by rw [← List.append_assoc, List.take_left]⟩
    unfold Span.substringExclusive
    simp only [h1, h2]
    rw [if_pos ⟨by simp, by simp⟩]
    rw [← List.append_assoc, List.take_left, List.drop_left]
  · rintro a b c rfl hb rfl
    have h1 := (C50_index (Position.afterG a) (a ++ (b ++ c)) a.length).mpr ⟨by simp, by rw [List.take_left]⟩
    have h2 := (C50_index (Position.afterG (a ++ b)) (a ++ (b ++ c)) (a ++ b).length).mpr ⟨by simp, by rw [← List.append_assoc, List.take_left]⟩
    unfold Span.substringExclusive
    simp only [h1, h2]
    rw [if_neg]
    rintro ⟨h, -⟩
    have := List.length_pos_iff.mpr hb
    simp at h
    omega
  · intro h
    have key : sp.start.graphemeIndex gs = none ∨ sp.stop.graphemeIndex gs = none := by
      rcases h with h | h
      · left
        cases he : sp.start.graphemeIndex gs with
        | none => rfl
        | some i =>
          obtain ⟨h1, h2⟩ := (C50_index _ _ _).mp he
          exact absurd h2 (h i h1)
      · right
        cases he : sp.stop.graphemeIndex gs with
        | none => rfl
        | some i =>
          obtain ⟨h1, h2⟩ := (C50_index _ _ _).mp he
          exact absurd h2 (h i h1)
    unfold Span.substringExclusive
    rcases key with h | h
    · simp [h]
    · cases sp.start.graphemeIndex gs <;> simp [h]

/-- The inclusive substring has one more grapheme. -/
theorem C50_inclusive (sp : Span) (a b : List Text) (g : Text) (c : List Text)
    (h : sp = ⟨Position.afterG a, Position.afterG (a ++ b)⟩) : sp.substringInclusive (a ++ (b ++ g :: c)) = .ok (some (b.flatten ++ g)) := by
  subst h
  have h1 := (C50_index (Position.afterG a) (a ++ (b ++ g :: c)) a.length).mpr ⟨by simp, by rw [List.take_left]⟩
  have h2 := (C50_index (Position.afterG (a ++ b)) (a ++ (b ++ g :: c)) (a ++ b).length).mpr ⟨by simp, by rw [← List.append_assoc, List.take_left]⟩
  unfold Span.substringInclusive
  simp only [h1, h2]
  rw [if_pos ⟨by simp; omega, by simp; omega⟩]
  have e : a ++ (b ++ g :: c) = a ++ (b ++ [g]) ++ c := by simp
  have e2 : (a ++ b).length + 1 = (a ++ (b ++ [g])).length := by simp; omega
  rw [e, e2, List.take_left, List.drop_left]
  simp

/-- Graphemes for which columns of characters and columns of graphemes are the same. -/
def PlainG (gs : List Text) : Prop := ∀ g ∈ gs, (∃ c, g = [c]) ∨ g = c!"\r\n"

theorem plain_after : ∀ (gs : List Text) (p : Position), PlainG gs → gs.foldl Position.pass p = gs.flatten.foldl Position.step p
  | [], p, _ => rfl
  | g :: gs, p, h => by
    rw [List.foldl_cons, plain_after gs _ fun x hx => h x (by simp [hx]), List.flatten_cons, List.foldl_append]
    congr 1
    rcases h g (by simp) with ⟨c, rfl⟩ | rfl
    · simp only [List.foldl_cons, List.foldl_nil, Position.pass, Position.step, List.cons.injEq, and_true]
      by_cases hc : c = '\n'
      · simp [hc]
      · simp [hc]
    · simp [Position.pass, Position.step]

/-- The place between two graphemes. -/
def Boundary (gs : List Text) (a : Text) : Prop := ∃ x y, gs = x ++ y ∧ a = x.flatten

section
variable [Env]

/-- The span of an error selects the text between the places of its two ends, if these are places between plain graphemes and are in
order; if they are not in order it is a panic. -/
theorem C50_error_partial (o : Options) (t : Text) (gs : List Text) (hg : gs.flatten = t) (hp : PlainG gs) (e : Err) (sp : Span)
    (h : fromStr o deValue t = .error (e, sp) ∨ ∃ D n T, fromStr o (deTy D n T) t = .error (e, sp)) :
    ∃ a b, a <+: t ∧ b <+: t ∧ sp = ⟨Position.fromSrcEnd a, Position.fromSrcEnd b⟩ ∧
      (Boundary gs a → Boundary gs b → ∀ m, b = a ++ m → sp.substringExclusive gs = .ok (some m)) ∧
      (Boundary gs a → Boundary gs b → ∀ m, m ≠ [] → a = b ++ m → sp.substringExclusive gs = .error .panic) := by
  have hsp : sp.start.Of t ∧ sp.stop.Of t := by
    rcases h with h | ⟨D, n, T, h⟩
    · exact (C26_partial o t e sp).1 h
    · exact (C26_partial o t e sp).2 D n T h
  obtain ⟨⟨a, ha, h1⟩, b, hb, h2⟩ := hsp
  have hpos : ∀ x y, gs = x ++ y → Position.fromSrcEnd x.flatten = Position.afterG x := by
    rintro x y rfl
    rw [C25_counts]
    exact (plain_after x _ fun g hx => hp g (by simp [hx])).symm
  have split : ∀ x y x' y' : List Text, gs = x ++ y → gs = x' ++ y' → x.length ≤ x'.length → ∃ z, x' = x ++ z ∧ gs = x ++ (z ++ y') := by
    rintro x y x' y' e1 e2 hl
    obtain ⟨z, hz⟩ : x <+: x' := by
      rw [List.prefix_iff_eq_take]
      have : gs.take x.length = x := by rw [e1, List.take_left]
      rw [← this, e2, List.take_append_of_le_length hl]
      simp [List.length_take, Nat.min_eq_left hl]
    exact ⟨z, hz.symm, by rw [e2, ← hz, List.append_assoc]⟩
  refine ⟨a, b, ha, hb, by cases sp; simp only at h1 h2; rw [h1, h2], ?_, ?_⟩
  · rintro ⟨x, y, e1, rfl⟩ ⟨x', y', e2, rfl⟩ m hm
    by_cases hl : x.length ≤ x'.length
    · obtain ⟨z, rfl, e3⟩ := split x y x' y' e1 e2 hl
      have : m = z.flatten := by simpa using hm.symm
      subst this
      refine (C50_exclusive sp gs).1 x z y' e3 ?_
      cases sp
      simp only at h1 h2
      rw [h1, h2, hpos x y e1, hpos _ y' e2]
    · obtain ⟨z, rfl, e3⟩ := split x' y' x y e2 e1 (by omega)
      have hz : z.flatten = [] ∧ m = [] := by
        have := congrArg List.length hm
        simp only [List.flatten_append, List.length_append] at this
        exact ⟨List.eq_nil_of_length_eq_zero (by omega), List.eq_nil_of_length_eq_zero (by omega)⟩
      obtain rfl : z = [] := by
        cases z with
        | nil => rfl
        | cons g z =>
          exfalso
          rcases hp g (by rw [e3]; simp) with ⟨c, rfl⟩ | rfl <;> simp at hz
      simp at hl
  · rintro ⟨x, y, e1, rfl⟩ ⟨x', y', e2, rfl⟩ m hm0 hm
    have hl : x'.length ≤ x.length := by
      rcases Nat.le_total x'.length x.length with hl | hl
      · exact hl
      · exfalso
        obtain ⟨z, rfl, e3⟩ := split x y x' y' e1 e2 hl
        have := congrArg List.length hm
        simp only [List.flatten_append, List.length_append] at this
        exact hm0 (List.eq_nil_of_length_eq_zero (by omega))
    obtain ⟨z, rfl, e3⟩ := split x' y' x y e2 e1 hl
    have : m = z.flatten := by simpa using hm.symm
    subst this
    refine (C50_exclusive sp gs).2.1 x' z y e3 (by rintro rfl; exact hm0 rfl) ?_
    cases sp
    simp only at h1 h2
    rw [h1, h2, hpos x' y' e2, hpos _ y e1]

end

/-- An error in the second line, after `\r\n` which is one grapheme: the span selects the space before the unexpected character. -/
example : ∃ _ : Env, ∃ sp, ∃ gs : List Text, ∃ t, t = c!"(a: 1,\r\n b: @)" ∧ gs.flatten = t ∧ PlainG gs ∧ (∃ e, fromStr {} deValue t = .error (e, sp)) ∧
    Boundary gs c!"(a: 1,\r\n b:" ∧ Boundary gs c!"(a: 1,\r\n b: " ∧
    sp = ⟨.fromSrcEnd c!"(a: 1,\r\n b:", .fromSrcEnd c!"(a: 1,\r\n b: "⟩ ∧ sp.substringExclusive gs = .ok (some c!" ") := by
  let _ : Env := asciiEnv true true
  refine ⟨inferInstance, ⟨⟨2, 4⟩, ⟨2, 5⟩⟩,
    [c!"(", c!"a", c!":", c!" ", c!"1", c!",", c!"\r\n", c!" ", c!"b", c!":", c!" ", c!"@", c!")"], _, rfl, by decide, ?_,
    ⟨.unexpectedChar '@', by decide +kernel⟩, ?_, ?_, by decide, by decide⟩
  · intro g hg
    simp only [List.mem_cons, List.not_mem_nil, or_false] at hg
    rcases hg with rfl | rfl | rfl | rfl | rfl | rfl | rfl | rfl | rfl | rfl | rfl | rfl | rfl
    all_goals first | exact .inl ⟨_, rfl⟩ | exact .inr rfl
  · exact ⟨[c!"(", c!"a", c!":", c!" ", c!"1", c!",", c!"\r\n", c!" ", c!"b", c!":"], [c!" ", c!"@", c!")"], by decide, by decide⟩
  · exact ⟨[c!"(", c!"a", c!":", c!" ", c!"1", c!",", c!"\r\n", c!" ", c!"b", c!":", c!" "], [c!"@", c!")"], by decide, by decide⟩

/-- With a grapheme of two characters (`e` and U+0301) before it, the span of an error selects a different text: `x` instead of the
space that is between its two ends. -/
theorem C50_grapheme_fails : ∃ (_ : Env) (gs : List Text) (a b m : Text) (e : Err), gs = [c!"\"", ['e', '\u0301'], c!"\"", c!" ", c!"x"] ∧
    b = a ++ m ∧ m = c!" " ∧ b <+: gs.flatten ∧ fromStr {} deValue gs.flatten = .error (e, ⟨.fromSrcEnd a, .fromSrcEnd b⟩) ∧
    Span.substringExclusive ⟨.fromSrcEnd a, .fromSrcEnd b⟩ gs = .ok (some c!"x") := by
  let _ : Env := asciiEnv true true
  exact ⟨inferInstance, _, ['"', 'e', '\u0301', '"'], ['"', 'e', '\u0301', '"', ' '], c!" ", .trailingCharacters, rfl, rfl, rfl, ⟨c!"x", rfl⟩,
    by decide +kernel, by decide⟩

/-- The span of an error whose ends are out of order: taking its substring is a panic. -/
theorem C50_order_fails : ∃ (_ : Env) (t : Text) (e : Err) (sp : Span), fromStr {} (deTy (fun _ => .unit) 1 (.int .u8)) t = .error (e, sp) ∧
    sp.substringExclusive (t.map ([·])) = .error .panic := by
  let _ : Env := asciiEnv true true
  exact ⟨inferInstance, c!"_1u8", .underscoreAtBeginning, ⟨⟨1, 3⟩, ⟨1, 1⟩⟩, by decide +kernel, by decide⟩

/-- The inclusive substring of a span that ends where the text ends is a panic, and the error of a text that is too short has such a
span. -/
theorem C50_end_fails :
    (∀ (sp : Span) (a b : List Text), sp = ⟨Position.afterG a, Position.afterG (a ++ b)⟩ → sp.substringInclusive (a ++ b) = .error .panic) ∧
    (∃ (_ : Env) (t : Text) (e : Err) (sp : Span), fromStr {} deValue t = .error (e, sp) ∧ t = c!"(1, 2" ∧
      sp.substringInclusive (t.map ([·])) = .error .panic) := by
  constructor
  · rintro sp a b rfl
    have h1 := (C50_index (Position.afterG a) (a ++ b) a.length).mpr ⟨by simp, by rw [List.take_left]⟩
    have h2 := (C50_index (Position.afterG (a ++ b)) (a ++ b) (a ++ b).length).mpr ⟨Nat.le_refl _, by rw [List.take_length]⟩
    unfold Span.substringInclusive
    simp only [h1, h2]
    rw [if_neg]
    omega
  · let _ : Env := asciiEnv true true
    exact ⟨inferInstance, c!"(1, 2", .expectedComma, ⟨⟨1, 5⟩, ⟨1, 6⟩⟩, by decide +kernel, rfl, by decide⟩

end Ron
