import Verif.Model.Message
import Verif.Lemmas.Digits
import Verif.Lemmas.Tokens
/-! Texts of errors that can be taken apart again. -/

namespace Ron

/-- Two texts of characters with `p`, followed by something else. -/
theorem run_inj (p : Char → Prop) : ∀ {a b x y : Text}, (∀ c ∈ a, p c) → (∀ c ∈ b, p c) → (∀ c ∈ x.head?, ¬ p c) → (∀ c ∈ y.head?, ¬ p c) →
    a ++ x = b ++ y → a = b ∧ x = y
  | [], [], x, y, _, _, _, _, h => ⟨rfl, h⟩
  | [], d :: b, x, y, _, hb, hx, _, h => by
    subst h
    exact absurd (hb d (by simp)) (hx d (by simp))
  | c :: a, [], x, y, ha, _, _, hy, h => by
    subst h
    exact absurd (ha c (by simp)) (hy c (by simp))
  | c :: a, d :: b, x, y, ha, hb, hx, hy, h => by
    simp only [List.cons_append, List.cons.injEq] at h
    obtain ⟨rfl, h⟩ := h
    obtain ⟨rfl, h2⟩ := run_inj p (fun c hc => ha c (by simp [hc])) (fun c hc => hb c (by simp [hc])) hx hy h
    exact ⟨rfl, h2⟩

theorem toDigits_inj {b : Nat} (hb : 1 < b) (h16 : b ≤ 16) {n m : Nat} (h : Nat.toDigits b n = Nat.toDigits b m) : n = m := by
  rw [← (toDigits_spec hb h16 n).1, h, (toDigits_spec hb h16 m).1]

theorem digits_inj {b : Nat} (hb : 1 < b) (h16 : b ≤ 16) {n m : Nat} {x y : Text} (hx : ∀ c ∈ x.head?, hexVal c = none)
    (hy : ∀ c ∈ y.head?, hexVal c = none) (h : Nat.toDigits b n ++ x = Nat.toDigits b m ++ y) : n = m ∧ x = y := by
  have g : ∀ n, ∀ c ∈ Nat.toDigits b n, hexVal c ≠ none := by
    intro n c hc
    obtain ⟨d, hd, -⟩ := (toDigits_spec hb h16 n).2 c hc
    simp [hd]
  obtain ⟨h1, h2⟩ := run_inj (fun c => hexVal c ≠ none) (g n) (g m) (fun c hc h => h (hx c hc)) (fun c hc h => h (hy c hc)) h
  exact ⟨toDigits_inj hb h16 h1, h2⟩

theorem natText_inj {n m : Nat} {x y : Text} (hx : ∀ c ∈ x.head?, isDigit c = false) (hy : ∀ c ∈ y.head?, isDigit c = false)
    (h : natText n ++ x = natText m ++ y) : n = m ∧ x = y := by
  obtain ⟨h1, h2⟩ := run_inj (fun c => isDigit c = true) (natText_digit n) (natText_digit m) (fun c hc h => by simp [hx c hc] at h)
    (fun c hc h => by simp [hy c hc] at h) h
  exact ⟨toDigits_inj (by omega) (by omega) h1, h2⟩

section
variable [Env]

/-- The characters written with a backslash. -/
def escTable : List (Char × Char) :=
  [('\x00', '0'), ('\t', 't'), ('\r', 'r'), ('\n', 'n'), ('\'', '\''), ('"', '"'), ('\\', '\\')]

omit [Env] in
theorem escTable_inj : ∀ a ∈ escTable, ∀ b ∈ escTable, a.2 = b.2 → a = b := by decide

omit [Env] in
theorem escTable_u : ∀ a ∈ escTable, a.2 ≠ 'u' := by decide

/-- The three ways a character is shown. -/
theorem debugEsc_forms {q : Char} (hq : q = '\'' ∨ q = '"') (c : Char) :
    (debugEsc q c = [c] ∧ c ≠ '\\' ∧ c ≠ q) ∨ (∃ k, debugEsc q c = ['\\', k] ∧ (c, k) ∈ escTable) ∨
    debugEsc q c = '\\' :: 'u' :: '{' :: (hexText c.toNat ++ ['}']) := by
  unfold debugEsc
  split
  · rename_i h
    simp only [Bool.and_eq_true, Bool.or_eq_true, decide_eq_true_eq, bne_iff_ne] at h
    refine .inl ⟨rfl, ?_, h.2⟩
    rcases h.1 with rfl | rfl <;> decide
  · rename_i h
    unfold escapeDebug
    split
    · exact .inr (.inl ⟨_, rfl, by simp [escTable, *]⟩)
    split
    · exact .inr (.inl ⟨_, rfl, by simp [escTable, *]⟩)
    split
    · exact .inr (.inl ⟨_, rfl, by simp [escTable, *]⟩)
    split
    · exact .inr (.inl ⟨_, rfl, by simp [escTable, *]⟩)
    split
    · exact .inr (.inl ⟨_, rfl, by simp [escTable, *]⟩)
    split
    · exact .inr (.inl ⟨_, rfl, by simp [escTable, *]⟩)
    split
    · exact .inr (.inl ⟨_, rfl, by simp [escTable, *]⟩)
    split
    · exact .inr (.inr (by simp))
    · refine .inl ⟨rfl, by assumption, ?_⟩
      rcases hq with rfl | rfl <;> assumption

theorem debugEsc_inj {q : Char} (hq : q = '\'' ∨ q = '"') {c d : Char} {x y : Text} (h : debugEsc q c ++ x = debugEsc q d ++ y) : c = d ∧ x = y := by
  rcases debugEsc_forms hq c with ⟨h1, h2, h3⟩ | ⟨k, h1, h2⟩ | h1 <;> rcases debugEsc_forms hq d with ⟨g1, g2, g3⟩ | ⟨l, g1, g2⟩ | g1 <;>
    rw [h1, g1] at h <;> simp only [List.cons_append, List.nil_append, List.cons.injEq, true_and, List.append_assoc] at h
  · exact h
  · exact absurd h.1 h2
  · exact absurd h.1 h2
  · exact absurd h.1.symm g2
  · have := escTable_inj _ h2 _ g2 h.1
    exact ⟨congrArg Prod.fst this, h.2⟩
  · exact absurd h.1 (escTable_u _ h2)
  · exact absurd h.1.symm g2
  · exact absurd h.1.symm (escTable_u _ g2)
  · obtain ⟨h5, h6⟩ := digits_inj (by omega) (by omega) (by simp; decide) (by simp; decide) h
    exact ⟨Char.toNat_inj.mp h5, by simpa using h6⟩

theorem debugEsc_head {q : Char} (hq : q = '\'' ∨ q = '"') (c : Char) (x y : Text) : debugEsc q c ++ x ≠ q :: y := by
  have hq' : '\\' ≠ q := by rcases hq with rfl | rfl <;> decide
  rcases debugEsc_forms hq c with ⟨h1, h2, h3⟩ | ⟨k, h1, h2⟩ | h1 <;> rw [h1] <;> simp [*]

theorem debugChar_inj {c d : Char} {x y : Text} (h : debugChar c ++ x = debugChar d ++ y) : c = d ∧ x = y := by
  simp only [debugChar, List.cons_append, List.append_assoc, List.cons.injEq, true_and] at h
  obtain ⟨h1, h2⟩ := debugEsc_inj (.inl rfl) h
  exact ⟨h1, by simpa using h2⟩

theorem debugStr_inj : ∀ {s t x y : Text}, debugStr s ++ x = debugStr t ++ y → s = t ∧ x = y
  | [], [], x, y, h => by simpa [debugStr] using h
  | [], d :: t, x, y, h => by
    simp only [debugStr, List.flatMap_nil, List.flatMap_cons, List.cons_append, List.append_assoc, List.cons.injEq, true_and, List.nil_append] at h
    exact absurd h.symm (debugEsc_head (.inr rfl) d _ _)
  | c :: s, [], x, y, h => by
    simp only [debugStr, List.flatMap_nil, List.flatMap_cons, List.cons_append, List.append_assoc, List.cons.injEq, true_and, List.nil_append] at h
    exact absurd h (debugEsc_head (.inr rfl) c _ _)
  | c :: s, d :: t, x, y, h => by
    simp only [debugStr, List.flatMap_cons, List.cons_append, List.append_assoc, List.cons.injEq, true_and] at h
    obtain ⟨rfl, g⟩ := debugEsc_inj (.inr rfl) h
    obtain ⟨rfl, g'⟩ := debugStr_inj (s := s) (t := t) (x := x) (y := y) (by simpa [debugStr] using g)
    exact ⟨rfl, g'⟩

/-- The three ways a name is shown. -/
theorem showIdent_forms (n : Text) :
    (¬ RawName n ∧ showIdent n = debugStr n ++ c!"_[invalid identifier]") ∨
    (RawName n ∧ ¬ PlainName n ∧ showIdent n = c!"`r#" ++ (n ++ c!"`")) ∨
    (RawName n ∧ PlainName n ∧ showIdent n = c!"`" ++ (n ++ c!"`")) := by
  unfold showIdent
  split
  · rename_i h
    refine .inl ⟨fun hn => ?_, rfl⟩
    simp only [Bool.or_eq_true, List.isEmpty_iff, Bool.not_eq_true', List.all_eq_false] at h
    rcases h with h | ⟨c, hc, h⟩
    · exact hn.1 h
    · exact h (hn.2 c hc)
  · rename_i h
    simp only [Bool.or_eq_true, List.isEmpty_iff, Bool.not_eq_true', not_or, Bool.not_eq_false, List.all_eq_true] at h
    have hn : RawName n := h
    cases n with
    | nil => exact absurd rfl h.1
    | cons c cs =>
      simp only
      split
      · rename_i g
        refine .inr (.inl ⟨hn, ?_, by simp⟩)
        rintro ⟨c', cs', e, g1, g2⟩
        cases e
        simp [g1] at g
        obtain ⟨d, hd, g⟩ := g
        simp [g2 d hd] at g
      · rename_i g
        simp only [Bool.or_eq_true, Bool.not_eq_true', not_or, Bool.not_eq_false, List.all_eq_true] at g
        exact .inr (.inr ⟨hn, ⟨c, cs, rfl, g.1, g.2⟩, by simp⟩)

theorem rawName_run {n m x y : Text} (hn : RawName n) (hm : RawName m) (h : n ++ (c!"`" ++ x) = m ++ (c!"`" ++ y)) : n = m ∧ x = y := by
  have hq : isIdentRaw '`' = false := by
    simp only [isIdentRaw, Env.xidCont_ascii '`' (by decide)]; decide
  obtain ⟨h1, h2⟩ := run_inj (fun c => isIdentRaw c = true) hn.2 hm.2 (by simp [hq]) (by simp [hq]) h
  exact ⟨h1, by simpa using h2⟩

theorem rawName_hash {m : Text} (hm : RawName m) (x y : Text) : 'r' :: '#' :: x ≠ m ++ (c!"`" ++ y) := by
  intro h
  have hq : isIdentRaw '#' = false := by
    simp only [isIdentRaw, Env.xidCont_ascii '#' (by decide)]; decide
  cases m with
  | nil => exact hm.1 rfl
  | cons c m =>
    simp only [List.cons_append, List.cons.injEq] at h
    obtain ⟨rfl, h⟩ := h
    cases m with
    | nil => simp at h
    | cons d m =>
      simp only [List.cons_append, List.cons.injEq] at h
      obtain ⟨rfl, h⟩ := h
      simp [hm.2 '#' (by simp)] at hq

/-- What follows a shown name can be told from it. -/
theorem showIdent_inj {n m x y : Text} (h : showIdent n ++ x = showIdent m ++ y) : n = m ∧ x = y := by
  rcases showIdent_forms n with ⟨hn, h1⟩ | ⟨hn, -, h1⟩ | ⟨hn, -, h1⟩ <;> rcases showIdent_forms m with ⟨hm, g1⟩ | ⟨hm, -, g1⟩ | ⟨hm, -, g1⟩ <;>
    rw [h1, g1] at h
  · simp only [List.append_assoc] at h
    obtain ⟨h2, h3⟩ := debugStr_inj h
    exact ⟨h2, by simpa using h3⟩
  · simp [debugStr] at h
  · simp [debugStr] at h
  · simp [debugStr] at h
  · simp only [List.append_assoc] at h
    exact rawName_run hn hm (by simpa using h)
  · simp only [List.append_assoc] at h
    exact absurd (by simpa using h) (rawName_hash hm (n ++ (c!"`" ++ x)) y)
  · simp [debugStr] at h
  · simp only [List.append_assoc] at h
    exact absurd (by simpa using h.symm) (rawName_hash hn (m ++ (c!"`" ++ y)) x)
  · simp only [List.append_assoc] at h
    exact rawName_run hn hm (by simpa using h)

/-- The first character of a shown name. -/
theorem showIdent_head (n : Text) : ∃ t, showIdent n = '`' :: t ∨ showIdent n = '"' :: t := by
  rcases showIdent_forms n with ⟨hn, h1⟩ | ⟨hn, -, h1⟩ | ⟨hn, -, h1⟩ <;> rw [h1]
  · exact ⟨_, .inr rfl⟩
  · exact ⟨_, .inl rfl⟩
  · exact ⟨_, .inl rfl⟩

theorem showMore_inj : ∀ {l l' : List Text} {x y : Text}, l ≠ [] → l' ≠ [] → showMore l ++ x = showMore l' ++ y → l = l' ∧ x = y
  | [], _, _, _, h, _, _ => absurd rfl h
  | _, [], _, _, _, h, _ => absurd rfl h
  | [a], [b], x, y, _, _, h => by
    simp only [showMore, List.append_assoc, List.append_cancel_left_eq] at h
    obtain ⟨rfl, h⟩ := showIdent_inj h
    exact ⟨rfl, by simpa using h⟩
  | [a], b :: b' :: l, x, y, _, _, h => by
    obtain ⟨t, ht | ht⟩ := showIdent_head b <;> simp [showMore, ht] at h
  | a :: a' :: l, [b], x, y, _, _, h => by
    obtain ⟨t, ht | ht⟩ := showIdent_head a <;> simp [showMore, ht] at h
  | a :: a' :: l, b :: b' :: l', x, y, _, _, h => by
    simp only [showMore, List.append_assoc, List.append_cancel_left_eq] at h
    obtain ⟨rfl, g⟩ := showIdent_inj h
    obtain ⟨h1, h2⟩ := showMore_inj (l := a' :: l) (l' := b' :: l') (by simp) (by simp) g
    exact ⟨by rw [h1], h2⟩

/-- The list of alternatives can be read off. -/
theorem showOneOf_inj {noun x y : Text} : ∀ {l l' : List Text}, showOneOf noun l ++ x = showOneOf noun l' ++ y → l = l' ∧ x = y
  | [], [], h => by simpa [showOneOf] using h
  | [], [b], h => by simp [showOneOf] at h
  | [], [b, b'], h => by simp [showOneOf] at h
  | [], b :: b' :: b'' :: l', h => by simp [showOneOf] at h
  | [a], [], h => by simp [showOneOf] at h
  | [a], [b], h => by
    simp only [showOneOf, List.append_assoc, List.append_cancel_left_eq] at h
    obtain ⟨rfl, h⟩ := showIdent_inj h
    exact ⟨rfl, by simpa using h⟩
  | [a], [b, b'], h => by
    obtain ⟨t, ht | ht⟩ := showIdent_head a <;> simp [showOneOf, ht] at h
  | [a], b :: b' :: b'' :: l', h => by
    obtain ⟨t, ht | ht⟩ := showIdent_head a <;> simp [showOneOf, ht] at h
  | [a, a'], [], h => by simp [showOneOf] at h
  | [a, a'], [b], h => by
    obtain ⟨t, ht | ht⟩ := showIdent_head b <;> simp [showOneOf, ht] at h
  | [a, a'], [b, b'], h => by
    simp only [showOneOf, List.append_assoc, List.append_cancel_left_eq] at h
    obtain ⟨rfl, h⟩ := showIdent_inj h
    simp only [List.append_cancel_left_eq] at h
    obtain ⟨rfl, h⟩ := showIdent_inj h
    exact ⟨rfl, by simpa using h⟩
  | [a, a'], b :: b' :: b'' :: l', h => by simp [showOneOf] at h
  | a :: a' :: a'' :: l, [], h => by simp [showOneOf] at h
  | a :: a' :: a'' :: l, [b], h => by
    obtain ⟨t, ht | ht⟩ := showIdent_head b <;> simp [showOneOf, ht] at h
  | a :: a' :: a'' :: l, [b, b'], h => by simp [showOneOf] at h
  | a :: a' :: a'' :: l, b :: b' :: b'' :: l', h => by
    simp only [showOneOf, List.append_assoc, List.append_cancel_left_eq] at h
    obtain ⟨rfl, g⟩ := showIdent_inj h
    obtain ⟨h1, h2⟩ := showMore_inj (by simp) (by simp) g
    exact ⟨by rw [h1], h2⟩

/-- ` in ..` can be told from what follows. -/
theorem showIn_inj {what x y : Text} {o o' : Option Text} (hx : ∀ t, x ≠ what ++ t) (hy : ∀ t, y ≠ what ++ t)
    (h : showIn what o ++ x = showIn what o' ++ y) : o = o' ∧ x = y := by
  cases o <;> cases o' <;> simp only [showIn, List.nil_append, List.append_assoc] at h
  · exact ⟨rfl, h⟩
  · exact absurd h (hx _)
  · exact absurd h.symm (hy _)
  · simp only [List.append_cancel_left_eq] at h
    obtain ⟨rfl, g⟩ := showIdent_inj h
    exact ⟨rfl, g⟩

omit [Env] in
theorem showCount_inj {n m : Nat} {x y : Text} (h : showCount n ++ (' ' :: x) = showCount m ++ (' ' :: y)) : n = m := by
  have hd : ∀ n, ∃ c t, natText n = c :: t ∧ isDigit c = true := by
    intro n
    cases h : natText n with
    | nil => exact absurd h (natText_ne_nil n)
    | cons c t => exact ⟨c, t, rfl, natText_digit n c (by simp [h])⟩
  have hz : isDigit 'z' = false := by decide
  have ho : isDigit 'o' = false := by decide
  have key : ∀ k u v, showCount (k + 2) ++ u = v → ∃ c t, v = c :: t ∧ isDigit c = true := by
    intro k u v e
    obtain ⟨c, t, h1, h2⟩ := hd (k + 2)
    exact ⟨c, _, by rw [← e, show showCount (k + 2) = natText (k + 2) ++ c!" elements" from rfl, h1]; rfl, h2⟩
  match n, m with
  | 0, 0 => rfl
  | 0, 1 => simp [showCount] at h
  | 0, m + 2 =>
    obtain ⟨c, t, h1, h2⟩ := key m _ _ h.symm
    simp only [showCount, List.cons_append, List.cons.injEq] at h1
    rw [← h1.1, hz] at h2; cases h2
  | 1, 0 => simp [showCount] at h
  | 1, 1 => rfl
  | 1, m + 2 =>
    obtain ⟨c, t, h1, h2⟩ := key m _ _ h.symm
    simp only [showCount, List.cons_append, List.cons.injEq] at h1
    rw [← h1.1, ho] at h2; cases h2
  | n + 2, 0 =>
    obtain ⟨c, t, h1, h2⟩ := key n _ _ h
    simp only [showCount, List.cons_append, List.cons.injEq] at h1
    rw [← h1.1, hz] at h2; cases h2
  | n + 2, 1 =>
    obtain ⟨c, t, h1, h2⟩ := key n _ _ h
    simp only [showCount, List.cons_append, List.cons.injEq] at h1
    rw [← h1.1, ho] at h2; cases h2
  | n + 2, m + 2 =>
    simp only [showCount, List.append_assoc] at h
    exact (natText_inj (by simp; decide) (by simp; decide) h).1

end

end Ron
