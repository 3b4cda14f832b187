import Verif.Lemmas.Basic
import Verif.Spec.Layout
/-! Lemmas about `skip_ws` and `skip_comment`. -/

set_option linter.unusedSimpArgs false

namespace Ron

/-- `s'` differs from `s` in the cursor bookkeeping only. -/
structure Keeps (s s' : St) : Prop where
  src : s'.src = s.src
  exts : s'.exts = s.exts
  nv : s'.nv = s.nv
  lastIdent : s'.lastIdent = s.lastIdent
  limit : s'.limit = s.limit

theorem Keeps.refl (s : St) : Keeps s s := ⟨rfl, rfl, rfl, rfl, rfl⟩
theorem Keeps.trans {a b c : St} (h : Keeps a b) (g : Keeps b c) : Keeps a c :=
  ⟨g.src.trans h.src, g.exts.trans h.exts, g.nv.trans h.nv, g.lastIdent.trans h.lastIdent, g.limit.trans h.limit⟩

/-- `f` succeeds from `s` with value `a`, leaves the rest `r` and keeps everything but the cursor. -/
def Runs {α : Type} (f : P α) (s : St) (a : α) (r : Text) : Prop :=
  ∃ s', f s = .ok a s' ∧ s'.rest = r ∧ Keeps s s'

/-- As `Keeps`, and the white space bookkeeping is untouched as well. -/
structure KeepsW (s s' : St) : Prop extends Keeps s s' where
  preWs : s'.preWs = s.preWs
  lastWs : s'.lastWs = s.lastWs

theorem KeepsW.refl (s : St) : KeepsW s s := ⟨Keeps.refl s, rfl, rfl⟩
theorem KeepsW.trans {a b c : St} (h : KeepsW a b) (g : KeepsW b c) : KeepsW a c :=
  ⟨h.toKeeps.trans g.toKeeps, g.preWs.trans h.preWs, g.lastWs.trans h.lastWs⟩
theorem KeepsW.of {s s' : St} {p r : Text} (h : KeepsW { s with prev := p, rest := r } s') : KeepsW s s' :=
  ⟨⟨h.src, h.exts, h.nv, h.lastIdent, h.limit⟩, h.preWs, h.lastWs⟩
theorem KeepsW.of' {s s' : St} {r : Text} (h : KeepsW { s with rest := r } s') : KeepsW s s' :=
  ⟨⟨h.src, h.exts, h.nv, h.lastIdent, h.limit⟩, h.preWs, h.lastWs⟩
theorem KeepsW.step (s : St) (p r : Text) : KeepsW s { s with prev := p, rest := r } :=
  ⟨⟨rfl, rfl, rfl, rfl, rfl⟩, rfl, rfl⟩

/-- As `Runs`, and the white space bookkeeping is untouched as well. -/
def RunsW {α : Type} (f : P α) (s : St) (a : α) (r : Text) : Prop :=
  ∃ s', f s = .ok a s' ∧ s'.rest = r ∧ KeepsW s s'

theorem RunsW.runs {α : Type} {f : P α} {s : St} {a : α} {r : Text} (h : RunsW f s a r) : Runs f s a r :=
  let ⟨s', h1, h2, h3⟩ := h; ⟨s', h1, h2, h3.toKeeps⟩

/-- `f` fails from `s` with error `e`. -/
def Fails {α : Type} (f : P α) (s : St) (e : Err) : Prop := ∃ s', f s = .err e s'

theorem isWs_iff (c : Char) : isWs c = true ↔ c ∈ ronWhitespace := by
  constructor
  · intro h
    simp only [isWs, Bool.or_eq_true, beq_iff_eq] at h
    rcases h with (((((((((h | h) | h) | h) | h) | h) | h) | h) | h) | h) | h <;> (subst h; decide)
  · intro h
    simp only [ronWhitespace, List.map_cons, List.map_nil, List.mem_cons, List.not_mem_nil, or_false] at h
    rcases h with h | h | h | h | h | h | h | h | h | h | h <;> (subst h; decide)

/-! ### Block comments -/

theorem BlockTail.ne_nil {n : Nat} {b : Text} (h : BlockTail (n + 1) b) : b ≠ [] := by
  cases h <;> simp

theorem BlockTail.split {n : Nat} {b : Text} (h : BlockTail (n + 1) b) :
    ∃ a b', b = a ++ b' ∧ (∀ c ∈ a, (!(c == '/' || c == '*')) = true) ∧ BlockTail (n + 1) b' ∧
      ∃ c b'', b' = c :: b'' ∧ (c = '/' ∨ c = '*') := by
  generalize hm : n + 1 = m at h
  induction h with
  | done => omega
  | opens h => exact ⟨[], _, rfl, by simp, .opens h, _, _, rfl, .inl rfl⟩
  | closes h => exact ⟨[], _, rfl, by simp, .closes h, _, _, rfl, .inr rfl⟩
  | @other k c b h1 h2 h ih =>
    by_cases hc : c = '/' ∨ c = '*'
    · exact ⟨[], _, rfl, by simp, .other h1 h2 h, _, _, rfl, hc⟩
    · obtain ⟨a, b', rfl, ha, hb, hh⟩ := ih hm
      refine ⟨c :: a, b', rfl, ?_, hb, hh⟩
      intro d hd
      rcases List.mem_cons.mp hd with rfl | hd
      · simpa using hc
      · exact ha d hd

theorem nextChar_cons {s : St} {c : Char} {r : Text} (h : s.rest = c :: r) :
    nextChar s = .ok c { s with rest := r } := by unfold nextChar; rw [h]

theorem nextChar_nil {s : St} (h : s.rest = []) : nextChar s = .err .eof s := by unfold nextChar; rw [h]

theorem blockLoop_step (f n : Nat) (s : St) (a r : Text) (hrest : s.rest = a ++ r) (hne : s.rest ≠ [])
    (ha : ∀ c ∈ a, (!(c == '/' || c == '*')) = true) (hr : ∀ c r', r = c :: r' → (!(c == '/' || c == '*')) = false) :
    blockLoop (f + 1) (n + 1) s =
      if startsWith r ['/', '*'] then blockLoop f (n + 2) { s with prev := r, rest := r.drop 2 }
      else if startsWith r ['*', '/'] then blockLoop f n { s with prev := r, rest := r.drop 2 }
      else match r with
        | [] => Res.err .unclosedBlockComment { s with prev := s.rest, rest := [] }
        | _ :: r' => blockLoop f (n + 1) { s with prev := s.rest, rest := r' } := by
  have hw : whileLen (fun c => !(c == '/' || c == '*')) s.rest = a.length := by
    rw [hrest, whileLen_append _ _ _ ha]
    cases r with
    | nil => rfl
    | cons c r' => rw [whileLen_cons_false _ _ _ (hr c r' rfl)]; rfl
  have hdrop : s.rest.drop (whileLen (fun c => !(c == '/' || c == '*')) s.rest) = r := by
    rw [hw, hrest]; simp
  have hne' : s.rest.isEmpty = false := by simpa using hne
  rw [blockLoop]
  simp only [bind_apply, getSt_apply, hne', Bool.false_eq_true, ↓reduceIte, advance_apply, whileLen_le, ite_P, hdrop]
  by_cases h1 : startsWith r ['/', '*'] = true
  · rw [consumeStr_true (by exact h1)]; simp [h1]
  · rw [consumeStr_false (by simpa using h1)]
    simp only [h1, Bool.false_eq_true, ↓reduceIte]
    by_cases h2 : startsWith r ['*', '/'] = true
    · rw [consumeStr_true (by exact h2)]; simp [h2]
    · rw [consumeStr_false (by simpa using h2)]
      simp only [h2, Bool.false_eq_true, ↓reduceIte, mapErr_apply]
      cases r with
      | nil => rw [nextChar_nil rfl]
      | cons c r' => rw [nextChar_cons rfl]

/-- Two characters decide, wherever they come from. -/
theorem not_startsWith_two {x y d e : Char} {b r : Text} (h : ¬ ([x, y] <+: d :: e :: b)) :
    startsWith (d :: e :: b ++ r) [x, y] = false := by
  apply Bool.eq_false_iff.mpr
  intro hh
  apply h
  simp only [List.cons_append, startsWith_cons, startsWith_nil_right, Bool.and_true,
    Bool.and_eq_true, beq_iff_eq] at hh
  obtain ⟨rfl, rfl⟩ := hh
  exact ⟨b, rfl⟩

/-- The comment loop consumes a balanced tail. -/
theorem blockLoop_ok (f n : Nat) (b r : Text) (hb : BlockTail n b) (s : St) (hs : s.rest = b ++ r)
    (hf : b.length ≤ f) : RunsW (blockLoop f n) s () r := by
  induction f generalizing n b s with
  | zero =>
    cases hb with
    | done => exact ⟨s, rfl, by simpa using hs, KeepsW.refl s⟩
    | _ => simp at hf
  | succ f ih =>
    cases n with
    | zero => cases hb; exact ⟨s, rfl, by simpa using hs, KeepsW.refl s⟩
    | succ n =>
      obtain ⟨a, b', rfl, ha, hb', c, b'', hc, hcc⟩ := hb.split
      have hrest : s.rest = a ++ (b' ++ r) := by rw [hs, List.append_assoc]
      have hne : s.rest ≠ [] := by rw [hrest, hc]; simp
      unfold RunsW
      rw [blockLoop_step f n s a (b' ++ r) hrest hne ha (by
        intro x r' hx
        rw [hc] at hx; simp only [List.cons_append, List.cons.injEq] at hx
        rw [← hx.1]; rcases hcc with rfl | rfl <;> rfl)]
      cases hb' with
      | @opens _ b3 h =>
        rw [if_pos (by simp)]
        obtain ⟨s', h1, h2, h3⟩ := ih (n + 2) _ h { s with prev := '/' :: '*' :: b3 ++ r, rest := b3 ++ r } rfl
          (by simp at hf; omega)
        exact ⟨s', h1, h2, h3.of⟩
      | @closes _ b3 h =>
        rw [if_neg (by simp), if_pos (by simp)]
        obtain ⟨s', h1, h2, h3⟩ := ih n _ h { s with prev := '*' :: '/' :: b3 ++ r, rest := b3 ++ r } rfl
          (by simp at hf; omega)
        exact ⟨s', h1, h2, h3.of⟩
      | @other _ d b3 h1 h2 h =>
        obtain ⟨e, b4, rfl⟩ := List.exists_cons_of_ne_nil h.ne_nil
        rw [if_neg (Bool.eq_false_iff.mp (not_startsWith_two h1)), if_neg (Bool.eq_false_iff.mp (not_startsWith_two h2))]
        obtain ⟨s', h1, h2, h3⟩ := ih (n + 1) _ h { s with prev := s.rest, rest := e :: b4 ++ r } rfl
          (by simp at hf ⊢; omega)
        exact ⟨s', h1, h2, h3.of⟩

theorem BlockTail.prepend {n : Nat} {a b : Text} (ha : ∀ c ∈ a, (!(c == '/' || c == '*')) = true)
    (hb : BlockTail (n + 1) b) : BlockTail (n + 1) (a ++ b) := by
  induction a with
  | nil => exact hb
  | cons c a ih =>
    have hc := ha c (by simp)
    simp only [Bool.not_eq_true', Bool.or_eq_false_iff, beq_eq_false_iff_ne] at hc
    refine .other ?_ ?_ (ih fun d hd => ha d (by simp [hd]))
    · rintro ⟨t, ht⟩
      simp only [List.cons_append, List.nil_append, List.cons.injEq] at ht
      exact hc.1 ht.1.symm
    · rintro ⟨t, ht⟩
      simp only [List.cons_append, List.nil_append, List.cons.injEq] at ht
      exact hc.2 ht.1.symm

/-- The comment loop either finds a balanced tail or reports an unclosed comment. -/
theorem blockLoop_cases (f n : Nat) (s : St) (hf : s.rest.length < f) :
    (∃ b r, s.rest = b ++ r ∧ BlockTail n b ∧ RunsW (blockLoop f n) s () r) ∨
    Fails (blockLoop f n) s .unclosedBlockComment := by
  induction f generalizing n s with
  | zero => omega
  | succ f ih =>
    cases n with
    | zero => exact .inl ⟨[], s.rest, rfl, .done, s, rfl, rfl, KeepsW.refl s⟩
    | succ n =>
      obtain ⟨a, r, hrest, ha, hw, hr⟩ := whileLen_split (fun c => !(c == '/' || c == '*')) s.rest
      by_cases hne : s.rest = []
      · right
        refine ⟨s, ?_⟩
        unfold blockLoop
        simp only [bind_apply, getSt_apply, hne, List.isEmpty_nil, ↓reduceIte, fail_apply]
      · unfold RunsW Fails
        rw [blockLoop_step f n s a r hrest hne ha hr]
        by_cases h1 : startsWith r ['/', '*'] = true
        · rw [if_pos h1]
          obtain ⟨r', rfl⟩ := (startsWith_iff _ _).mp h1
          have hlen : r'.length < f := by rw [hrest] at hf; simp at hf; omega
          rcases ih (n + 2) { s with prev := ['/', '*'] ++ r', rest := r' } hlen with
            ⟨b, q, e, hb, s', g1, g2, g3⟩ | ⟨s', g⟩
          · simp only at e
            exact .inl ⟨a ++ '/' :: '*' :: b, q, by rw [hrest, e]; simp, BlockTail.prepend ha (.opens hb), s', g1, g2,
              g3.of⟩
          · exact .inr ⟨s', g⟩
        · rw [if_neg h1]
          by_cases h2 : startsWith r ['*', '/'] = true
          · rw [if_pos h2]
            obtain ⟨r', rfl⟩ := (startsWith_iff _ _).mp h2
            have hlen : r'.length < f := by rw [hrest] at hf; simp at hf; omega
            rcases ih n { s with prev := ['*', '/'] ++ r', rest := r' } hlen with
              ⟨b, q, e, hb, s', g1, g2, g3⟩ | ⟨s', g⟩
            · simp only at e
              exact .inl ⟨a ++ '*' :: '/' :: b, q, by rw [hrest, e]; simp, BlockTail.prepend ha (.closes hb), s', g1, g2,
                g3.of⟩
            · exact .inr ⟨s', g⟩
          · rw [if_neg h2]
            cases r with
            | nil => exact .inr ⟨_, rfl⟩
            | cons c r' =>
              have hlen : r'.length < f := by rw [hrest] at hf; simp at hf; omega
              rcases ih (n + 1) { s with prev := s.rest, rest := r' } hlen with
                ⟨b, q, e, hb, s', g1, g2, g3⟩ | ⟨s', g⟩
              · simp only at e
                refine .inl ⟨a ++ c :: b, q, by rw [hrest, e]; simp, BlockTail.prepend ha (.other ?_ ?_ hb), s', g1, g2,
                  g3.of⟩
                · rintro ⟨t, ht⟩
                  apply h1
                  rw [e, ← List.cons_append, ← ht]; simp
                · rintro ⟨t, ht⟩
                  apply h2
                  rw [e, ← List.cons_append, ← ht]; simp
              · exact .inr ⟨s', g⟩

/-! ### Comments -/

theorem skipComment_none {s : St} (h : startsWith s.rest ['/'] = false) : skipComment s = .ok none s := by
  unfold skipComment
  simp only [bind_apply, consumeChar_false h, Bool.false_eq_true, ↓reduceIte, pure_apply, ite_P]

/-- After `/`, `skip_comment` looks at one more character. -/
theorem skipComment_slash {s : St} {t : Text} (h : s.rest = '/' :: t) :
    skipComment s = (do
      let c ← nextChar
      if c == '/' then
        let s ← getSt
        advance (whileLen (fun c => c != '\n') s.rest)
        let s ← getSt
        if s.rest.isEmpty then pure (some .unclosedLine) else pure (some .closedLine)
      else if c == '*' then
        let s ← getSt
        blockLoop (s.rest.length + 1) 1
        pure (some .block)
      else fail (.unexpectedChar c) : P (Option Comment)) { s with prev := s.rest, rest := t } := by
  unfold skipComment
  rw [bind_apply, consumeChar_true h]
  rfl

theorem skipComment_line {s : St} {b r : Text} (h : s.rest = '/' :: '/' :: (b ++ '\n' :: r)) (hb : '\n' ∉ b) :
    RunsW skipComment s (some .closedLine) ('\n' :: r) := by
  have hw : whileLen (fun c => c != '\n') (b ++ '\n' :: r) = b.length := by
    rw [whileLen_append _ _ _ (by intro c hc; simp; rintro rfl; exact hb hc), whileLen_cons_false _ _ _ (by simp)]
    rfl
  refine ⟨{ s with prev := b ++ '\n' :: r, rest := '\n' :: r }, ?_, rfl, .step _ _ _⟩
  rw [skipComment_slash h, bind_apply, nextChar_cons rfl]
  simp [hw]

theorem skipComment_openLine {s : St} {b : Text} (h : s.rest = '/' :: '/' :: b) (hb : '\n' ∉ b) :
    RunsW skipComment s (some .unclosedLine) [] := by
  have hw : whileLen (fun c => c != '\n') b = b.length := by
    have := whileLen_append (fun c => c != '\n') b [] (by intro c hc; simp; rintro rfl; exact hb hc)
    simpa using this
  refine ⟨{ s with prev := b, rest := [] }, ?_, rfl, .step _ _ _⟩
  rw [skipComment_slash h, bind_apply, nextChar_cons rfl]
  simp [hw]

theorem skipComment_block {s : St} {b r : Text} (h : s.rest = '/' :: '*' :: (b ++ r)) (hb : BlockTail 1 b) :
    RunsW skipComment s (some .block) r := by
  obtain ⟨s', h1, h2, h3⟩ := blockLoop_ok ((b ++ r).length + 1) 1 b r hb
    { s with prev := s.rest, rest := b ++ r } rfl (by simp; omega)
  refine ⟨s', ?_, h2, h3.of⟩
  rw [skipComment_slash h, bind_apply, nextChar_cons rfl]
  simp only [show ('*' == '/') = false from rfl, Bool.false_eq_true, ↓reduceIte, ite_P, beq_self_eq_true,
    bind_apply, getSt_apply, h1, pure_apply]

/-- `skip_comment` on any input. -/
theorem skipComment_cases (s : St) :
    (startsWith s.rest ['/'] = false ∧ skipComment s = .ok none s) ∨
    (∃ b r, s.rest = '/' :: '/' :: (b ++ '\n' :: r) ∧ '\n' ∉ b ∧ RunsW skipComment s (some .closedLine) ('\n' :: r)) ∨
    (∃ b, s.rest = '/' :: '/' :: b ∧ '\n' ∉ b ∧ RunsW skipComment s (some .unclosedLine) []) ∨
    (∃ b r, s.rest = '/' :: '*' :: (b ++ r) ∧ BlockTail 1 b ∧ RunsW skipComment s (some .block) r) ∨
    (∃ t, s.rest = '/' :: '*' :: t ∧ (∀ b r, t = b ++ r → ¬ BlockTail 1 b) ∧
      Fails skipComment s .unclosedBlockComment) ∨
    (s.rest = ['/'] ∧ Fails skipComment s .eof) ∨
    (∃ c t, s.rest = '/' :: c :: t ∧ c ≠ '/' ∧ c ≠ '*' ∧ Fails skipComment s (.unexpectedChar c)) := by
  match hs : s.rest with
  | [] => left; exact ⟨by simp, skipComment_none (by simp [hs])⟩
  | c :: t =>
    by_cases hc : c = '/'
    · subst hc
      right
      match t with
      | [] =>
        right; right; right; right; left
        refine ⟨rfl, { s with prev := s.rest, rest := [] }, ?_⟩
        rw [skipComment_slash hs, bind_apply, nextChar_nil rfl]
      | d :: t =>
        by_cases h1 : d = '/'
        · subst h1
          obtain ⟨a, r, hrest, ha, hw, hr⟩ := whileLen_split (fun c => c != '\n') t
          have hn : '\n' ∉ a := by intro h; simpa using ha _ h
          match r with
          | [] =>
            right; left
            refine ⟨t, rfl, by rw [hrest]; simpa using hn, skipComment_openLine hs (by rw [hrest]; simpa using hn)⟩
          | c :: r =>
            have hc := hr c r rfl
            simp only [bne_eq_false_iff_eq] at hc
            subst hc
            left
            refine ⟨a, r, by rw [hrest], hn, skipComment_line (by rw [hs, hrest]) hn⟩
        · by_cases h2 : d = '*'
          · subst h2
            right; right
            rcases blockLoop_cases (t.length + 1) 1 { s with prev := s.rest, rest := t } (by simp) with
              ⟨b, r, e, hb, _⟩ | ⟨s', hfail⟩
            · simp only at e; subst e
              left
              exact ⟨b, r, rfl, hb, skipComment_block hs hb⟩
            · right; left
              have hF : Fails skipComment s .unclosedBlockComment := by
                refine ⟨s', ?_⟩
                rw [skipComment_slash hs, bind_apply, nextChar_cons rfl]
                simp only [show ('*' == '/') = false from rfl, Bool.false_eq_true, ↓reduceIte, ite_P,
                  beq_self_eq_true, bind_apply, getSt_apply, hfail]
              refine ⟨t, rfl, ?_, hF⟩
              rintro b r rfl hb
              obtain ⟨s1, g1, _⟩ := skipComment_block hs hb
              obtain ⟨s2, g2⟩ := hF
              rw [g1] at g2; cases g2
          · right; right; right; right; right
            refine ⟨d, t, rfl, h1, h2, { s with prev := s.rest, rest := t }, ?_⟩
            rw [skipComment_slash hs, bind_apply, nextChar_cons rfl]
            simp [h1, h2]
    · left
      have : startsWith (c :: t) ['/'] = false := by simpa using Ne.symm hc
      exact ⟨this, skipComment_none (by rw [hs]; exact this)⟩

/-! ### White space -/

theorem NoLayoutStart.slash {r : Text} (h : NoLayoutStart r) : startsWith r ['/'] = false := by
  cases r with
  | nil => rfl
  | cons c r => simpa using Ne.symm (h c r rfl).2

theorem NoLayoutStart.whileLen {r : Text} (h : NoLayoutStart r) : whileLen isWs r = 0 := by
  cases r with
  | nil => rfl
  | cons c r =>
    apply whileLen_cons_false
    apply Bool.eq_false_iff.mpr
    exact fun hc => (h c r rfl).1 ((isWs_iff c).mp hc)

theorem slash_not_ws : isWs '/' = false := by decide

/-- Layout is a run of white space followed by nothing or by a comment. -/
theorem Layout.split {l : Text} (h : Layout l) :
    ∃ a l', l = a ++ l' ∧ (∀ c ∈ a, isWs c = true) ∧
      (l' = [] ∨ (∃ b l'', l' = '/' :: '/' :: (b ++ '\n' :: l'') ∧ '\n' ∉ b ∧ Layout l'') ∨
        (∃ b l'', l' = '/' :: '*' :: (b ++ l'') ∧ BlockTail 1 b ∧ Layout l'')) := by
  induction h with
  | nil => exact ⟨[], [], rfl, by simp, .inl rfl⟩
  | @ws c l hc h ih =>
    obtain ⟨a, l', rfl, ha, hh⟩ := ih
    refine ⟨c :: a, l', rfl, ?_, hh⟩
    intro d hd
    rcases List.mem_cons.mp hd with rfl | hd
    · exact (isWs_iff _).mpr hc
    · exact ha d hd
  | line hb h => exact ⟨[], _, rfl, by simp, .inr (.inl ⟨_, _, rfl, hb, h⟩)⟩
  | block hb h => exact ⟨[], _, rfl, by simp, .inr (.inr ⟨_, _, rfl, hb, h⟩)⟩

theorem Layout.prepend {a l : Text} (ha : ∀ c ∈ a, isWs c = true) (h : Layout l) : Layout (a ++ l) := by
  induction a with
  | nil => exact h
  | cons c a ih => exact .ws ((isWs_iff c).mp (ha c (by simp))) (ih fun d hd => ha d (by simp [hd]))

theorem Layout.append {a l : Text} (ha : Layout a) (h : Layout l) : Layout (a ++ l) := by
  induction ha with
  | nil => exact h
  | ws hc _ ih => exact .ws hc ih
  | line hb _ ih => simpa using Layout.line hb ih
  | block hb _ ih => simpa using Layout.block hb ih

/-- One turn of the `skip_ws` loop. -/
theorem skipWsLoop_step (f : Nat) (s : St) (a r : Text) (hrest : s.rest = a ++ r) (ha : ∀ c ∈ a, isWs c = true)
    (hr : ∀ c r', r = c :: r' → isWs c = false) :
    skipWsLoop (f + 1) s = (match skipComment { s with prev := s.rest, rest := r } with
      | .ok none s' => .ok false s'
      | .ok (some .unclosedLine) s' => .ok true s'
      | .ok (some _) s' => skipWsLoop f s'
      | .err e s' => .err e s') := by
  have hw : whileLen isWs s.rest = a.length := by
    rw [hrest, whileLen_append _ _ _ ha]
    cases r with
    | nil => rfl
    | cons c r' => rw [whileLen_cons_false _ _ _ (hr c r' rfl)]; rfl
  have hdrop : s.rest.drop (whileLen isWs s.rest) = r := by rw [hw, hrest]; simp
  rw [skipWsLoop]
  simp only [bind_apply, getSt_apply, advance_apply, whileLen_le, ↓reduceIte, hdrop]
  cases skipComment { s with prev := s.rest, rest := r } with
  | err e s' => rfl
  | ok c s' =>
    cases c with
    | none => rfl
    | some c => cases c <;> rfl

theorem skipWsLoop_ok (f : Nat) (l r : Text) (hl : Layout l) (hr : NoLayoutStart r) (s : St) (hs : s.rest = l ++ r)
    (hf : l.length < f) : RunsW (skipWsLoop f) s false r := by
  induction f generalizing l s with
  | zero => omega
  | succ f ih =>
    obtain ⟨a, l', rfl, ha, hh⟩ := hl.split
    have hrest : s.rest = a ++ (l' ++ r) := by rw [hs, List.append_assoc]
    have hws : ∀ c r', l' ++ r = c :: r' → isWs c = false := by
      intro c r' h
      rcases hh with rfl | ⟨b, l'', rfl, _⟩ | ⟨b, l'', rfl, _⟩
      · exact Bool.eq_false_iff.mpr fun hc => (hr c r' h).1 ((isWs_iff c).mp hc)
      · simp only [List.cons_append, List.cons.injEq] at h; rw [← h.1]; exact slash_not_ws
      · simp only [List.cons_append, List.cons.injEq] at h; rw [← h.1]; exact slash_not_ws
    unfold RunsW
    rw [skipWsLoop_step f s a (l' ++ r) hrest ha hws]
    rcases hh with rfl | ⟨b, l'', rfl, hb, hl''⟩ | ⟨b, l'', rfl, hb, hl''⟩
    · rw [skipComment_none (by exact hr.slash)]
      exact ⟨_, rfl, rfl, .step _ _ _⟩
    · obtain ⟨s1, h1, h2, h3⟩ := skipComment_line
        (s := { s with prev := s.rest, rest := '/' :: '/' :: (b ++ '\n' :: l'') ++ r })
        (b := b) (r := l'' ++ r) (by simp) hb
      rw [h1]
      have := ih ('\n' :: l'') (.ws (by decide) hl'') s1 (by rw [h2]; rfl) (by simp at hf ⊢; omega)
      obtain ⟨s2, g1, g2, g3⟩ := this
      exact ⟨s2, g1, g2, (h3.trans g3).of⟩
    · obtain ⟨s1, h1, h2, h3⟩ := skipComment_block
        (s := { s with prev := s.rest, rest := '/' :: '*' :: (b ++ l'') ++ r })
        (b := b) (r := l'' ++ r) (by simp) hb
      rw [h1]
      have := ih l'' hl'' s1 h2 (by simp at hf ⊢; omega)
      obtain ⟨s2, g1, g2, g3⟩ := this
      exact ⟨s2, g1, g2, (h3.trans g3).of⟩

/-- What a text looks like on which `skip_ws` fails. -/
def LayoutError (t : Text) (e : Err) : Prop :=
  (∃ u, t = '/' :: '*' :: u ∧ (∀ b r, u = b ++ r → ¬ BlockTail 1 b) ∧ e = .unclosedBlockComment) ∨
  (t = ['/'] ∧ e = .eof) ∨
  (∃ c u, t = '/' :: c :: u ∧ c ≠ '/' ∧ c ≠ '*' ∧ e = .unexpectedChar c)

theorem Layout.newline {l q u : Text} (h : Layout l) (e : '\n' :: q = l ++ u) (hu : ∀ u', u ≠ '\n' :: u') :
    ∃ l0, l = '\n' :: l0 ∧ q = l0 ++ u ∧ Layout l0 := by
  cases h with
  | nil => exact absurd e.symm (hu q)
  | ws hc h =>
    simp only [List.cons_append, List.cons.injEq] at e
    obtain ⟨rfl, rfl⟩ := e
    exact ⟨_, rfl, rfl, h⟩
  | line => simp at e
  | block => simp at e

theorem LayoutError.slash {t : Text} {e : Err} (h : LayoutError t e) : ∃ t', t = '/' :: t' := by
  rcases h with ⟨u, rfl, _⟩ | ⟨rfl, _⟩ | ⟨c, u, rfl, _⟩ <;> exact ⟨_, rfl⟩

theorem skipWsLoop_cases (f : Nat) (s : St) (hf : s.rest.length < f) :
    (∃ l r, s.rest = l ++ r ∧ Layout l ∧ NoLayoutStart r ∧ RunsW (skipWsLoop f) s false r) ∨
    (∃ l u, s.rest = l ++ u ∧ Layout l ∧ OpenLine u ∧ RunsW (skipWsLoop f) s true []) ∨
    (∃ l u e, s.rest = l ++ u ∧ Layout l ∧ LayoutError u e ∧ Fails (skipWsLoop f) s e) := by
  induction f generalizing s with
  | zero => omega
  | succ f ih =>
    obtain ⟨a, r, hrest, ha, -, hr⟩ := whileLen_split isWs s.rest
    have hA : Layout a := by simpa using Layout.prepend ha .nil
    unfold RunsW Fails
    rw [skipWsLoop_step f s a r hrest ha hr]
    have hlen : a.length + r.length < f + 1 := by rw [hrest] at hf; simpa using hf
    rcases skipComment_cases { s with prev := s.rest, rest := r } with
      ⟨h1, h2⟩ | ⟨b, q, e, hb, s1, h1, h2, h3⟩ | ⟨b, e, hb, s1, h1, h2, h3⟩ | ⟨b, q, e, hb, s1, h1, h2, h3⟩ |
      ⟨t, e, hb, s1, h1⟩ | ⟨e, s1, h1⟩ | ⟨c, t, e, hc, hc', s1, h1⟩
    · left
      refine ⟨a, r, hrest, hA, ?_, ?_⟩
      · rintro c r' rfl
        refine ⟨fun h => ?_, ?_⟩
        · have := hr c r' rfl
          rw [(isWs_iff c).mpr h] at this; cases this
        · rintro rfl; simp at h1
      · rw [h2]; exact ⟨_, rfl, rfl, .step _ _ _⟩
    · simp only at e; subst e
      rw [h1]
      simp only [List.length_cons, List.length_append] at hlen
      rcases ih s1 (by rw [h2]; simp; omega) with ⟨l, u, g0, gl, gr, s2, g1, g2, g3⟩ |
          ⟨l, u, g0, gl, gr, s2, g1, g2, g3⟩ | ⟨l, u, e, g0, gl, gr, s2, g1⟩
      · left
        rw [h2] at g0
        obtain ⟨l0, rfl, rfl, hl0⟩ := gl.newline g0 (by rintro u' rfl; exact absurd (gr _ _ rfl).1 (by decide))
        exact ⟨a ++ '/' :: '/' :: (b ++ '\n' :: l0), u, by rw [hrest]; simp, Layout.prepend ha (.line hb hl0), gr,
          s2, g1, g2, (h3.trans g3).of⟩
      · right; left
        rw [h2] at g0
        obtain ⟨l0, rfl, rfl, hl0⟩ := gl.newline g0 (by rintro u' rfl; obtain ⟨_, h, _⟩ := gr; simp at h)
        exact ⟨a ++ '/' :: '/' :: (b ++ '\n' :: l0), u, by rw [hrest]; simp, Layout.prepend ha (.line hb hl0), gr,
          s2, g1, g2, (h3.trans g3).of⟩
      · right; right
        rw [h2] at g0
        obtain ⟨l0, rfl, rfl, hl0⟩ := gl.newline g0 (by rintro u' rfl; obtain ⟨_, h⟩ := gr.slash; simp at h)
        exact ⟨a ++ '/' :: '/' :: (b ++ '\n' :: l0), u, e, by rw [hrest]; simp, Layout.prepend ha (.line hb hl0), gr,
          s2, g1⟩
    · right; left
      rw [h1]
      exact ⟨a, r, hrest, hA, ⟨b, e, hb⟩, s1, rfl, h2, h3.of⟩
    · simp only at e; subst e
      rw [h1]
      simp only [List.length_cons, List.length_append] at hlen
      rcases ih s1 (by rw [h2]; omega) with ⟨l, u, g0, gl, gr, s2, g1, g2, g3⟩ |
          ⟨l, u, g0, gl, gr, s2, g1, g2, g3⟩ | ⟨l, u, e, g0, gl, gr, s2, g1⟩
      · left
        rw [h2] at g0; subst g0
        exact ⟨a ++ '/' :: '*' :: (b ++ l), u, by rw [hrest]; simp, Layout.prepend ha (.block hb gl), gr,
          s2, g1, g2, (h3.trans g3).of⟩
      · right; left
        rw [h2] at g0; subst g0
        exact ⟨a ++ '/' :: '*' :: (b ++ l), u, by rw [hrest]; simp, Layout.prepend ha (.block hb gl), gr,
          s2, g1, g2, (h3.trans g3).of⟩
      · right; right
        rw [h2] at g0; subst g0
        exact ⟨a ++ '/' :: '*' :: (b ++ l), u, e, by rw [hrest]; simp, Layout.prepend ha (.block hb gl), gr,
          s2, g1⟩
    · right; right
      rw [h1]
      exact ⟨a, r, _, hrest, hA, .inl ⟨t, e, hb, rfl⟩, s1, rfl⟩
    · right; right
      rw [h1]
      exact ⟨a, r, _, hrest, hA, .inr (.inl ⟨e, rfl⟩), s1, rfl⟩
    · right; right
      rw [h1]
      exact ⟨a, r, _, hrest, hA, .inr (.inr ⟨c, t, e, hc, hc', rfl⟩), s1, rfl⟩

/-- `pre_ws_cursor` after `skip_ws` has looked at the previous white space. -/
def St.newPreWs (s : St) : Text :=
  match s.lastWs with
  | some k => if s.rest.length + k < s.preWs.length then s.rest else s.preWs
  | none => s.preWs

theorem skipWs_eq (s : St) :
    skipWs s = if s.rest = [] then .ok () { s with preWs := s.newPreWs } else
      match skipWsLoop (s.rest.length + 1) { s with preWs := s.newPreWs } with
      | .ok true s' => .ok () { s' with lastWs := none }
      | .ok false s' => .ok () { s' with lastWs := some (s'.preWs.length - s'.rest.length) }
      | .err e s' => .err e s' := by
  have h0 : s.trackWs = { s with preWs := s.newPreWs } := by
    unfold St.newPreWs St.trackWs
    obtain ⟨src, rest, preWs, lastWs, prev, exts, nv, li, lim⟩ := s
    cases lastWs with
    | none => rfl
    | some k => simp only; split <;> rfl
  unfold skipWs
  simp only [bind_apply, modSt_apply, h0, getSt_apply]
  by_cases h : s.rest = []
  · simp [h]
  · simp only [List.isEmpty_iff, h, if_false, ite_P, bind_apply]
    cases skipWsLoop (s.rest.length + 1) { s with preWs := s.newPreWs } with
    | err e s' => rfl
    | ok b s' => cases b <;> rfl

theorem Keeps.pre {s s' : St} {p : Text} (h : Keeps { s with preWs := p } s') : Keeps s s' :=
  ⟨h.src, h.exts, h.nv, h.lastIdent, h.limit⟩

/-- `skip_ws` on layout, with the white space bookkeeping. -/
theorem skipWs_full {s : St} {l r : Text} (hs : s.rest = l ++ r) (hl : Layout l) (hr : NoLayoutStart r) :
    ∃ s', skipWs s = .ok () s' ∧ s'.rest = r ∧ Keeps s s' ∧ s'.preWs = s.newPreWs ∧
      s'.lastWs = if s.rest = [] then s.lastWs else some (s.newPreWs.length - r.length) := by
  rw [skipWs_eq]
  by_cases h : s.rest = []
  · rw [if_pos h, if_pos h]
    rw [h] at hs
    have : r = [] := by
      have := congrArg List.length hs
      simp at this
      exact List.eq_nil_of_length_eq_zero (by omega)
    exact ⟨_, rfl, by rw [this]; exact h, (Keeps.refl _).pre, rfl, rfl⟩
  · rw [if_neg h, if_neg h]
    obtain ⟨s', h1, h2, h3⟩ := skipWsLoop_ok (s.rest.length + 1) l r hl hr { s with preWs := s.newPreWs } hs
      (by rw [hs]; simp; omega)
    rw [h1]
    refine ⟨_, rfl, h2, ?_, h3.preWs, ?_⟩
    · exact ⟨h3.src, h3.exts, h3.nv, h3.lastIdent, h3.limit⟩
    · simp only [h2, h3.preWs]

theorem skipWs_ok {s : St} {l r : Text} (hs : s.rest = l ++ r) (hl : Layout l) (hr : NoLayoutStart r) :
    Runs skipWs s () r :=
  let ⟨s', h1, h2, h3, _⟩ := skipWs_full hs hl hr; ⟨s', h1, h2, h3⟩

/-- `skip_ws` on any input. -/
theorem skipWs_cases (s : St) :
    (∃ l r, s.rest = l ++ r ∧ Layout l ∧ NoLayoutStart r ∧ Runs skipWs s () r) ∨
    (∃ l u, s.rest = l ++ u ∧ Layout l ∧ OpenLine u ∧
      ∃ s', skipWs s = .ok () s' ∧ s'.rest = [] ∧ Keeps s s' ∧ s'.lastWs = none) ∨
    (∃ l u e, s.rest = l ++ u ∧ Layout l ∧ LayoutError u e ∧ Fails skipWs s e) := by
  rcases skipWsLoop_cases (s.rest.length + 1) { s with preWs := s.newPreWs } (by simp) with
    ⟨l, r, e, hl, hr, _⟩ | ⟨l, u, e, hl, hu, s', h1, h2, h3⟩ | ⟨l, u, e, he, hl, hu, s', h1⟩
  · exact .inl ⟨l, r, e, hl, hr, skipWs_ok e hl hr⟩
  · right; left
    simp only at e
    have hne : s.rest ≠ [] := by obtain ⟨b, rfl, _⟩ := hu; rw [e]; simp
    refine ⟨l, u, e, hl, hu, { s' with lastWs := none }, ?_, ?_, ?_, ?_⟩
    · rw [skipWs_eq, if_neg hne, h1]
    · exact h2
    · exact ⟨h3.src, h3.exts, h3.nv, h3.lastIdent, h3.limit⟩
    · rfl
  · right; right
    simp only at he
    have hne : s.rest ≠ [] := by obtain ⟨b, rfl⟩ := hu.slash; rw [he]; simp
    exact ⟨l, u, e, he, hl, hu, s', by rw [skipWs_eq, if_neg hne, h1]⟩

/-! ### Uniqueness of the split into layout and the rest -/

theorem BlockTail.unique {b b' r r' : Text} (hb : BlockTail 1 b) (hb' : BlockTail 1 b') (h : b ++ r = b' ++ r') :
    b = b' ∧ r = r' := by
  obtain ⟨s1, h1, h2, _⟩ := skipComment_block (s := St.init ('/' :: '*' :: (b ++ r))) rfl hb
  obtain ⟨s2, g1, g2, _⟩ := skipComment_block (s := St.init ('/' :: '*' :: (b ++ r))) (b := b') (r := r')
    (by simp only [St.init, h]) hb'
  rw [h1] at g1; cases g1
  have : r = r' := h2.symm.trans g2
  subst this
  exact ⟨List.append_cancel_right h, rfl⟩

theorem line_unique {b b' r r' : Text} (hb : '\n' ∉ b) (hb' : '\n' ∉ b') (h : b ++ '\n' :: r = b' ++ '\n' :: r') :
    b = b' ∧ r = r' := by
  induction b generalizing b' with
  | nil =>
    cases b' with
    | nil => simpa using h
    | cons c b' => simp at h; simp at hb'; exact absurd h.1 hb'.1
  | cons c b ih =>
    cases b' with
    | nil => simp at h; simp [h.1] at hb
    | cons c' b' =>
      simp only [List.cons_append, List.cons.injEq] at h
      obtain ⟨rfl, h⟩ := h
      obtain ⟨rfl, rfl⟩ := ih (by simp at hb; exact hb.2) (by simp at hb'; exact hb'.2) h
      exact ⟨rfl, rfl⟩

/-- Texts in front of which `skip_ws` stops, succeeds at the end of input, or fails. -/
def Stuck (u : Text) : Prop := NoLayoutStart u ∨ OpenLine u ∨ ∃ e, LayoutError u e

theorem Stuck.nil_of_layout {l w : Text} (hu : Stuck (l ++ w)) (hl : Layout l) : l = [] := by
  cases hl with
  | nil => rfl
  | ws hc =>
    exfalso
    rcases hu with h | ⟨b, h, _⟩ | ⟨e, h⟩
    · exact (h _ _ rfl).1 hc
    · simp only [List.cons_append, List.cons.injEq] at h
      rw [h.1] at hc; exact absurd hc (by decide)
    · obtain ⟨t, h⟩ := h.slash
      simp only [List.cons_append, List.cons.injEq] at h
      rw [h.1] at hc; exact absurd hc (by decide)
  | @line b l hb _ =>
    exfalso
    rcases hu with h | ⟨b', h, h'⟩ | ⟨e, h⟩
    · exact (h _ _ rfl).2 rfl
    · simp at h; rw [← h] at h'; simp at h'
    · rcases h with ⟨u, h, _⟩ | ⟨h, _⟩ | ⟨c, u, h, hc, _⟩
      · simp at h
      · simp at h
      · simp at h; exact hc h.1.symm
  | @block b l hb _ =>
    exfalso
    rcases hu with h | ⟨b', h, h'⟩ | ⟨e, h⟩
    · exact (h _ _ rfl).2 rfl
    · simp at h
    · rcases h with ⟨u, h, hn, _⟩ | ⟨h, _⟩ | ⟨c, u, h, _, hc, _⟩
      · simp at h; exact hn b (l ++ w) h.symm hb
      · simp at h
      · simp at h; exact hc h.1.symm

theorem layout_unique {l l' u u' : Text} (hl : Layout l) (hl' : Layout l') (hu : Stuck u) (hu' : Stuck u')
    (h : l ++ u = l' ++ u') : l = l' ∧ u = u' := by
  induction hl generalizing l' with
  | nil =>
    simp only [List.nil_append] at h
    subst h
    have := hu.nil_of_layout hl'
    subst this
    exact ⟨rfl, rfl⟩
  | @ws c l hc hl ih =>
    cases hl' with
    | nil =>
      simp only [List.nil_append] at h
      rw [← h] at hu'
      cases hu'.nil_of_layout (.ws hc hl)
    | ws hc' hl' =>
      simp only [List.cons_append, List.cons.injEq] at h
      obtain ⟨rfl, h⟩ := h
      obtain ⟨rfl, rfl⟩ := ih hl' h
      exact ⟨rfl, rfl⟩
    | line =>
      simp only [List.cons_append, List.cons.injEq] at h
      rw [h.1] at hc; exact absurd hc (by decide)
    | block =>
      simp only [List.cons_append, List.cons.injEq] at h
      rw [h.1] at hc; exact absurd hc (by decide)
  | @line b l hb hl ih =>
    cases hl' with
    | nil =>
      simp only [List.nil_append] at h
      rw [← h] at hu'
      cases hu'.nil_of_layout (.line hb hl)
    | ws hc' hl' =>
      simp only [List.cons_append, List.cons.injEq] at h
      rw [← h.1] at hc'; exact absurd hc' (by decide)
    | line hb' hl' =>
      simp only [List.cons_append, List.append_assoc, List.cons.injEq, true_and] at h
      obtain ⟨rfl, h2⟩ := line_unique hb hb' h
      obtain ⟨rfl, rfl⟩ := ih hl' h2
      exact ⟨rfl, rfl⟩
    | block => simp at h
  | @block b l hb hl ih =>
    cases hl' with
    | nil =>
      simp only [List.nil_append] at h
      rw [← h] at hu'
      cases hu'.nil_of_layout (.block hb hl)
    | ws hc' hl' =>
      simp only [List.cons_append, List.cons.injEq] at h
      rw [← h.1] at hc'; exact absurd hc' (by decide)
    | line => simp at h
    | block hb' hl' =>
      simp only [List.cons_append, List.append_assoc, List.cons.injEq, true_and] at h
      obtain ⟨rfl, h2⟩ := hb.unique hb' h
      obtain ⟨rfl, rfl⟩ := ih hl' h2
      exact ⟨rfl, rfl⟩

theorem NoLayoutStart.not_slash {t : Text} (h : NoLayoutStart ('/' :: t)) : False := (h _ _ rfl).2 rfl

theorem OpenLine.not_error {u : Text} {e : Err} (h : OpenLine u) (h' : LayoutError u e) : False := by
  obtain ⟨b, rfl, _⟩ := h
  rcases h' with ⟨u, h, _⟩ | ⟨h, _⟩ | ⟨c, u, h, hc, _⟩
  · simp at h
  · simp at h
  · simp at h; exact hc h.1.symm

theorem LayoutError.unique {u : Text} {e e' : Err} (h : LayoutError u e) (h' : LayoutError u e') : e = e' := by
  rcases h with ⟨_, rfl, _, rfl⟩ | ⟨rfl, rfl⟩ | ⟨c, _, rfl, hc1, hc2, rfl⟩ <;>
    rcases h' with ⟨_, h, _, rfl⟩ | ⟨h, rfl⟩ | ⟨d, _, h, hd1, hd2, rfl⟩ <;>
    simp_all <;> exact absurd h.1.symm ‹_›

/-- On layout followed by an unclosed comment etc., `skip_ws` fails. -/
theorem skipWs_error {s : St} {l u : Text} {e : Err} (hs : s.rest = l ++ u) (hl : Layout l) (hu : LayoutError u e) :
    Fails skipWs s e := by
  rcases skipWs_cases s with ⟨l', r, g, hl', hr, -⟩ | ⟨l', u', g, hl', hu', -⟩ | ⟨l', u', e', g, hl', hu', hF⟩
  · obtain ⟨rfl, rfl⟩ := layout_unique hl hl' (.inr (.inr ⟨e, hu⟩)) (.inl hr) (hs.symm.trans g)
    obtain ⟨t, rfl⟩ := hu.slash
    exact hr.not_slash.elim
  · obtain ⟨rfl, rfl⟩ := layout_unique hl hl' (.inr (.inr ⟨e, hu⟩)) (.inr (.inl hu')) (hs.symm.trans g)
    exact (hu'.not_error hu).elim
  · obtain ⟨rfl, rfl⟩ := layout_unique hl hl' (.inr (.inr ⟨e, hu⟩)) (.inr (.inr ⟨e', hu'⟩)) (hs.symm.trans g)
    rw [hu.unique hu']; exact hF

theorem skipWs_openLine {s : St} {l u : Text} (hs : s.rest = l ++ u) (hl : Layout l) (hu : OpenLine u) :
    ∃ s', skipWs s = .ok () s' ∧ s'.rest = [] ∧ Keeps s s' ∧ s'.lastWs = none := by
  rcases skipWs_cases s with ⟨l', r, g, hl', hr, -⟩ | ⟨l', u', g, hl', hu', h⟩ | ⟨l', u', e', g, hl', hu', -⟩
  · obtain ⟨rfl, rfl⟩ := layout_unique hl hl' (.inr (.inl hu)) (.inl hr) (hs.symm.trans g)
    obtain ⟨b, rfl, _⟩ := hu
    exact hr.not_slash.elim
  · exact h
  · obtain ⟨rfl, rfl⟩ := layout_unique hl hl' (.inr (.inl hu)) (.inr (.inr ⟨e', hu'⟩)) (hs.symm.trans g)
    exact (hu.not_error hu').elim

end Ron
