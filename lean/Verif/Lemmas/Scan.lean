import Verif.Lemmas.DeAny
import Verif.Spec.Content
/-!
# The look-ahead of `check_struct_type`

`braceLoop` looks for a second element of a tuple.  These lemmas say what it finds on texts whose literals are followed by
white space or a delimiter (a comment right after a literal is taken for content, see `C39_comment_counts`).
-/
set_option linter.unusedSimpArgs false
set_option linter.unusedSectionVars false

namespace Ron

theorem Blank.layout : ∀ {l : Text}, Blank l → Layout l
  | [], _ => .nil
  | c :: _, h => .ws (h c (List.mem_cons_self ..)) (Blank.layout fun d hd => h d (List.mem_cons_of_mem _ hd))

theorem Blank.nil : Blank [] := fun _ h => (nomatch h)

theorem Blank.append {l l' : Text} (h : Blank l) (h' : Blank l') : Blank (l ++ l') := fun c hc =>
  (List.mem_append.mp hc).elim (h c) (h' c)

/-- The loop, with `k` open brackets, answers `b` on the text `u`. -/
def Sees (k : Nat) (u : Text) (b : Bool) : Prop :=
  ∀ (s : St) (f : Nat), s.rest = u → u.length < f → ∃ s', braceLoop f k s = .ok b s' ∧ KeepsD s s'

/-- The three attempts at a literal. -/
def literals : P Unit := do
  tryToken false charLit
  tryToken true string
  tryToken true byteStringNoBase64

/-- What is done with the next character. -/
def branch (f k : Nat) (c : Char) : P Bool :=
  if c == '(' || c == '[' || c == '{' then braceLoop f (k + 2)
  else if c == ')' || c == ']' || c == '}' then braceLoop f k
  else if c == ',' && k == 0 then do
    skipWs
    let more ← checkChar ')'
    pure (!more)
  else braceLoop f (k + 1)

theorem braceLoop_succ (f k : Nat) : braceLoop (f + 1) (k + 1) =
    (do skipWs; literals; let c ← nextChar; branch f k c) := by
  funext s
  unfold literals branch
  rw [braceLoop]
  simp only [bind_apply]
  cases skipWs s with
  | err e s1 => rfl
  | ok a s1 =>
    dsimp only
    cases tryToken false charLit s1 with
    | err e s2 => rfl
    | ok a s2 =>
      dsimp only
      cases tryToken true string s2 with
      | err e s3 => rfl
      | ok a s3 => rfl

/-- The loop after layout. -/
def Peek (k : Nat) (u : Text) (b : Bool) : Prop :=
  ∀ (s : St) (f : Nat), s.rest = u → u.length ≤ f →
    ∃ s', (do literals; let c ← nextChar; branch f k c : P Bool) s = .ok b s' ∧ KeepsD s s'

theorem Peek.sees {k : Nat} {l u : Text} {b : Bool} (h : Peek k u b) (hl : Layout l) (hu : NoLayoutStart u) : Sees (k + 1) (l ++ u) b := by
  intro s f hs hf
  obtain ⟨f, rfl⟩ : ∃ g, f = g + 1 := ⟨f - 1, by omega⟩
  obtain ⟨s1, h1, h2, h3⟩ := skipWs_tok hs hl hu
  obtain ⟨s2, g1, g2⟩ := h s1 f h2 (by simp at hf; omega)
  refine ⟨s2, ?_, h3.trans g2⟩
  rw [braceLoop_succ]
  simp only [bind_apply, h1] at g1 ⊢
  exact g1

/-- What the loop answers after a character. -/
def Branch (k : Nat) (c : Char) (u : Text) (b : Bool) : Prop :=
  if c ∈ ['(', '[', '{'] then Sees (k + 2) u b
  else if c ∈ [')', ']', '}'] then Sees k u b
  else if c = ',' ∧ k = 0 then ∃ l r, u = l ++ r ∧ Layout l ∧ NoLayoutStart r ∧ b = !startsWith r [')']
  else Sees (k + 1) u b

theorem Branch.runs {k : Nat} {c : Char} {u : Text} {b : Bool} (h : Branch k c u b) {s : St} {f : Nat} (hs : s.rest = u) (hf : u.length < f) :
    ∃ s', branch f k c s = .ok b s' ∧ KeepsD s s' := by
  unfold Branch at h
  unfold branch
  split at h
  · rename_i hc
    rw [if_pos (by simpa [or_assoc] using hc)]
    exact h s f hs hf
  · rename_i hc
    rw [if_neg (by simpa [or_assoc] using hc)]
    split at h
    · rename_i hc
      rw [if_pos (by simpa [or_assoc] using hc)]
      exact h s f hs hf
    · rename_i hc
      rw [if_neg (by simpa [or_assoc] using hc)]
      split at h
      · rename_i hc
        rw [if_pos (by simpa using hc)]
        obtain ⟨l, r, e, hl, hr, rfl⟩ := h
        obtain ⟨s1, h1, h2, h3⟩ := skipWs_tok (hs.trans e) hl hr
        exact ⟨s1, by simp only [bind_apply, h1, checkChar_apply, h2, pure_apply], h3⟩
      · rename_i hc
        rw [if_neg (by simpa using hc)]
        exact h s f hs hf

/-! ### Literals -/

/-- No raw string begins here. -/
def NoRaw (u : Text) : Prop := ∀ n r, u ≠ List.replicate n '#' ++ '"' :: r

/-- No literal begins here. -/
structure Dull (u : Text) : Prop where
  quote : startsWith u ['\''] = false
  dquote : startsWith u ['"'] = false
  raw : ∀ r, u = 'r' :: r → NoRaw r
  bytes : startsWith u c!"b\"" = false
  rawBytes : ∀ r, u = 'b' :: 'r' :: r → NoRaw r

theorem rawByteBuf_fails {s : St} (h : NoRaw s.rest) : ∃ s', rawByteBuf s = .err .expectedString s' ∧ KeepsD s s' := by
  obtain ⟨a, r, e, ha, hn, -⟩ := whileLen_split (fun c => c == '#') s.rest
  have ea : a = List.replicate a.length '#' := List.eq_replicate_iff.mpr ⟨rfl, fun c hc => by simpa using ha c hc⟩
  have hq : startsWith r ['"'] = false := by
    cases hh : startsWith r ['"'] with
    | false => rfl
    | true =>
      obtain ⟨r', hr⟩ := (startsWith_iff _ _).mp hh
      exact absurd (by rw [e, hr, ← ea]; rfl) (h a.length r')
  refine ⟨{ s with prev := s.rest, rest := r }, ?_, ⟨rfl, rfl, rfl, id⟩⟩
  have hadv : advance a.length s = .ok () { s with prev := s.rest, rest := r } := by
    unfold advance
    rw [if_pos (by rw [e]; simp)]
    simp [e]
  unfold rawByteBuf
  simp only [bind_apply, getSt_apply, hn, hadv]
  unfold expectChar
  simp only [bind_apply, consumeChar_false (s := { s with prev := s.rest, rest := r }) hq, Bool.false_eq_true, ↓reduceIte]
  rfl

/-- A literal that does not match leaves everything in place. -/
theorem tryToken_fails {α : Type} {strict : Bool} {p : P α} {s s1 : St} {e : Err} (h : p s = .err e s1) (hk : KeepsD s s1)
    (he : e ≠ .expectedStringEnd ∧ e ≠ .eof) : ∃ s', tryToken strict p s = .ok () s' ∧ s'.rest = s.rest ∧ KeepsD s s' := by
  refine ⟨{ s1 with rest := s.rest, preWs := s.preWs, lastWs := s.lastWs }, ?_, rfl, setCursor_keepsD hk ⟨s.rest, s.preWs, s.lastWs⟩⟩
  unfold tryToken
  simp only [bind_apply, cursor_apply, attempt_apply, h, he.1, he.2, decide_false, Bool.or_self, Bool.and_false, Bool.false_eq_true, ↓reduceIte,
    setCursor_apply]

theorem tryToken_ok {α : Type} {strict : Bool} {p : P α} {s : St} {v : α} {r : Text} (h : RunsW p s v r) :
    ∃ s', tryToken strict p s = .ok () s' ∧ s'.rest = r ∧ KeepsD s s' := by
  obtain ⟨s', h1, h2, h3⟩ := h
  refine ⟨s', ?_, h2, h3.toD⟩
  unfold tryToken
  simp only [bind_apply, cursor_apply, attempt_apply, h1, pure_apply]

theorem charLit_dull {s : St} (h : startsWith s.rest ['\''] = false) : ∃ s', charLit s = .err .expectedChar s' ∧ KeepsD s s' := by
  refine ⟨s, ?_, .refl _⟩
  unfold charLit expectChar
  simp only [bind_apply, consumeChar_false h, Bool.false_eq_true, ↓reduceIte]
  rfl

theorem string_dull {s : St} (h : startsWith s.rest ['"'] = false) (hr : ∀ r, s.rest = 'r' :: r → NoRaw r) :
    ∃ s', string s = .err .expectedString s' ∧ KeepsD s s' := by
  unfold string
  simp only [bind_apply, consumeChar_false h, Bool.false_eq_true, ↓reduceIte, ite_P]
  cases hs : startsWith s.rest ['r'] with
  | false => 
    refine ⟨s, ?_, .refl _⟩
    simp only [bind_apply, consumeChar_false hs, Bool.false_eq_true, ↓reduceIte]
    rfl
  | true =>
    obtain ⟨r, e⟩ := (startsWith_iff _ _).mp hs
    have e' : s.rest = 'r' :: r := e
    obtain ⟨s1, h1, h2⟩ := rawByteBuf_fails (s := { s with prev := s.rest, rest := r }) (hr r e')
    refine ⟨s1, ?_, (KeepsD.step s _ _).trans h2⟩
    rw [e'] at h1
    simp only [bind_apply, consumeChar_true e', ↓reduceIte, rawString, e', h1]

theorem bytes_dull {s : St} (h : startsWith s.rest c!"b\"" = false) (hr : ∀ r, s.rest = 'b' :: 'r' :: r → NoRaw r) :
    ∃ s', byteStringNoBase64 s = .err .expectedByteString s' ∧ KeepsD s s' := by
  unfold byteStringNoBase64
  simp only [bind_apply, consumeStr_false h, Bool.false_eq_true, ↓reduceIte, ite_P]
  cases hs : startsWith s.rest c!"br" with
  | false => 
    refine ⟨s, ?_, .refl _⟩
    simp only [bind_apply, consumeStr_false hs, Bool.false_eq_true, ↓reduceIte]
    rfl
  | true =>
    obtain ⟨r, e⟩ := (startsWith_iff _ _).mp hs
    have e' : s.rest = 'b' :: 'r' :: r := e
    obtain ⟨s1, h1, h2⟩ := rawByteBuf_fails (s := { s with prev := s.rest, rest := r }) (hr r e')
    refine ⟨s1, ?_, (KeepsD.step s _ _).trans h2⟩
    rw [e'] at h1
    rw [consumeStr_true hs]
    simp only [bind_apply, ↓reduceIte, rawByteString, e', mapErr_apply, List.drop_succ_cons, List.drop_zero, List.length_cons, List.length_nil, 
      Nat.zero_add, h1]

theorem literals_dull {s : St} (h : Dull s.rest) : ∃ s', literals s = .ok () s' ∧ s'.rest = s.rest ∧ KeepsD s s' := by
  obtain ⟨s1, h1, h2⟩ := charLit_dull h.quote
  obtain ⟨s2, g1, g2, g3⟩ := tryToken_fails (strict := false) h1 h2 (by simp)
  obtain ⟨s3, k1, k2⟩ := string_dull (s := s2) (by rw [g2]; exact h.dquote) (by rw [g2]; exact h.raw)
  obtain ⟨s4, m1, m2, m3⟩ := tryToken_fails (strict := true) k1 k2 (by simp)
  obtain ⟨s5, n1, n2⟩ := bytes_dull (s := s4) (by rw [m2, g2]; exact h.bytes) (by rw [m2, g2]; exact h.rawBytes)
  obtain ⟨s6, o1, o2, o3⟩ := tryToken_fails (strict := true) n1 n2 (by simp)
  refine ⟨s6, ?_, o2.trans (m2.trans g2), g3.trans (m3.trans o3)⟩
  unfold literals
  simp only [bind_apply, g1, m1, o1]

/-- A character that begins no literal. -/
theorem peek_dull {k : Nat} {c : Char} {u : Text} {b : Bool} (hd : Dull (c :: u)) (h : Branch k c u b) : Peek k (c :: u) b := by
  intro s f hs hf
  obtain ⟨s1, h1, h2, h3⟩ := literals_dull (s := s) (by rw [hs]; exact hd)
  rw [hs] at h2
  obtain ⟨s2, g1, g2⟩ := h.runs (s := { s1 with rest := u }) (f := f) rfl (by simp at hf; omega)
  refine ⟨s2, ?_, h3.trans ((⟨rfl, rfl, rfl, id⟩ : KeepsD s1 { s1 with rest := u }).trans g2)⟩
  simp only [bind_apply, h1, nextChar_cons h2]
  exact g1

/-- The loop passes over the text `t` if white space and a delimiter follow. -/
def Skips (t : Text) : Prop := ∀ (k : Nat) (l : Text) (c : Char) (u : Text) (b : Bool), Blank l → c ∈ [',', ')', ']', '}', ':'] →
  Branch k c u b → Peek k (t ++ (l ++ c :: u)) b

/-- The same inside of further brackets. -/
def Pass (t : Text) : Prop := ∀ (k : Nat) (l : Text) (c : Char) (u : Text) (b : Bool), Blank l → c ∈ [',', ')', ']', '}', ':'] →
  Branch (k + 1) c u b → Peek (k + 1) (t ++ (l ++ c :: u)) b

theorem Skips.pass {t : Text} (h : Skips t) : Pass t := fun k => h (k + 1)

/-- Characters that begin no literal whatever follows. -/
theorem dull_char {c : Char} (h : c ∉ ['\'', '"', 'r', 'b']) (u : Text) : Dull (c :: u) := by
  simp only [List.mem_cons, List.not_mem_nil, or_false, not_or] at h
  obtain ⟨h1, h2, h3, h4⟩ := h
  exact ⟨by simp [h1, Ne.symm h1], by simp [h2, Ne.symm h2], fun r e => absurd (List.cons.inj e).1 h3, by simp [h4, Ne.symm h4],
    fun r e => absurd (List.cons.inj e).1 h4⟩

theorem delim_dull {c : Char} (h : c ∈ [',', ')', ']', '}', ':']) (u : Text) : Dull (c :: u) :=
  dull_char (by revert h; simp; rintro (rfl | rfl | rfl | rfl | rfl) <;> decide) u

theorem ws_dull {c : Char} (h : c ∈ ronWhitespace) (u : Text) : Dull (c :: u) := by
  refine dull_char ?_ u
  intro hc
  simp only [List.mem_cons, List.not_mem_nil, or_false] at hc
  rcases hc with rfl | rfl | rfl | rfl <;> revert h <;> decide

theorem delim_noLayout {c : Char} (h : c ∈ [',', ')', ']', '}', ':']) (u : Text) : NoLayoutStart (c :: u) :=
  (stop_cons h).noLayout

theorem blank_dull {l u : Text} {c : Char} (hl : Blank l) (hc : c ∈ [',', ')', ']', '}', ':']) : Dull (l ++ c :: u) := by
  cases l with
  | nil => exact delim_dull hc u
  | cons w l => exact ws_dull (hl w (List.mem_cons_self ..)) _

/-- A delimiter after layout. -/
theorem sees_delim {k : Nat} {l u : Text} {c : Char} {b : Bool} (hl : Layout l) (hc : c ∈ [',', ')', ']', '}', ':']) (h : Branch k c u b) :
    Sees (k + 1) (l ++ c :: u) b :=
  (peek_dull (delim_dull hc u) h).sees hl (delim_noLayout hc u)

/-- After a literal the next character is taken as it is. -/
theorem step_literal {k : Nat} {t l u : Text} {c : Char} {b : Bool} (hl : Blank l) (hc : c ∈ [',', ')', ']', '}', ':']) (h : Branch k c u b)
    (hlit : ∀ s : St, s.rest = t ++ (l ++ c :: u) → ∃ s', literals s = .ok () s' ∧ s'.rest = l ++ c :: u ∧ KeepsD s s') :
    Peek k (t ++ (l ++ c :: u)) b := by
  intro s f hs hf
  obtain ⟨s1, h1, h2, h3⟩ := hlit s hs
  cases l with
  | nil =>
    obtain ⟨s2, g1, g2⟩ := h.runs (s := { s1 with rest := u }) (f := f) rfl (by simp at hf; omega)
    refine ⟨s2, ?_, h3.trans ((⟨rfl, rfl, rfl, id⟩ : KeepsD s1 { s1 with rest := u }).trans g2)⟩
    simp only [bind_apply, h1, nextChar_cons h2]
    exact g1
  | cons w l =>
    have hw := hl w (List.mem_cons_self ..)
    have hb : Branch k w (l ++ c :: u) b := by
      have hs := sees_delim (l := l) (Blank.layout fun d hd => hl d (List.mem_cons_of_mem _ hd)) hc h
      have e : w ∉ ['(', '[', '{'] ∧ w ∉ [')', ']', '}'] ∧ w ≠ ',' := by
        refine ⟨?_, ?_, ?_⟩ <;> (intro he; try simp only [List.mem_cons, List.not_mem_nil, or_false] at he)
        · rcases he with rfl | rfl | rfl <;> revert hw <;> decide
        · rcases he with rfl | rfl | rfl <;> revert hw <;> decide
        · subst he; revert hw; decide
      unfold Branch
      rw [if_neg e.1, if_neg e.2.1, if_neg (fun h => e.2.2 h.1)]
      exact hs
    obtain ⟨s2, g1, g2⟩ := hb.runs (s := { s1 with rest := l ++ c :: u }) (f := f) rfl (by simp at hf ⊢; omega)
    refine ⟨s2, ?_, h3.trans ((⟨rfl, rfl, rfl, id⟩ : KeepsD s1 { s1 with rest := l ++ c :: u }).trans g2)⟩
    simp only [bind_apply, h1]
    rw [nextChar_cons (s := s1) h2]
    exact g1

theorem skips_char (c : Char) : Skips (charText c) := fun k l d u b hl hd h => by
  refine step_literal hl hd h fun s hs => ?_
  have hdl := blank_dull (u := u) hl hd
  obtain ⟨s2, g1, g2, g3⟩ := tryToken_ok (strict := false) (charLit_ok hs)
  obtain ⟨s3, k1, k2⟩ := string_dull (s := s2) (by rw [g2]; exact hdl.dquote) (by rw [g2]; exact hdl.raw)
  obtain ⟨s4, m1, m2, m3⟩ := tryToken_fails (strict := true) k1 k2 (by simp)
  obtain ⟨s5, n1, n2⟩ := bytes_dull (s := s4) (by rw [m2, g2]; exact hdl.bytes) (by rw [m2, g2]; exact hdl.rawBytes)
  obtain ⟨s6, o1, o2, o3⟩ := tryToken_fails (strict := true) n1 n2 (by simp)
  refine ⟨s6, ?_, o2.trans (m2.trans g2), g3.trans (m3.trans o3)⟩
  unfold literals
  simp only [bind_apply, g1, m1, o1]

theorem skips_str {t v : Text} (ht : StrLit t v) : Skips t := fun k l d u b hl hd h => by
  refine step_literal hl hd h fun s hs => ?_
  have hdl := blank_dull (u := u) hl hd
  have hq : startsWith s.rest ['\''] = false := by
    rw [hs]
    rcases ht.form (l ++ d :: u) with ⟨w, e⟩ | ⟨w, e, -⟩ <;> rw [e] <;> simp
  obtain ⟨s1, h1, h2⟩ := charLit_dull hq
  obtain ⟨s2, g1, g2, g3⟩ := tryToken_fails (strict := false) h1 h2 (by simp)
  obtain ⟨s4, m1, m2, m3⟩ := tryToken_ok (strict := true) (string_ok (g2.trans hs) ht)
  obtain ⟨s5, n1, n2⟩ := bytes_dull (s := s4) (by rw [m2]; exact hdl.bytes) (by rw [m2]; exact hdl.rawBytes)
  obtain ⟨s6, o1, o2, o3⟩ := tryToken_fails (strict := true) n1 n2 (by simp)
  refine ⟨s6, ?_, o2.trans m2, g3.trans (m3.trans o3)⟩
  unfold literals
  simp only [bind_apply, g1, m1, o1]

theorem skips_bytes {t : Text} {v : List UInt8} (ht : BytesLit t v) : Skips t := fun k l d u b hl hd h => by
  refine step_literal hl hd h fun s hs => ?_
  obtain ⟨w, e, -, -⟩ := ht.form (l ++ d :: u)
  have e' : s.rest = 'b' :: w := hs.trans e
  obtain ⟨s1, h1, h2⟩ := charLit_dull (s := s) (by rw [e']; simp)
  obtain ⟨s2, g1, g2, g3⟩ := tryToken_fails (strict := false) h1 h2 (by simp)
  obtain ⟨s3, k1, k2⟩ := string_dull (s := s2) (by rw [g2, e']; simp) (by rw [g2, e']; intro r he; cases he)
  obtain ⟨s4, m1, m2, m3⟩ := tryToken_fails (strict := true) k1 k2 (by simp)
  obtain ⟨s6, o1, o2, o3⟩ := tryToken_ok (strict := true) (byteStringNoBase64_ok (m2.trans (g2.trans hs)) ht)
  refine ⟨s6, ?_, o2, g3.trans (m3.trans o3)⟩
  unfold literals
  simp only [bind_apply, g1, m1, o1]

/-! ### Words -/

/-- A character of a name or a number. -/
def Wordy (c : Char) : Prop := c ∉ ronWhitespace ∧ c ∉ ['/', ',', '(', ')', '[', ']', '{', '}', '"', '\'']

instance (c : Char) : Decidable (Wordy c) := inferInstanceAs (Decidable (_ ∧ _))

theorem noRaw_word : ∀ {w : Text} {v : Text} {c : Char}, '"' ∉ w → c ∉ ['#', '"'] → NoRaw (w ++ c :: v)
  | [], v, c, _, hc, n, r, e => by
    simp only [List.mem_cons, List.not_mem_nil, or_false, not_or] at hc
    cases n with
    | zero => exact hc.2 (List.cons.inj e).1
    | succ n => exact hc.1 (List.cons.inj e).1
  | a :: w, v, c, hw, hc, n, r, e => by
    simp only [List.mem_cons, not_or] at hw
    cases n with
    | zero => exact hw.1 (List.cons.inj e).1.symm
    | succ n => exact noRaw_word hw.2 hc n r (List.cons.inj e).2

theorem word_dull {a : Char} {w l u : Text} {c : Char} (ha : Wordy a) (hw : ∀ d ∈ w, Wordy d) (hl : Blank l)
    (hc : c ∈ ['(', ',', ')', ']', '}', ':']) : Dull (a :: (w ++ (l ++ c :: u))) := by
  have hq : ∀ {w : Text}, (∀ d ∈ w, Wordy d) → '"' ∉ w := fun hw h => (hw _ h).2 (by simp)
  obtain ⟨c', v, e, hc'⟩ : ∃ c' v, l ++ c :: u = c' :: v ∧ (c' ∈ ronWhitespace ∨ c' = c) := by
    cases l with
    | nil => exact ⟨_, _, rfl, .inr rfl⟩
    | cons x l => exact ⟨_, _, rfl, .inl (hl x (List.mem_cons_self ..))⟩
  have hn : c' ∉ ['#', '"', '\''] := by
    intro hm
    rcases hc' with h | rfl
    · simp only [List.mem_cons, List.not_mem_nil, or_false] at hm
      rcases hm with rfl | rfl | rfl <;> revert h <;> decide
    · simp only [List.mem_cons, List.not_mem_nil, or_false] at hm
      rcases hm with rfl | rfl | rfl <;> revert hc <;> decide
  have hn2 : c' ∉ ['#', '"'] := fun h => hn (by revert h; simp; rintro (h | h) <;> simp [h])
  have ha2 := ha.2
  simp only [List.mem_cons, List.not_mem_nil, or_false, not_or] at ha2
  rw [e]
  refine ⟨by simp [ha2, Ne.symm ha2.2.2.2.2.2.2.2.2.2], by simp [ha2, Ne.symm ha2.2.2.2.2.2.2.2.2.1], fun r he => ?_, ?_, fun r he => ?_⟩
  · rw [← (List.cons.inj he).2]; exact noRaw_word (hq hw) hn2
  · cases w with
    | nil =>
      have : c' ≠ '"' := by rintro rfl; simp at hn
      simp [Ne.symm this]
    | cons x w =>
      have : x ≠ '"' := by rintro rfl; exact absurd (hw _ (List.mem_cons_self ..)).2 (by simp)
      simp [Ne.symm this]
  · cases w with
    | nil =>
      have h2 := (List.cons.inj he).2
      simp only [List.nil_append, List.cons.injEq] at h2
      rcases hc' with h | rfl
      · rw [h2.1] at h; exact absurd h (by decide)
      · rw [h2.1] at hc; exact absurd hc (by decide)
    | cons x w =>
      have h2 := (List.cons.inj he).2
      simp only [List.cons_append, List.cons.injEq] at h2
      rw [← h2.2]
      exact noRaw_word (hq fun d hd => hw d (List.mem_cons_of_mem _ hd)) hn2

theorem Wordy.branch {c : Char} (h : Wordy c) {k : Nat} {u : Text} {b : Bool} (hs : Sees (k + 1) u b) : Branch k c u b := by
  have h2 := h.2
  simp only [List.mem_cons, List.not_mem_nil, or_false, not_or] at h2
  unfold Branch
  rw [if_neg (by simp [h2]), if_neg (by simp [h2]), if_neg (by simp [h2])]
  exact hs

theorem Wordy.noLayout {c : Char} (h : Wordy c) (u : Text) : NoLayoutStart (c :: u) := by
  intro d r e
  cases e
  exact ⟨h.1, fun e => h.2 (by simp [e])⟩

/-- A word is passed over, also before an opening parenthesis. -/
theorem step_word {k : Nat} : ∀ {w l u : Text} {c : Char} {b : Bool}, w ≠ [] → (∀ d ∈ w, Wordy d) → Blank l →
    c ∈ ['(', ',', ')', ']', '}', ':'] → Peek k (c :: u) b → Peek k (w ++ (l ++ c :: u)) b
  | [], _, _, _, _, h, _, _, _, _ => absurd rfl h
  | [a], l, u, c, b, _, hw, hl, hc, h => by
    refine peek_dull (word_dull (w := []) (hw a (by simp)) (by simp) hl hc) ((hw a (by simp)).branch (h.sees hl.layout ?_))
    intro d r e
    cases e
    simp only [List.mem_cons, List.not_mem_nil, or_false] at hc
    rcases hc with rfl | rfl | rfl | rfl | rfl | rfl <;> decide
  | a :: a' :: w, l, u, c, b, _, hw, hl, hc, h => by
    have hw' : ∀ d ∈ a' :: w, Wordy d := fun d hd => hw d (List.mem_cons_of_mem _ hd)
    refine peek_dull (word_dull (hw a (by simp)) hw' hl hc) ((hw a (by simp)).branch ?_)
    exact (step_word (w := a' :: w) (by simp) hw' hl hc h).sees (l := []) .nil ((hw' a' (by simp)).noLayout _)

theorem skips_word {w : Text} (hne : w ≠ []) (hw : ∀ d ∈ w, Wordy d) : Skips w := fun k l c u b hl hc h =>
  step_word hne hw hl (List.mem_cons_of_mem _ hc) (peek_dull (delim_dull hc u) h)

/-- A word before parentheses. -/
theorem skips_named {w l p : Text} (hne : w ≠ []) (hw : ∀ d ∈ w, Wordy d) (hl : Blank l) (hp : Skips ('(' :: p)) :
    Skips (w ++ (l ++ '(' :: p)) := fun k l' c u b hl' hc h => by
  have := hp k l' c u b hl' hc h
  simp only [List.append_assoc, List.cons_append] at this ⊢
  exact step_word hne hw hl (by simp) this

/-! ### Brackets -/

theorem open_dull {o : Char} (h : o ∈ ['(', '[', '{']) (u : Text) : Dull (o :: u) :=
  dull_char (by revert h; simp; rintro (rfl | rfl | rfl) <;> decide) u

theorem close_delim {c : Char} (h : c ∈ [')', ']', '}']) : c ∈ [',', ')', ']', '}', ':'] := by
  revert h; simp; rintro (rfl | rfl | rfl) <;> simp

theorem branch_close {k : Nat} {c : Char} {u : Text} {b : Bool} (hc : c ∈ [')', ']', '}']) (h : Sees k u b) : Branch k c u b := by
  unfold Branch
  rw [if_neg, if_pos hc]
  · exact h
  · revert hc; simp; rintro (rfl | rfl | rfl) <;> decide

theorem branch_open {k : Nat} {c : Char} {u : Text} {b : Bool} (hc : c ∈ ['(', '[', '{']) (h : Sees (k + 2) u b) : Branch k c u b := by
  unfold Branch
  rw [if_pos hc]
  exact h

/-- Empty brackets. -/
theorem skips_empty {o c : Char} {a : Text} (ho : o ∈ ['(', '[', '{']) (hc : c ∈ [')', ']', '}']) (ha : Layout a) : Skips (o :: (a ++ [c])) :=
  fun k l d u b hl hd h => by
    simp only [List.cons_append, List.append_assoc, List.nil_append]
    exact peek_dull (open_dull ho _) (branch_open ho (sees_delim ha (close_delim hc) (branch_close hc (sees_delim hl.layout hd h))))

/-- Brackets around a text. -/
theorem skips_brackets {o c : Char} {a t b : Text} (ho : o ∈ ['(', '[', '{']) (hc : c ∈ [')', ']', '}']) (ha : Layout a) (ht : Pass t)
    (hts : TokStart t) (hb : Blank b) : Skips (o :: (a ++ (t ++ (b ++ [c])))) := fun k l d u r hl hd h => by
  simp only [List.cons_append, List.append_assoc, List.nil_append]
  refine peek_dull (open_dull ho _) (branch_open ho ((ht k b c (l ++ d :: u) r hb (close_delim hc) ?_).sees ha (hts.noLayout _)))
  exact branch_close hc (sees_delim hl.layout hd h)

theorem branch_comma {k : Nat} {u : Text} {b : Bool} (h : Sees (k + 2) u b) : Branch (k + 1) ',' u b := by
  unfold Branch
  rw [if_neg (by decide), if_neg (by decide), if_neg (by simp)]
  exact h

theorem branch_colon {k : Nat} {u : Text} {b : Bool} (h : Sees (k + 1) u b) : Branch k ':' u b := by
  unfold Branch
  rw [if_neg (by decide), if_neg (by decide), if_neg (by simp)]
  exact h

/-- Two texts with a comma between them. -/
theorem Pass.comma {t l a u : Text} (ht : Pass t) (hl : Blank l) (ha : Layout a) (hu : Pass u) (hus : TokStart u) :
    Pass (t ++ (l ++ ',' :: (a ++ u))) := fun k l' c r b hl' hc h => by
  have := hu k l' c r b hl' hc h
  simp only [List.append_assoc, List.cons_append]
  exact ht k l ',' _ b hl (by simp) (branch_comma (this.sees ha (hus.noLayout _)))

/-- A trailing comma. -/
theorem Pass.trail {t l : Text} (ht : Pass t) (hl : Blank l) : Pass (t ++ (l ++ [','])) := fun k l' c r b hl' hc h => by
  simp only [List.append_assoc, List.cons_append, List.nil_append]
  exact ht k l ',' _ b hl (by simp) (branch_comma (sees_delim hl'.layout hc h))

/-- An entry. -/
theorem Skips.entry {k l a v : Text} (hk : Skips k) (hl : Blank l) (ha : Layout a) (hv : Skips v) (hvs : TokStart v) :
    Skips (k ++ (l ++ ':' :: (a ++ v))) := fun n l' c r b hl' hc h => by
  have := hv n l' c r b hl' hc h
  simp only [List.append_assoc, List.cons_append]
  exact hk n l ':' _ b hl (by simp) (branch_colon (this.sees ha (hvs.noLayout _)))

/-- One item in parentheses is a newtype. -/
theorem Skips.newtype {t : Text} (h : Skips t) {l r : Text} (hl : Blank l) : Peek 0 (t ++ (l ++ ')' :: r)) false :=
  h 0 l ')' r false hl (by simp) (branch_close (by simp) fun s f _ _ => ⟨s, by cases f <;> rfl, .refl _⟩)

/-- A comma after the first item. -/
theorem Skips.second {t : Text} (h : Skips t) {l a r : Text} (hl : Blank l) (ha : Layout a) (hr : NoLayoutStart r) :
    Peek 0 (t ++ (l ++ ',' :: (a ++ r))) (!startsWith r [')']) :=
  h 0 l ',' _ _ hl (by simp) (by
    unfold Branch
    rw [if_neg (by decide), if_neg (by decide), if_pos ⟨rfl, rfl⟩]
    exact ⟨a, r, rfl, ha, hr, rfl⟩)

end Ron
