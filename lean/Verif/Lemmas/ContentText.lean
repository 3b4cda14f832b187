import Verif.Lemmas.Scan
/-!
# How buffered texts begin and how the look-ahead passes over them
-/
set_option linter.unusedSimpArgs false

namespace Ron

variable [Env]

/-! ### Words -/

theorem wordy_raw {c : Char} (h : isIdentRaw c = true) : Wordy c := by
  simp only [isIdentRaw, Bool.or_eq_true, beq_iff_eq] at h
  rcases h with ((rfl | rfl) | rfl) | h
  · decide
  · decide
  · decide
  · refine ⟨fun hw => ?_, fun hm => ?_⟩
    · rw [Env.xidCont_ws c ((isWs_iff c).mpr hw)] at h; cases h
    · simp only [List.mem_cons, List.not_mem_nil, or_false] at hm
      rcases hm with rfl | rfl | rfl | rfl | rfl | rfl | rfl | rfl | rfl | rfl <;>
        (rw [Env.xidCont_ascii _ (by decide)] at h; revert h; decide)

omit [Env] in
theorem wordy_digit {c : Char} (h : isDigit c = true) : Wordy c := by
  obtain ⟨-, -, h3, h4⟩ := isDigit_bounds h
  refine ⟨h3, fun hm => ?_⟩
  simp only [List.mem_cons, List.not_mem_nil, or_false] at hm
  rcases hm with rfl | rfl | rfl | rfl | rfl | rfl | rfl | rfl | rfl | rfl <;> (revert h; decide)

theorem KeyTok.wordy {n t : Text} (h : KeyTok n t) : t ≠ [] ∧ ∀ c ∈ t, Wordy c := by
  obtain ⟨hn, rfl | ⟨rfl, -⟩⟩ := h
  · refine ⟨by simp, fun c hc => ?_⟩
    simp only [List.mem_cons] at hc
    rcases hc with rfl | rfl | hc
    · decide
    · decide
    · exact wordy_raw (hn.2 c hc)
  · exact ⟨hn.1, fun c hc => wordy_raw (hn.2 c hc)⟩

theorem NameTok.wordy {n t : Text} (h : NameTok n t) : t ≠ [] ∧ ∀ c ∈ t, Wordy c := h.keyTok.wordy

omit [Env] in
theorem reserved_wordy {w : Text} (h : w ∈ reservedNames) : w ≠ [] ∧ ∀ c ∈ w, Wordy c := by
  have : ∀ w ∈ reservedNames, w ≠ [] ∧ ∀ c ∈ w, Wordy c := by decide
  exact this w h

theorem number_wordy (n : Number) (sfx : Bool) : n.text sfx ≠ [] ∧ ∀ c ∈ n.text sfx, Wordy c := by
  refine ⟨?_, ?_⟩
  · rcases number_text_form n sfx with ⟨v, hw⟩ | ⟨c, u, hc, -⟩
    · exact (reserved_wordy (floatWord_reserved hw)).1
    · rw [hc]; simp
  have dec : ∀ {t : Text}, Decimal t → ∀ c ∈ t, Wordy c := by
    rintro t ⟨sg, ip, fp, h1, h2, h3, rfl⟩ c hc
    simp only [List.mem_append, List.mem_cons] at hc
    rcases hc with (hc | hc) | rfl | hc
    · rcases h1 with rfl | rfl
      · cases hc
      · simp at hc; subst hc; decide
    · exact wordy_digit (h2.2 c hc)
    · decide
    · exact wordy_digit (h3.2 c hc)
  have words : ∀ {t : Text}, t ∈ [c!"inf", c!"-inf", c!"NaN", c!"-NaN"] → ∀ c ∈ t, Wordy c := by
    intro t ht
    have : ∀ t ∈ [c!"inf", c!"-inf", c!"NaN", c!"-NaN"], ∀ c ∈ t, Wordy c := by decide
    exact this t ht
  have sf : ∀ b : Bool, ∀ c ∈ (if sfx then floatSuffix b else []), Wordy c := by
    have : ∀ s b : Bool, ∀ c ∈ (if s then floatSuffix b else []), Wordy c := by decide
    exact this sfx
  cases n with
  | int t v =>
    simp only [Number.text, litOf_text]
    intro c hc
    rcases List.mem_append.mp hc with hc | hc
    · unfold intText at hc
      split at hc
      · rcases List.mem_cons.mp hc with rfl | hc
        · decide
        · exact wordy_digit (natText_digit _ c hc)
      · exact wordy_digit (natText_digit _ c hc)
    · cases sfx with
      | false => cases hc
      | true => 
        have : ∀ c ∈ t.suffix, Wordy c := by cases t <;> decide
        exact this c hc
  | f32 b =>
    simp only [Number.text]
    intro c hc
    rcases List.mem_append.mp hc with hc | hc
    · rcases f32Text_form b with ⟨h1, -⟩ | ⟨h1, -⟩
      · exact dec h1 c hc
      · exact words h1 c hc
    · exact sf true c hc
  | f64 b =>
    simp only [Number.text]
    intro c hc
    rcases List.mem_append.mp hc with hc | hc
    · rcases f64Text_form b with ⟨h1, -⟩ | ⟨h1, -⟩
      · exact dec h1 c hc
      · exact words h1 c hc
    · exact sf false c hc

/-! ### How items begin -/

/-- What the identifier check of `check_struct_type` finds at an item: nothing, all of the item, or a name before parentheses. -/
def Peeks (t : Text) : Prop := ∀ (d : St) (l q : Text), d.rest = t ++ (l ++ q) → Blank l → Stop q →
  skipIdentifier d = .ok none d ∨
  (∃ n s, skipIdentifier d = .ok (some n) s ∧ KeepsD d s ∧ s.rest = l ++ q) ∨
  ∃ n s l1 p, skipIdentifier d = .ok (some n) s ∧ KeepsD d s ∧ Layout l1 ∧ s.rest = l1 ++ ('(' :: p ++ (l ++ q)) ∧ Skips ('(' :: p)

theorem peeks_none {t : Text} (h : ∀ d : St, ∀ r, d.rest = t ++ r → skipIdentifier d = .ok none d) : Peeks t :=
  fun d _ _ hd _ _ => .inl (h d _ hd)

theorem peeks_ascii {c : Char} {u : Text} (h : c.toNat < 128) (hc : (c == '_' || isAsciiAlpha c) = false) : Peeks (c :: u) :=
  peeks_none fun _ _ hd => skipIdentifier_ascii hd h hc

theorem peeks_word {t : Text} (h : PlainName t) : Peeks t := by
  intro d l q hd hl hq
  obtain ⟨s, h1, h2, h3⟩ := skipIdentifier_plain h (follow_ident hl.layout hq) hd
  exact .inr (.inl ⟨t, s, h1, h3.toD, h2⟩)

theorem NameTok.peeks {n t : Text} (h : NameTok n t) : Peeks t := by
  intro d l q hd hl hq
  obtain ⟨s, h1, h2, h3⟩ := h.skips (follow_ident hl.layout hq) hd
  exact .inr (.inl ⟨n, s, h1, h3.toD, h2⟩)

theorem NameTok.peeks_paren {n t l u : Text} (h : NameTok n t) (hl : Blank l) (hu : Skips ('(' :: u)) : Peeks (t ++ (l ++ '(' :: u)) := by
  intro d l' q hd _ _
  obtain ⟨s, h1, h2, h3⟩ := h.skips (r := l ++ '(' :: (u ++ (l' ++ q))) (layout_follow hl.layout (parenOpen_follow _)) (by simpa using hd)
  exact .inr (.inr ⟨n, s, l, u, h1, h3.toD, hl.layout, by simpa using h2, hu⟩)

theorem peeks_some {l u : Text} (hl : Blank l) (hu : Skips ('(' :: u)) : Peeks (c!"Some" ++ (l ++ '(' :: u)) := by
  intro d l' q hd _ _
  obtain ⟨s, h1, h2, h3⟩ := skipIdentifier_plain (reserved_plain (w := c!"Some") (by simp [reservedNames]))
    (r := l ++ '(' :: (u ++ (l' ++ q))) (layout_follow hl.layout (parenOpen_follow _)) (by simpa using hd)
  exact .inr (.inr ⟨_, s, l, u, h1, h3.toD, hl.layout, by simpa using h2, hu⟩)

theorem peeks_number (n : Number) (sfx : Bool) : Peeks (n.text sfx) := by
  rcases number_text_form n sfx with ⟨v, hw⟩ | ⟨c, u, hc, hcd⟩
  · exact peeks_word (reserved_plain (floatWord_reserved hw))
  · rw [hc]
    rcases hcd with h | rfl
    · exact peeks_ascii (isDigit_bounds h).1 (isDigit_bounds h).2.1
    · exact peeks_ascii (by decide) (by decide)

theorem peeks_str {t v : Text} (h : StrLit t v) : Peeks t := by
  refine peeks_none fun d r hd => ?_
  rcases h.form r with ⟨u, hu⟩ | ⟨u, hu, hs⟩
  · exact skipIdentifier_ascii (hd.trans hu) (by decide) (by decide)
  · exact skipIdentifier_string (by rw [hd]; exact hs)

theorem peeks_bytes {t : Text} {v : List UInt8} (h : BytesLit t v) : Peeks t := by
  refine peeks_none fun d r hd => ?_
  obtain ⟨u, hu, hs, -⟩ := h.form r
  exact skipIdentifier_string (by rw [hd]; exact hs)

/-! ### The struct type -/

/-- One item in parentheses. -/
theorem struct_newtype {d : St} {a t l r : Text} (ht : TokStart t) (hs : Skips t) (hh : Peeks t)
    (hd : d.rest = '(' :: (a ++ (t ++ (l ++ ')' :: r)))) (ha : Layout a) (hl : Blank l) :
    Struct .noParensMeanUnit .differentiate d .newtypeTuple := by
  have hq : Stop (')' :: r) := stop_cons (by simp)
  obtain ⟨s1, h1, h2, h3⟩ := skipWs_tok (d := { d with prev := d.rest, rest := a ++ (t ++ (l ++ ')' :: r)) }) rfl ha (ht.noLayout _)
  have hk1 := (KeepsD.step d _ _).trans h3
  have hc : startsWith s1.rest [')'] = false := by rw [h2]; exact ht.notDelim _ (by simp)
  have scan : ∀ (s : St) (u : Text) (l1 : Text), Layout l1 → s.rest = l1 ++ u → NoLayoutStart u → Peek 0 u false → ∃ s', structTypeScan .differentiate s = .ok .newtypeTuple s' ∧ KeepsD s s' := by
    intro s u l1 hl1 hs hu hp
    obtain ⟨s', g1, g2⟩ := hp.sees hl1 hu s (s.rest.length + 1) hs (by rw [hs]; omega)
    refine ⟨s', ?_, g2⟩
    unfold structTypeScan
    simp only [bind_apply, getSt_apply, reduceCtorEq, ↓reduceIte, Nat.zero_add] at g1 ⊢
    simp only [g1, Bool.false_eq_true, ↓reduceIte, pure_apply]
  rcases hh s1 l _ h2 hl hq with hn | ⟨n, s2, g1, g2, g3⟩ | ⟨n, s2, l1, p, g1, g2, g3, g4, g5⟩
  · obtain ⟨s', m1, m2⟩ := scan s1 _ [] .nil h2 (ht.noLayout _) (hs.newtype hl)
    refine struct_of_inner (s := s') ?_ (hk1.trans m2)
    unfold checkStructTypeInner
    simp [bind_apply, consumeChar_true hd, h1, hc, hn, m1]
  · obtain ⟨s3, k1, k2, k3⟩ := skipWs_tok g3 hl.layout hq.noLayout
    refine struct_of_inner (s := s3) ?_ (hk1.trans (g2.trans k3))
    unfold checkStructTypeInner
    simp [bind_apply, consumeChar_true hd, h1, hc, g1, k1, k2]
  · obtain ⟨s3, k1, k2, k3⟩ := skipWs_tok g4 g3 (noLayout_open _)
    obtain ⟨s', m1, m2⟩ := scan s3 _ [] .nil k2 (noLayout_open _) (g5.newtype hl)
    refine struct_of_inner (s := s') ?_ (hk1.trans (g2.trans (k3.trans m2)))
    unfold checkStructTypeInner
    simp [bind_apply, consumeChar_true hd, h1, hc, g1, k1, k2, m1]

/-- Several items in parentheses. -/
theorem struct_second {d : St} {a t l a' r : Text} (ht : TokStart t) (hs : Skips t) (hh : Peeks t)
    (hd : d.rest = '(' :: (a ++ (t ++ (l ++ ',' :: (a' ++ r))))) (ha : Layout a) (hl : Blank l) (ha' : Layout a') (hr : TokStart r) :
    Struct .noParensMeanUnit .differentiate d .nonNewtypeTuple := by
  have hq : Stop (',' :: (a' ++ r)) := stop_cons (by simp)
  have hr1 : NoLayoutStart r := by simpa using hr.noLayout []
  have hr2 : startsWith r [')'] = false := by simpa using hr.notDelim [] (c := ')') (by simp)
  obtain ⟨s1, h1, h2, h3⟩ := skipWs_tok (d := { d with prev := d.rest, rest := a ++ (t ++ (l ++ ',' :: (a' ++ r))) }) rfl ha (ht.noLayout _)
  have hk1 := (KeepsD.step d _ _).trans h3
  have hc : startsWith s1.rest [')'] = false := by rw [h2]; exact ht.notDelim _ (by simp)
  have scan : ∀ (s : St) (u : Text) (l1 : Text), Layout l1 → s.rest = l1 ++ u → NoLayoutStart u → Peek 0 u true → ∃ s', structTypeScan .differentiate s = .ok .nonNewtypeTuple s' ∧ KeepsD s s' := by
    intro s u l1 hl1 hs hu hp
    obtain ⟨s', g1, g2⟩ := hp.sees hl1 hu s (s.rest.length + 1) hs (by rw [hs]; omega)
    refine ⟨s', ?_, g2⟩
    unfold structTypeScan
    simp only [bind_apply, getSt_apply, reduceCtorEq, ↓reduceIte, Nat.zero_add] at g1 ⊢
    simp only [g1, ↓reduceIte, pure_apply]
  have hsec : ∀ {t : Text}, Skips t → Peek 0 (t ++ (l ++ ',' :: (a' ++ r))) true := fun h => by
    have := h.second hl ha' hr1
    rw [hr2] at this
    exact this
  rcases hh s1 l _ h2 hl hq with hn | ⟨n, s2, g1, g2, g3⟩ | ⟨n, s2, l1, p, g1, g2, g3, g4, g5⟩
  · obtain ⟨s', m1, m2⟩ := scan s1 _ [] .nil h2 (ht.noLayout _) (hsec hs)
    refine struct_of_inner (s := s') ?_ (hk1.trans m2)
    unfold checkStructTypeInner
    simp [bind_apply, consumeChar_true hd, h1, hc, hn, m1]
  · obtain ⟨s3, k1, k2, k3⟩ := skipWs_tok g3 hl.layout hq.noLayout
    have k2' : ({ s3 with rest := s3.rest.drop 1 } : St).rest = a' ++ r := by simp [k2]
    obtain ⟨s4, m1, m2, m3⟩ := skipWs_tok k2' ha' hr1
    refine struct_of_inner (s := s4) ?_
      (hk1.trans (g2.trans (k3.trans (KeepsD.trans (b := { s3 with rest := s3.rest.drop 1 }) ⟨rfl, rfl, rfl, id⟩ m3))))
    unfold checkStructTypeInner
    rw [k2] at m1
    simp only [List.drop_succ_cons, List.drop_zero] at m1
    have hsk : skipNextChar s3 = .ok () { s3 with rest := a' ++ r } := by
      unfold skipNextChar
      simp only [modSt_apply, k2, List.drop_succ_cons, List.drop_zero]
    simp [bind_apply, consumeChar_true hd, h1, hc, g1, k1, k2, hsk, m1, m2, hr2]
  · obtain ⟨s3, k1, k2, k3⟩ := skipWs_tok g4 g3 (noLayout_open _)
    obtain ⟨s', m1, m2⟩ := scan s3 _ [] .nil k2 (noLayout_open _) (hsec g5)
    refine struct_of_inner (s := s') ?_ (hk1.trans (g2.trans (k3.trans m2)))
    unfold checkStructTypeInner
    simp [bind_apply, consumeChar_true hd, h1, hc, g1, k1, k2, m1]

/-! ### Lists -/

omit [Env] in
theorem BBody.body {ts : List Text} {u : Text} (h : BBody ts u) : Body ts u := by
  induction h with
  | one => exact .one
  | cons hb ha _ ih => exact .cons hb.layout ha.layout ih

omit [Env] in
theorem BTail.tail {b : Text} (h : BTail b) : Tail b := by
  cases h with
  | plain h => exact .plain h.layout
  | comma h h' => exact .comma h.layout h'.layout

omit [Env] in
theorem BDelim.delim {o c : Char} {ts : List Text} {w : Text} (h : BDelim o c ts w) : Delim o c ts w := by
  cases h with
  | nil h => exact .nil h.layout
  | items ha hu ht => exact .items ha.layout hu.body ht.tail

omit [Env] in
theorem BEntry.entry {k v w : Text} (h : BEntry k v w) : Entry k v w := by
  cases h with
  | mk h h' => exact .mk h.layout h'.layout

omit [Env] in
theorem BBody.pass {ts : List Text} {u : Text} (h : BBody ts u) (hts : ∀ t ∈ ts, TokStart t ∧ Skips t) : Pass u ∧ TokStart u := by
  induction h with
  | @one t => exact ⟨(hts t (by simp)).2.pass, (hts t (by simp)).1⟩
  | @cons t b a u ts hb ha _ ih =>
    obtain ⟨h1, h2⟩ := ih fun t ht => hts t (List.mem_cons_of_mem _ ht)
    have h3 := hts t (List.mem_cons_self ..)
    exact ⟨h3.2.pass.comma hb ha.layout h1 h2, h3.1.append _⟩

omit [Env] in
theorem BDelim.skips {o c : Char} {ts : List Text} {w : Text} (h : BDelim o c ts w) (ho : o ∈ ['(', '[', '{']) (hc : c ∈ [')', ']', '}'])
    (hts : ∀ t ∈ ts, TokStart t ∧ Skips t) : Skips w := by
  cases h with
  | nil ha => exact skips_empty ho hc ha.layout
  | @items a u t _ ha hu ht =>
    obtain ⟨h1, h2⟩ := hu.pass hts
    cases ht with
    | plain hb => exact skips_brackets ho hc ha.layout h1 h2 hb
    | @comma b b' hb hb' =>
      have := skips_brackets (t := u ++ (b ++ [','])) (b := b') ho hc ha.layout (h1.trail hb) (h2.append _) hb'
      simpa using this

omit [Env] in
theorem BDelim.open {o c : Char} {ts : List Text} {w : Text} (h : BDelim o c ts w) : ∃ u, w = o :: u := by
  cases h <;> exact ⟨_, rfl⟩

/-! ### All buffered texts -/

/-- What the look-ahead needs to know of an item. -/
structure Plainly (t : Text) : Prop where
  start : TokStart t
  skips : Skips t
  peeks : Peeks t

theorem plainly_word {w : Text} (h : w ∈ reservedNames) : Plainly w :=
  ⟨tokStart_plain (reserved_plain h), skips_word (reserved_wordy h).1 (reserved_wordy h).2, peeks_word (reserved_plain h)⟩

theorem plainly_open {o : Char} {u : Text} (ho : o ∈ ['(', '[', '{']) (h : Skips (o :: u)) : Plainly (o :: u) := by
  simp only [List.mem_cons, List.not_mem_nil, or_false] at ho
  refine ⟨⟨_, _, rfl, ?_, ?_⟩, h, peeks_ascii ?_ ?_⟩ <;> rcases ho with rfl | rfl | rfl <;> decide

theorem BDelim.plainly {o c : Char} {ts : List Text} {w : Text} (h : BDelim o c ts w) (ho : o ∈ ['(', '[', '{']) (hc : c ∈ [')', ']', '}'])
    (hts : ∀ t ∈ ts, TokStart t ∧ Skips t) : Plainly w := by
  obtain ⟨u, rfl⟩ := h.open
  exact plainly_open ho (h.skips ho hc hts)

theorem skips_one {a t b : Text} (ha : Blank a) (ht : Plainly t) (hb : BTail b) : Skips ('(' :: (a ++ (t ++ (b ++ [')'])))) :=
  (BDelim.items (o := '(') (c := ')') ha .one hb).skips (by simp) (by simp) (by
    intro t' ht'
    simp only [List.mem_cons, List.not_mem_nil, or_false] at ht'
    subst ht'
    exact ⟨ht.start, ht.skips⟩)

mutual
theorem ctext_plainly : ∀ (c : Content) (w : Text), CText c w → Plainly w
  | .bool b, w, h => by
    simp only [CText] at h
    subst h
    cases b
    · exact plainly_word (by simp [reservedNames])
    · exact plainly_word (by simp [reservedNames])
  | .num n, w, h => by
    simp only [CText] at h
    obtain ⟨-, m, sfx, -, rfl, -⟩ := h
    exact ⟨tokStart_number _ _, skips_word (number_wordy _ _).1 (number_wordy _ _).2, peeks_number _ _⟩
  | .char c, w, h => by
    simp only [CText] at h
    subst h
    have hs := skips_char c
    obtain ⟨u, hu⟩ := charText_form c
    refine ⟨?_, hs, ?_⟩ <;> rw [hu]
    · exact ⟨_, _, rfl, by decide, by decide⟩
    · exact peeks_ascii (by decide) (by decide)
  | .str t, w, h => by
    simp only [CText] at h
    rcases h with h | h
    · refine ⟨?_, skips_str h, peeks_str h⟩
      rcases h.form [] with ⟨u, hu⟩ | ⟨u, hu, -⟩ <;> rw [List.append_nil] at hu <;> rw [hu] <;> exact ⟨_, _, rfl, by decide, by decide⟩
    · exact ⟨h.tokStart, skips_word h.wordy.1 h.wordy.2, h.peeks⟩
  | .bytes b, w, h => by
    simp only [CText] at h
    refine ⟨?_, skips_bytes h, peeks_bytes h⟩
    obtain ⟨u, hu, -⟩ := h.form []; rw [List.append_nil] at hu; rw [hu]; exact ⟨_, _, rfl, by decide, by decide⟩
  | .unit, w, h => by
    simp only [CText] at h
    subst h
    exact plainly_open (o := '(') (u := [')']) (by simp) (skips_empty (a := []) (by simp) (by simp) .nil)
  | .none, w, h => by
    simp only [CText] at h
    subst h
    exact plainly_word (by simp [reservedNames])
  | .some c, w, h => by
    simp only [CText] at h
    obtain ⟨l, a, t, b, hl, ha, ht, hb, rfl⟩ := h
    have hs := skips_one ha (ctext_plainly c t ht) hb
    have hw := reserved_wordy (w := c!"Some") (by simp [reservedNames])
    exact ⟨(tokStart_plain (reserved_plain (w := c!"Some") (by simp [reservedNames]))).append _, skips_named hw.1 hw.2 hl hs, peeks_some hl hs⟩
  | .seq cs, w, h => by
    simp only [CText] at h
    obtain ⟨ts, hts, h | ⟨-, h⟩⟩ := h
    · exact h.plainly (by simp) (by simp) (ctextAll_plainly cs ts hts)
    · exact h.plainly (by simp) (by simp) (ctextAll_plainly cs ts hts)
  | .map es, w, h => by
    simp only [CText] at h
    rcases h with ⟨ts, hts, h⟩ | ⟨ts, -, hts, h⟩ | h
    · exact h.plainly (by simp) (by simp) (ctextEntries_plainly es ts hts)
    · exact h.plainly (by simp) (by simp) (ctextFields_plainly es ts hts)
    · exact ctextVariant_plainly es w h
theorem ctextAll_plainly : ∀ (cs : List Content) (ts : List Text), CTextAll cs ts → ∀ t ∈ ts, TokStart t ∧ Skips t
  | [], [], _ => by simp
  | c :: cs, t :: ts, h => by
    simp only [CTextAll] at h
    intro t' ht
    rcases List.mem_cons.mp ht with rfl | ht
    · exact ⟨(ctext_plainly c _ h.1).start, (ctext_plainly c _ h.1).skips⟩
    · exact ctextAll_plainly cs ts h.2 t' ht
  | [], _ :: _, h => by simp [CTextAll] at h
  | _ :: _, [], h => by simp [CTextAll] at h
theorem ctextEntries_plainly : ∀ (es : List (Content × Content)) (ts : List Text), CTextEntries es ts → ∀ t ∈ ts, TokStart t ∧ Skips t
  | [], [], _ => by simp
  | (k, v) :: es, t :: ts, h => by
    simp only [CTextEntries] at h
    intro t' ht
    rcases List.mem_cons.mp ht with rfl | ht
    · obtain ⟨kt, vt, h1, h2, h3⟩ := h.1
      have g1 := ctext_plainly k kt h1
      have g2 := ctext_plainly v vt h2
      cases h3 with
      | mk hl hl' => exact ⟨g1.start.append _, g1.skips.entry hl hl'.layout g2.skips g2.start⟩
    · exact ctextEntries_plainly es ts h.2 t' ht
  | [], _ :: _, h => by simp [CTextEntries] at h
  | _ :: _, [], h => by simp [CTextEntries] at h
theorem ctextFields_plainly : ∀ (es : List (Content × Content)) (ts : List Text), CTextFields es ts → ∀ t ∈ ts, TokStart t ∧ Skips t
  | [], [], _ => by simp
  | (k, v) :: es, t :: ts, h => by
    simp only [CTextFields] at h
    intro t' ht
    rcases List.mem_cons.mp ht with rfl | ht
    · obtain ⟨id, kt, vt, -, h1, h2, h3⟩ := h.1
      have g2 := ctext_plainly v vt h2
      cases h3 with
      | mk hl hl' => exact ⟨h1.tokStart.append _, (skips_word h1.wordy.1 h1.wordy.2).entry hl hl'.layout g2.skips g2.start⟩
    · exact ctextFields_plainly es ts h.2 t' ht
  | [], _ :: _, h => by simp [CTextFields] at h
  | _ :: _, [], h => by simp [CTextFields] at h
theorem ctextVariant_plainly : ∀ (es : List (Content × Content)) (w : Text), CTextVariant es w → Plainly w
  | [(n, c)], w, h => by
    simp only [CTextVariant] at h
    obtain ⟨id, k, l, d, -, hk, hl, rfl, h⟩ := h
    have hs : ∃ u, d = '(' :: u ∧ Skips d := by
      rcases h with ⟨a, t, b, ha, ht, hb, rfl⟩ | h
      · exact ⟨_, rfl, skips_one ha (ctext_plainly c t ht) (.plain hb)⟩
      · exact ctextArgs_plainly c d h
    obtain ⟨u, rfl, hs⟩ := hs
    exact ⟨hk.tokStart.append _, skips_named hk.wordy.1 hk.wordy.2 hl hs, hk.peeks_paren hl hs⟩
  | [], _, h => by simp [CTextVariant] at h
  | _ :: _ :: _, _, h => by simp [CTextVariant] at h
theorem ctextArgs_plainly : ∀ (c : Content) (d : Text), CTextArgs c d → ∃ u, d = '(' :: u ∧ Skips d
  | .seq cs, d, h => by
    simp only [CTextArgs] at h
    obtain ⟨-, ts, hts, h⟩ := h
    obtain ⟨u, hu⟩ := h.open
    exact ⟨u, hu, h.skips (by simp) (by simp) (ctextAll_plainly cs ts hts)⟩
  | .map es, d, h => by
    simp only [CTextArgs] at h
    obtain ⟨-, ts, hts, h⟩ := h
    obtain ⟨u, hu⟩ := h.open
    exact ⟨u, hu, h.skips (by simp) (by simp) (ctextFields_plainly es ts hts)⟩
  | .bool _, _, h => by simp [CTextArgs] at h
  | .num _, _, h => by simp [CTextArgs] at h
  | .char _, _, h => by simp [CTextArgs] at h
  | .str _, _, h => by simp [CTextArgs] at h
  | .bytes _, _, h => by simp [CTextArgs] at h
  | .unit, _, h => by simp [CTextArgs] at h
  | .none, _, h => by simp [CTextArgs] at h
  | .some _, _, h => by simp [CTextArgs] at h
end

end Ron
