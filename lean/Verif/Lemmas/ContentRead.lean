import Verif.Lemmas.ContentText
/-!
# Buffered texts are read as the content they stand for
-/
set_option linter.unusedSimpArgs false

namespace Ron

variable [Env]

/-! ### Scalars -/

theorem contentPlain_noKeyword {any : Bool → P Content} {sc : Bool} {d : St} (h : NoKeyword d) (hp : startsWith d.rest c!"()" = false) :
    contentPlain any sc d = (do match ← skipIdentifier with
      | some id => skipWs; contentStruct any sc (some id)
      | none => contentChar any sc : P Content) d := by
  have g : ∀ kw ∈ reservedNames, consumeIdent kw d = .ok false d := fun kw hk => consumeIdent_false (h kw hk)
  unfold contentPlain
  simp only [bind_apply, g c!"true" (by simp [reservedNames]), g c!"false" (by simp [reservedNames]),
    checkIdent_false (h c!"Some" (by simp [reservedNames])), g c!"None" (by simp [reservedNames]),
    consumeStr_false hp, g c!"inf" (by simp [reservedNames]), g c!"inff32" (by simp [reservedNames]),
    g c!"inff64" (by simp [reservedNames]), g c!"NaN" (by simp [reservedNames]), g c!"NaNf32" (by simp [reservedNames]),
    g c!"NaNf64" (by simp [reservedNames]), Bool.false_eq_true, ↓reduceIte]
  rfl

theorem contentPlain_char {any : Bool → P Content} {sc : Bool} {d : St} {c : Char} {u : Text} (hd : d.rest = c :: u)
    (hc : c ∉ ['t', 'f', 'S', 'N', 'i']) (hp : startsWith d.rest c!"()" = false)
    (hs : skipIdentifier d = .ok none d) : contentPlain any sc d = contentChar any sc d := by
  rw [contentPlain_noKeyword (noKeyword_char hd hc) hp]
  simp only [bind_apply, hs]

theorem contentBody_plain {any : Bool → P Content} {sc : Bool} {d : St} (h : d.nv = false) : contentBody any sc d = contentPlain any sc d := by
  unfold contentBody
  simp only [bind_apply, getSt_apply, h, Bool.false_eq_true, ↓reduceIte]

theorem contentRange_plain {n : Number} {d : St} (h : startsWith d.rest c!".." = false) (hn : n.Small) :
    contentRange n d = .ok (.num n) d := by
  have h3 : startsWith d.rest c!"..=" = false := by
    cases hr : d.rest with
    | nil => simp
    | cons a t => cases t with
      | nil => simp
      | cons b t =>
        rw [hr] at h
        revert h
        simp
        intro h h1 h2
        exact absurd h2 (h h1)
  have ho : Content.ofNumber n = .ok (.num n) := by
    cases n with
    | int t v => unfold Content.ofNumber; simp only; rw [if_neg hn]
    | f32 b => rfl
    | f64 b => rfl
  unfold contentRange
  simp only [bind_apply, consumeStr_false h3, consumeStr_false h, Bool.false_eq_true, ↓reduceIte, ho]
  rfl

theorem contentPlain_floatWord {any : Bool → P Content} {sc : Bool} {d : St} {w r : Text} {v : Number} (h : (w, v) ∈ floatWords)
    (hd : d.rest = w ++ r) (hr : NoIdentStart r) (hdots : startsWith r c!".." = false) :
    contentPlain any sc d = .ok (.num v) { d with prev := d.rest, rest := r } := by
  obtain ⟨g, gt, gs, gu⟩ := anyPlain_kw (floatWord_reserved h) hd hr
  have ge32 : ∀ b : F32, contentRange (.f32 b) { d with prev := d.rest, rest := r } = .ok (.num (.f32 b)) { d with prev := d.rest, rest := r } :=
    fun n => contentRange_plain hdots trivial
  have ge64 : ∀ b : F64, contentRange (.f64 b) { d with prev := d.rest, rest := r } = .ok (.num (.f64 b)) { d with prev := d.rest, rest := r } :=
    fun n => contentRange_plain hdots trivial
  unfold contentPlain
  simp only [floatWords, List.mem_cons, Prod.mk.injEq, List.not_mem_nil, or_false] at h
  rcases h with ⟨rfl, rfl⟩ | ⟨rfl, rfl⟩ | ⟨rfl, rfl⟩ | ⟨rfl, rfl⟩ | ⟨rfl, rfl⟩ | ⟨rfl, rfl⟩ <;>
    simp only [bind_apply, g c!"true" (by simp [reservedNames]) (by simp), g c!"false" (by simp [reservedNames]) (by simp),
      gs (by simp), g c!"None" (by simp [reservedNames]) (by simp), gu, gt, ge32, ge64, Bool.false_eq_true, ↓reduceIte]
  all_goals
    first
    | done
    | (rw [g c!"inf" (by simp [reservedNames]) (by simp)]; simp only [Bool.false_eq_true, ↓reduceIte, bind_apply, gt, ge32, ge64])
  all_goals
    first
    | done
    | (rw [g c!"inff32" (by simp [reservedNames]) (by simp)]; simp only [Bool.false_eq_true, ↓reduceIte, bind_apply, gt, ge32, ge64])
  all_goals
    first
    | done
    | (rw [g c!"inff64" (by simp [reservedNames]) (by simp)]; simp only [Bool.false_eq_true, ↓reduceIte, bind_apply, gt, ge32, ge64])
  all_goals
    first
    | done
    | (rw [g c!"NaN" (by simp [reservedNames]) (by simp)]; simp only [Bool.false_eq_true, ↓reduceIte, bind_apply, gt, ge32, ge64])
  all_goals
    first
    | done
    | (rw [g c!"NaNf32" (by simp [reservedNames]) (by simp)]; simp only [Bool.false_eq_true, ↓reduceIte, bind_apply, gt, ge32, ge64])

theorem contentPlain_digits {any : Bool → P Content} {sc : Bool} {d s2 : St} {c : Char} {u : Text} {v : Number} (hd' : d.rest = c :: u)
    (hcd : isDigit c = true ∨ c = '-') (h2 : anyNumber d = .ok v s2) : contentPlain any sc d = contentRange v s2 := by
  have hfacts : c.toNat < 128 ∧ (c == '_' || isAsciiAlpha c) = false ∧ c ∉ ['t', 'f', 'S', 'N', 'i'] ∧
      c ∉ ['(', '[', '{', '"', '\'', 'b', 'r', '.'] := by
    rcases hcd with h | rfl
    · obtain ⟨h1, h2, h3, h4⟩ := isDigit_bounds h
      refine ⟨h1, h2, ?_, ?_⟩ <;> (simp at h4 ⊢; simp [h4])
    · decide
  obtain ⟨f1, f2, f3, f4⟩ := hfacts
  simp only [List.mem_cons, List.not_mem_nil, or_false, not_or] at f4
  obtain ⟨e1, e2, e3, e4, e5, e6, e7, e8⟩ := f4
  have hu : startsWith d.rest c!"()" = false := by rw [hd']; simp [Ne.symm e1, e1]
  have hdd : startsWith d.rest c!".." = false := by rw [hd']; simp [Ne.symm e8, e8]
  have hde : startsWith d.rest c!"..=" = false := by rw [hd']; simp [Ne.symm e8, e8]
  have hnum : (isDigit c || c == '+' || c == '-' || c == '.' || c == 'b') = true := by
    rcases hcd with h | rfl
    · simp [h]
    · decide
  rw [contentPlain_char hd' f3 hu (skipIdentifier_ascii hd' f1 f2)]
  unfold contentChar
  simp only [bind_apply, peekCharOrEof_cons hd', getSt_apply, beq_iff_eq, e1, e2, e3, ↓reduceIte, ite_P]
  rw [if_pos (by simpa using hnum), if_neg (by simp [e6])]
  simp only [bind_apply, consumeStr_false hde, consumeStr_false hdd, Bool.false_eq_true, ↓reduceIte, h2]

theorem contentPlain_number {any : Bool → P Content} {sc : Bool} {d : St} {n v : Number} {sfx : Bool} {r : Text} (hd : d.rest = n.text sfx ++ r)
    (hr : IdentFollow r) (hdots : startsWith r c!".." = false) (hn : RunsW anyNumber d v r) (hv : v.Small) :
    RunsW (contentPlain any sc) d (.num v) r := by
  rcases number_text_form n sfx with ⟨v', hw⟩ | ⟨c, u, hc, hcd⟩
  · obtain ⟨s1, h1, -, -⟩ := anyNumber_consume hd hr.xid hw
    obtain ⟨s2, h2, -, -⟩ := hn
    have hv : v' = v := by rw [h1] at h2; simp only [Res.ok.injEq] at h2; exact h2.1
    subst hv
    exact ⟨_, contentPlain_floatWord hw hd hr.xid hdots, rfl, .step _ _ _⟩
  · obtain ⟨s2, h2, h3, h4⟩ := hn
    refine ⟨s2, ?_, h3, h4⟩
    rw [contentPlain_digits (by rw [hd, hc]; rfl) hcd h2]
    exact contentRange_plain (by rw [h3]; exact hdots) hv

theorem contentPlain_str {any : Bool → P Content} {sc : Bool} {d : St} {t v r : Text} (h : StrLit t v) (hd : d.rest = t ++ r) :
    RunsW (contentPlain any sc) d (.str v) r := by
  obtain ⟨s', h1, h2, h3⟩ := string_ok hd h
  refine ⟨s', ?_, h2, h3⟩
  rcases h.form r with ⟨u, hu⟩ | ⟨u, hu, hs⟩
  · have hd' := hd.trans hu
    rw [contentPlain_char hd' (by decide) (by rw [hd']; simp) (skipIdentifier_ascii hd' (by decide) (by decide))]
    unfold contentChar
    simp [bind_apply, peekCharOrEof_cons hd', h1, show isDigit '"' = false by decide]
  · have hd' := hd.trans hu
    rw [contentPlain_char hd' (by decide) (by rw [hd']; simp) (skipIdentifier_string (by rw [hd]; exact hs))]
    unfold contentChar
    simp [bind_apply, peekCharOrEof_cons hd', h1, show isDigit 'r' = false by decide]

theorem contentPlain_bytes {any : Bool → P Content} {sc : Bool} {d : St} {t r : Text} {v : List UInt8} (h : BytesLit t v) (hd : d.rest = t ++ r) :
    RunsW (contentPlain any sc) d (.bytes v) r := by
  obtain ⟨s', h1, h2, h3⟩ := byteString_ok hd h
  refine ⟨s', ?_, h2, h3⟩
  obtain ⟨u, hu, hs, hb⟩ := h.form r
  have hd' := hd.trans hu
  rw [contentPlain_char hd' (by decide) (by rw [hd']; simp) (skipIdentifier_string (by rw [hd]; exact hs))]
  rw [← hd] at hb
  unfold contentChar
  simp [bind_apply, peekCharOrEof_cons hd', h1, hb]

theorem contentPlain_charLit {any : Bool → P Content} {sc : Bool} {d : St} {c : Char} {r : Text} (hd : d.rest = charText c ++ r) :
    RunsW (contentPlain any sc) d (.char c) r := by
  obtain ⟨s', h1, h2, h3⟩ := charLit_ok hd
  refine ⟨s', ?_, h2, h3⟩
  obtain ⟨u, hu⟩ := charText_form c
  have hd' : d.rest = '\'' :: (u ++ r) := by rw [hd, hu]; rfl
  rw [contentPlain_char hd' (by decide) (by rw [hd']; simp) (skipIdentifier_ascii hd' (by decide) (by decide))]
  unfold contentChar
  simp [bind_apply, peekCharOrEof_cons hd', h1, show isDigit '\'' = false by decide]

theorem contentPlain_true {any : Bool → P Content} {sc : Bool} {d : St} {r : Text} (hd : d.rest = c!"true" ++ r) (hr : NoIdentStart r) :
    RunsW (contentPlain any sc) d (.bool true) r := by
  obtain ⟨g, gt, gs, gu⟩ := anyPlain_kw (w := c!"true") (by simp [reservedNames]) hd hr
  refine ⟨{ d with prev := d.rest, rest := r }, ?_, rfl, .step _ _ _⟩
  unfold contentPlain
  simp only [bind_apply, gt, ↓reduceIte, pure_apply]

theorem contentPlain_false {any : Bool → P Content} {sc : Bool} {d : St} {r : Text} (hd : d.rest = c!"false" ++ r) (hr : NoIdentStart r) :
    RunsW (contentPlain any sc) d (.bool false) r := by
  obtain ⟨g, gt, gs, gu⟩ := anyPlain_kw (w := c!"false") (by simp [reservedNames]) hd hr
  refine ⟨{ d with prev := d.rest, rest := r }, ?_, rfl, .step _ _ _⟩
  unfold contentPlain
  simp only [bind_apply, g c!"true" (by simp [reservedNames]) (by simp), gt, ↓reduceIte, pure_apply, Bool.false_eq_true]

theorem contentPlain_none {any : Bool → P Content} {sc : Bool} {d : St} {r : Text} (hd : d.rest = c!"None" ++ r) (hr : NoIdentStart r) :
    RunsW (contentPlain any sc) d .none r := by
  obtain ⟨g, gt, gs, gu⟩ := anyPlain_kw (w := c!"None") (by simp [reservedNames]) hd hr
  refine ⟨{ d with prev := d.rest, rest := r }, ?_, rfl, .step _ _ _⟩
  unfold contentPlain
  simp only [bind_apply, g c!"true" (by simp [reservedNames]) (by simp), g c!"false" (by simp [reservedNames]) (by simp),
    gs (by simp), gt, ↓reduceIte, pure_apply, Bool.false_eq_true]

theorem contentPlain_unit {any : Bool → P Content} {sc : Bool} {d : St} {r : Text} (hd : d.rest = c!"()" ++ r) :
    RunsW (contentPlain any sc) d .unit r := by
  have hk := noKeyword_char (d := d) hd (by decide)
  have g : ∀ kw ∈ reservedNames, consumeIdent kw d = .ok false d := fun kw hkw => consumeIdent_false (hk kw hkw)
  have hu : consumeStr c!"()" d = .ok true { d with prev := d.rest, rest := d.rest.drop 2 } := consumeStr_true (by rw [hd]; simp)
  refine ⟨{ d with prev := d.rest, rest := d.rest.drop 2 }, ?_, by simp [hd], .step _ _ _⟩
  unfold contentPlain
  simp only [bind_apply, g c!"true" (by simp [reservedNames]), g c!"false" (by simp [reservedNames]),
    checkIdent_false (hk c!"Some" (by simp [reservedNames])), g c!"None" (by simp [reservedNames]), hu, ↓reduceIte, pure_apply,
    Bool.false_eq_true]

theorem contentPlain_some {any : Bool → P Content} {sc : Bool} {d : St} {r : Text} (hd : d.rest = c!"Some" ++ r) (hr : NoIdentStart r) :
    contentPlain any sc d = deOption .none (do let v ← any false; pure (.some v)) d := by
  obtain ⟨g, gt, gs, gu⟩ := anyPlain_kw (w := c!"Some") (by simp [reservedNames]) hd hr
  unfold contentPlain
  simp only [bind_apply, g c!"true" (by simp [reservedNames]) (by simp), g c!"false" (by simp [reservedNames]) (by simp),
    checkIdent_true hd hr, ↓reduceIte, Bool.false_eq_true]

/-! ### Compounds -/

theorem contentPlain_open {any : Bool → P Content} {sc : Bool} {d : St} {u : Text} (hd : d.rest = '(' :: u) (h : startsWith d.rest c!"()" = false) :
    contentPlain any sc d = contentStruct any sc none d := by
  rw [contentPlain_char hd (by decide) h (skipIdentifier_ascii hd (by decide) (by decide))]
  unfold contentChar
  simp [bind_apply, peekCharOrEof_cons hd]

theorem contentPlain_bracket {any : Bool → P Content} {sc : Bool} {d : St} {u : Text} (hd : d.rest = '[' :: u) :
    contentPlain any sc d = deSeq (contentSeq ']' (any false)) d := by
  rw [contentPlain_char hd (by decide) (by rw [hd]; simp) (skipIdentifier_ascii hd (by decide) (by decide))]
  unfold contentChar
  simp [bind_apply, peekCharOrEof_cons hd]

theorem contentPlain_brace {any : Bool → P Content} {sc : Bool} {d : St} {u : Text} (hd : d.rest = '{' :: u) :
    contentPlain any sc d = deMap (contentMap '}' (any false) (any false)) d := by
  rw [contentPlain_char hd (by decide) (by rw [hd]; simp) (skipIdentifier_ascii hd (by decide) (by decide))]
  unfold contentChar
  simp [bind_apply, peekCharOrEof_cons hd]

/-- A name alone. -/
theorem contentPlain_name {any : Bool → P Content} {d : St} {t n l q : Text} (h : NameTok n t) (hd : d.rest = t ++ (l ++ q)) (hl : Layout l)
    (hq : Stop q) : RunsTo (contentPlain any false) d (.str n) q := by
  have hf := follow_ident hl hq
  have hk : NoKeyword d := fun kw hkw => by rw [hd]; exact h.notKeyword hf hkw
  obtain ⟨s1, h1, h2, h3⟩ := h.skips hf hd
  obtain ⟨s2, k1, k2, k3⟩ := skipWs_tok h2 hl hq.noLayout
  obtain ⟨s3, m1, m2, m3⟩ := struct_unit (tm := .imprecise) (d := s2) (by rw [k2]; exact stop_ne hq (by decide))
  refine ⟨s3, [], ?_, by rw [m2, k2]; rfl, .nil, h3.toD.trans (k3.trans m3)⟩
  have hpar : startsWith d.rest c!"()" = false := by
    obtain ⟨c, u, rfl, hc⟩ := h.noParen
    rw [hd]; simp [Ne.symm hc]
  rw [contentPlain_noKeyword hk hpar]
  unfold contentStruct
  simp only [bind_apply, h1, k1, m1, Bool.false_eq_true, ↓reduceIte, pure_apply]

/-- A name before parentheses: the data behind it. -/
theorem contentPlain_variant {any : Bool → P Content} {d : St} {t n l u r : Text} {c : Content} (h : NameTok n t)
    (hd : d.rest = t ++ (l ++ '(' :: u)) (hl : Layout l)
    (hty : ∀ d1 : St, d1.rest = '(' :: u → ∃ ty, Struct .noParensMeanUnit .imprecise d1 ty ∧ ty ≠ .unit)
    (hv : ∀ d1 : St, KeepsD d d1 → d1.rest = '(' :: u → ∃ s', any true d1 = .ok c s' ∧ s'.rest = r ∧ KeepsD d1 s') :
    ∃ s', contentPlain any false d = .ok (.map [(.str n, c)]) s' ∧ s'.rest = r ∧ KeepsD d s' := by
  have hf : IdentFollow (l ++ '(' :: u) := layout_follow hl (parenOpen_follow _)
  have hk : NoKeyword d := fun kw hkw => by rw [hd]; exact h.notKeyword hf hkw
  obtain ⟨s1, h1, h2, h3⟩ := h.skips hf hd
  obtain ⟨s2, k1, k2, k3⟩ := skipWs_tok h2 hl (noLayout_open _)
  obtain ⟨ty, ⟨s3, m1, m2, m3⟩, hne⟩ := hty s2 k2
  rw [k2] at m2
  obtain ⟨s4, n1, n2, n3⟩ := skipWs_tok (l := []) (r := '(' :: u) m2 .nil (noLayout_open _)
  have hk4 := h3.toD.trans (k3.trans (m3.trans n3))
  obtain ⟨s5, o1, o2, o3⟩ := hv s4 hk4 n2
  have hpar : startsWith d.rest c!"()" = false := by
    obtain ⟨c, u, rfl, hc⟩ := h.noParen
    rw [hd]; simp [Ne.symm hc]
  refine ⟨s5, ?_, o2, hk4.trans o3⟩
  rw [contentPlain_noKeyword hk hpar]
  unfold contentStruct
  simp only [bind_apply, h1, k1, m1, Bool.false_eq_true, ↓reduceIte]
  cases ty <;> first | exact absurd rfl hne | simp only [bind_apply, n1, o1, pure_apply]

/-- In the look-ahead without scanning, items in parentheses are a tuple. -/
theorem struct_imprecise {d : St} {a t l q : Text} (ht : Plainly t) (hd : d.rest = '(' :: (a ++ (t ++ (l ++ q))))
    (ha : Layout a) (hl : Blank l) (hq : AfterItem q) :
    ∃ ty, Struct .noParensMeanUnit .imprecise d ty ∧ ty ≠ .unit ∧ ty ≠ .named := by
  have hst := ht.start
  obtain ⟨s1, h1, h2, h3⟩ := skipWs_tok (d := { d with prev := d.rest, rest := a ++ (t ++ (l ++ q)) }) rfl ha (hst.noLayout _)
  have hk1 := (KeepsD.step d _ _).trans h3
  have hc : startsWith s1.rest [')'] = false := by rw [h2]; exact hst.notDelim _ (by simp)
  rcases ht.peeks s1 l q h2 hl hq.stop with hn | ⟨n, s2, g1, g2, g3⟩ | ⟨n, s2, l1, p, g1, g2, g3, g4, -⟩
  · refine ⟨.anyTuple, struct_of_inner (s := s1) ?_ hk1, by simp, by simp⟩
    unfold checkStructTypeInner
    simp [bind_apply, consumeChar_true hd, h1, hc, hn, structTypeScan]
  · obtain ⟨s3, k1, k2, k3⟩ := skipWs_tok g3 hl.layout hq.stop.noLayout
    cases hq with
    | @close r =>
      refine ⟨.newtypeTuple, struct_of_inner (s := s3) ?_ (hk1.trans (g2.trans k3)), by simp, by simp⟩
      unfold checkStructTypeInner
      simp [bind_apply, consumeChar_true hd, h1, hc, g1, k1, k2]
    | @comma l' r hl' hr =>
      have k2' : ({ s3 with rest := s3.rest.drop 1 } : St).rest = l' ++ r := by simp [k2]
      obtain ⟨s4, m1, m2, m3⟩ := skipWs_tok k2' hl' hr
      have hsk : skipNextChar s3 = .ok () { s3 with rest := l' ++ r } := by
        unfold skipNextChar
        simp only [modSt_apply, k2, List.drop_succ_cons, List.drop_zero]
      rw [k2] at m1
      simp only [List.drop_succ_cons, List.drop_zero] at m1
      refine ⟨if startsWith r [')'] then .newtypeTuple else .nonNewtypeTuple,
        struct_of_inner (s := s4) ?_ (hk1.trans (g2.trans (k3.trans (KeepsD.trans (b := { s3 with rest := s3.rest.drop 1 }) ⟨rfl, rfl, rfl, id⟩ m3)))), ?_, ?_⟩
      · unfold checkStructTypeInner
        simp only [bind_apply, ↓reduceIte, consumeChar_true hd, Bool.not_true, Bool.false_eq_true, h1, checkChar_apply, hc,
          g1, k1, k2, peekChar_apply, List.head?_cons, hsk, m1, m2, decide_true, Bool.true_and]
        cases startsWith r [')'] <;> rfl
      · split <;> simp
      · split <;> simp
  · obtain ⟨s3, k1, k2, k3⟩ := skipWs_tok g4 g3 (noLayout_open _)
    refine ⟨.anyTuple, struct_of_inner (s := s3) ?_ (hk1.trans (g2.trans k3)), by simp, by simp⟩
    unfold checkStructTypeInner
    simp [bind_apply, consumeChar_true hd, h1, hc, g1, k1, k2, structTypeScan]

/-- The data of a newtype variant. -/
theorem contentStruct_newtype {any : Bool → P Content} {x : Exts} {k : Nat} {d : St} {a t b r : Text} {c : Content}
    (h : Reads x k (any false) t c) (ht : Plainly t) (hp : Pre x k d) (hd : d.rest = '(' :: (a ++ (t ++ (b ++ ')' :: r))))
    (ha : Layout a) (hb : Blank b) : ∃ s', contentStruct any true none d = .ok c s' ∧ s'.rest = r ∧ KeepsD d s' := by
  obtain ⟨s1, h1, h2, h3⟩ := struct_newtype ht.start ht.skips ht.peeks hd ha hb
  have hd1 := h2.trans hd
  obtain ⟨s2, g1, g2, g3⟩ := skipWs_tok (d := { s1 with prev := s1.rest, rest := a ++ (t ++ (b ++ ')' :: r)) }) rfl ha (ht.start.noLayout _)
  have hk2 := h3.trans ((KeepsD.step s1 _ _).trans g3)
  obtain ⟨s3, l3, m1, m2, m3, m4⟩ := h.2 s2 b (')' :: r) (hp.keep hk2) g2 hb.layout (stop_cons (by simp))
  obtain ⟨s4, n1, n2, n3⟩ := skipWs_tok m2 m3 (stop_cons (c := ')') (by simp)).noLayout
  refine ⟨{ s4 with prev := s4.rest, rest := r }, ?_, rfl, hk2.trans (m4.trans (n3.trans (KeepsD.step _ _ _)))⟩
  unfold contentStruct
  simp only [bind_apply, ↓reduceIte, h1, and_self, consumeChar_true hd1, g1, attempt_apply, m1, n1, consumeChar_true n2]
  rfl

theorem contentIdent_reads {x : Exts} {n t : Text} (h : KeyTok n t) : Reads x 0 contentIdent t (.str n) := by
  refine ⟨h.tokStart, fun d l q hp hd hl hq => ?_⟩
  obtain ⟨s1, h1, h2, h3⟩ := h.reads (follow_ident hl hq) hd
  refine ⟨{ s1 with lastIdent := some n }, l, ?_, h2, hl, h3.toD.trans ⟨rfl, rfl, rfl, id⟩⟩
  unfold contentIdent deIdentifier
  simp only [bind_apply, h1, modSt_apply, pure_apply]

/-- A tuple. -/
theorem contentStruct_tuple {any : Bool → P Content} {sc : Bool} {x : Exts} {k : Nat} {ts : List Text} {cs : List Content} {w r : Text} {d : St}
    {ty : StructType} (hE : All2 (Reads x k (any false)) ts cs) (hw : Delim '(' ')' ts w)
    (hp : Pre x (k + 2) d) (hd : d.rest = w ++ r) (hty : Struct .noParensMeanUnit (if sc then .differentiate else .imprecise) d ty)
    (hu : ty ≠ .unit) (hn : ty ≠ .named) (hnt : ty = .newtypeTuple → sc = false) :
    ∃ s', contentStruct any sc none d = .ok (.seq cs) s' ∧ s'.rest = r ∧ KeepsD d s' := by
  obtain ⟨w', rfl, hi⟩ := delim_inner hw
  obtain ⟨s1, h1, h2, h3⟩ := hty
  obtain ⟨s2, g1, g2, g3⟩ := deTuple_ok (k := k + 1) (visit := contentSeq ')' (any false)) (v := .seq cs) (w := w') (r := r)
    (hp.keep h3) (by rw [h2, hd]; rfl) (fun d' hp' hd' => by
      obtain ⟨s', m1, m2, m3⟩ := readSeq_inner (term := ')') (by simp) hi hE (hp'.mono (by split <;> omega)) hd'
      refine ⟨s', [], ?_, by simpa using m2, .nil, m3⟩
      unfold contentSeq
      simp only [bind_apply, m1, pure_apply])
  refine ⟨s2, ?_, g2, h3.trans g3⟩
  unfold contentStruct
  simp only [bind_apply, h1]
  cases ty with
  | unit => exact absurd rfl hu
  | named => exact absurd rfl hn
  | newtypeTuple =>
    rw [hnt rfl]
    simp only [Bool.false_eq_true, and_false, ↓reduceIte]
    exact g1
  | nonNewtypeTuple => simpa using g1
  | emptyTuple => simpa using g1
  | anyTuple => simpa using g1

/-- A struct. -/
theorem contentStruct_named {any : Bool → P Content} {sc : Bool} {x : Exts} {k : Nat} {es : List Text} {fs : List (Content × Content)} {w r : Text}
    {d : St} (hE : All2 (fun e f => ∃ id kt vt, f.1 = .str id ∧ KeyTok id kt ∧ Reads x k (any false) vt f.2 ∧ Entry kt vt e) es fs) (hne : fs ≠ [])
    (hw : Delim '(' ')' es w) (hp : Pre x (k + 2) d) (hd : d.rest = w ++ r) :
    (∀ tm, Struct .noParensMeanUnit tm d .named) ∧
    ∃ s', contentStruct any sc none d = .ok (.map fs) s' ∧ s'.rest = r ∧ KeepsD d s' := by
  obtain ⟨w', rfl, hi⟩ := delim_inner hw
  have hR : All2 (ReadsEntry x k contentIdent (any false)) es fs := by
    refine hE.mono fun e _ f _ ⟨id, kt, vt, h0, h1, h2, h3⟩ => ⟨kt, vt, ?_, h2, h3⟩
    rw [h0]
    exact (contentIdent_reads h1).mono (Nat.zero_le _)
  have hty : ∀ tm, Struct .noParensMeanUnit tm d .named := by
    intro tm
    rcases first_item (r := r) hi (fun t ht => by obtain ⟨_, _, h⟩ := hR.mem_left t ht; exact h.tokStart) with
      ⟨rfl, -⟩ | ⟨a, t, l, q, ht, ha, hl, hq, e⟩
    · cases fs with
      | nil => exact absurd rfl hne
      | cons _ _ => exact hE.elim
    · obtain ⟨f, -, id, kt, vt, h0, h1, h2, h3⟩ := hE.mem_left t ht
      cases h3 with
      | @mk l1 l2 hl1 hl2 =>
        exact struct_named (q := l2 ++ (vt ++ (l ++ q))) h1 (by rw [hd, List.cons_append, e]; simp) ha hl1
  refine ⟨hty, ?_⟩
  obtain ⟨s1, h1, h2, h3⟩ := hty (if sc then .differentiate else .imprecise)
  obtain ⟨s2, g1, g2, g3⟩ := structAfterName_ok (k := k + 1) (visit := contentMap ')' contentIdent (any false))
    (v := .map fs) (w := w') (r := r) [] (hp.keep h3) (by rw [h2, hd]; rfl) (fun d' hp' hd' => by
      obtain ⟨s', m1, m2, m3⟩ := readMap_inner (term := ')') (by simp) hi hR (hp'.mono (by split <;> omega)) hd'
      refine ⟨s', [], ?_, by simpa using m2, .nil, m3⟩
      unfold contentMap
      simp only [bind_apply, m1, pure_apply])
  refine ⟨s2, ?_, g2, h3.trans g3⟩
  unfold contentStruct
  simp only [bind_apply, h1]
  exact g1

omit [Env] in
/-- What follows the first item. -/
theorem BDelim.first {ts : List Text} {w r : Text} (h : BDelim '(' ')' ts w) (hts : ∀ t ∈ ts, TokStart t) :
    ts = [] ∨ ∃ a t l q, t ∈ ts ∧ Blank a ∧ Blank l ∧ AfterItem q ∧ w ++ r = '(' :: (a ++ (t ++ (l ++ q))) ∧
      (2 ≤ ts.length → ∃ a' u, q = ',' :: (a' ++ u) ∧ Layout a' ∧ TokStart u) := by
  cases h with
  | nil ha => exact .inl rfl
  | @items a u t _ ha hu ht =>
    right
    cases hu with
    | one =>
      cases ht with
      | plain hb => exact ⟨a, u, _, _, by simp, ha, hb, .close (r := r), by simp, by simp⟩
      | @comma b c hb hc =>
        exact ⟨a, u, b, ',' :: (c ++ ')' :: r), by simp, ha, hb, .comma hc.layout (stop_cons (c := ')') (by simp)).noLayout, by simp, by simp⟩
    | @cons t0 b a' u ts hb ha' hu =>
      have hs := hu.body.tokStart fun t ht => hts t (List.mem_cons_of_mem _ ht)
      exact ⟨a, t0, b, ',' :: (a' ++ (u ++ (t ++ ')' :: r))), by simp, ha, hb, .comma ha'.layout (hs.noLayout _), by simp,
        fun _ => ⟨a', _, rfl, ha'.layout, hs.append _⟩⟩

omit [Env] in
theorem BBody.shorter {ts : List Text} {u : Text} (h : BBody ts u) : ∀ t ∈ ts, t.length ≤ u.length := by
  induction h with
  | one => simp
  | cons _ _ _ ih =>
    intro t ht
    rcases List.mem_cons.mp ht with rfl | ht
    · simp
    · have := ih t ht
      simp; omega

omit [Env] in
theorem BDelim.shorter {o c : Char} {ts : List Text} {w : Text} (h : BDelim o c ts w) : ∀ t ∈ ts, t.length + 2 ≤ w.length := by
  cases h with
  | nil => simp
  | items _ hu _ =>
    intro t ht
    have := hu.shorter t ht
    simp; omega

omit [Env] in
theorem BEntry.shorter {k v w : Text} (h : BEntry k v w) : k.length < w.length ∧ v.length < w.length := by
  cases h; constructor <;> (simp; omega)

omit [Env] in
/-- Not the unit. -/
theorem open_notUnit {a t u : Text} (ha : Blank a) (ht : TokStart t) : startsWith ('(' :: (a ++ (t ++ u))) c!"()" = false := by
  simp only [startsWith_cons, beq_self_eq_true, Bool.true_and]
  cases a with
  | nil => exact ht.notDelim _ (by simp)
  | cons c a =>
    simp
    rintro rfl
    exact absurd (ha _ (List.mem_cons_self ..)) (by decide)

theorem content_lift {any : Bool → P Content} {x : Exts} {N : Nat} {w : Text} {c : Content} (hw : TokStart w)
    (h : ∀ d r, Pre x N d → d.rest = w ++ r → IdentFollow r → startsWith r c!".." = false →
      ∃ s', contentPlain any false d = .ok c s' ∧ s'.rest = r ∧ KeepsD d s') : Reads x N (contentBody any false) w c := by
  refine ⟨hw, fun d l q hp hd hl hq => ?_⟩
  obtain ⟨s', h1, h2, h3⟩ := h d (l ++ q) hp hd (follow_ident hl hq) (follow_noDots hl hq)
  exact ⟨s', l, by rw [contentBody_plain hp.nv]; exact h1, h2, hl, h3⟩

omit [Env] in
theorem RunsW.keepsD {α : Type} {f : P α} {d : St} {v : α} {r : Text} (h : RunsW f d v r) : ∃ s', f d = .ok v s' ∧ s'.rest = r ∧ KeepsD d s' :=
  let ⟨s', h1, h2, h3⟩ := h; ⟨s', h1, h2, h3.toD⟩

theorem fields_named {x : Exts} {k : Nat} {seed : P Content} {es : List Text} {fs : List (Content × Content)} {d : St} {a t l q : Text}
    (hE : All2 (fun e f' => ∃ id kt vt, f'.1 = .str id ∧ KeyTok id kt ∧ Reads x k seed vt f'.2 ∧ Entry kt vt e) es fs) (ht : t ∈ es) (ha : Layout a)
    (hd : d.rest = '(' :: (a ++ (t ++ (l ++ q)))) : Struct .noParensMeanUnit .imprecise d .named := by
  obtain ⟨f, -, id, kt, vt, h0, h1, h2, h3⟩ := hE.mem_left t ht
  cases h3 with
  | @mk l1 l2 hl1 hl2 => exact struct_named (q := l2 ++ (vt ++ (l ++ q))) h1 (by rw [hd]; simp) ha hl1

theorem all_levels {x : Exts} {cs : List Content} {k : Nat} (h : clevelsAll cs ≤ k + 2) : ∀ c ∈ cs, c.levels ≤ k := by
  induction cs with
  | nil => simp
  | cons c cs ih =>
    simp only [clevelsAll] at h
    intro c' hc
    rcases List.mem_cons.mp hc with rfl | hc
    · omega
    · exact ih (by omega) c' hc

omit [Env] in
theorem clevelsAll_pos (cs : List Content) (h : cs ≠ []) : 2 ≤ clevelsAll cs := by
  cases cs with
  | nil => exact absurd rfl h
  | cons c cs => simp only [clevelsAll]; omega

omit [Env] in
theorem clevelsEntries_pos (es : List (Content × Content)) (h : es ≠ []) : 2 ≤ clevelsEntries es := by
  cases es with
  | nil => exact absurd rfl h
  | cons c cs => simp only [clevelsEntries]; omega

omit [Env] in
theorem ctextAll_length [Env] : ∀ (cs : List Content) (ts : List Text), CTextAll cs ts → ts.length = cs.length
  | [], [], _ => rfl
  | _ :: cs, _ :: ts, h => by simp only [CTextAll] at h; simp [ctextAll_length cs ts h.2]
  | [], _ :: _, h => by simp [CTextAll] at h
  | _ :: _, [], h => by simp [CTextAll] at h

mutual
theorem ctext_reads {x : Exts} (hx : x.unwrapVariantNewtypes = false) : ∀ (c : Content) (w : Text) (f : Nat), CText c w → w.length < f →
    Reads x c.levels (contentAny f false) w c
  | .bool b, w, f + 1, h, _ => by
    have hs := (ctext_plainly _ _ h).start
    simp only [CText] at h
    subst h
    refine content_lift hs fun d r hp hd hf _ => ?_
    cases b
    · exact (contentPlain_false hd hf.xid).keepsD
    · exact (contentPlain_true hd hf.xid).keepsD
  | .num n, w, f + 1, h, _ => by
    have hs := (ctext_plainly _ _ h).start
    simp only [CText] at h
    obtain ⟨hsm, m, sfx, hm, rfl, rfl⟩ := h
    refine content_lift hs fun d r hp hd hf hdots => ?_
    exact (contentPlain_number hd hf hdots (anyNumber_read m sfx hm hd hf.num) hsm).keepsD
  | .char c, w, f + 1, h, _ => by
    have hs := (ctext_plainly _ _ h).start
    simp only [CText] at h
    subst h
    exact content_lift hs fun d r hp hd hf _ => (contentPlain_charLit hd).keepsD
  | .str t, w, f + 1, h, _ => by
    have hs := (ctext_plainly _ _ h).start
    simp only [CText] at h
    rcases h with h | h
    · exact content_lift hs fun d r hp hd hf _ => (contentPlain_str h hd).keepsD
    · refine ⟨hs, fun d l q hp hd hl hq => ?_⟩
      unfold RunsTo
      rw [contentAny, contentBody_plain hp.nv]
      exact contentPlain_name h hd hl hq
  | .bytes b, w, f + 1, h, _ => by
    have hs := (ctext_plainly _ _ h).start
    simp only [CText] at h
    exact content_lift hs fun d r hp hd hf _ => (contentPlain_bytes h hd).keepsD
  | .unit, w, f + 1, h, _ => by
    have hs := (ctext_plainly _ _ h).start
    simp only [CText] at h
    subst h
    exact content_lift hs fun d r hp hd hf _ => (contentPlain_unit hd).keepsD
  | .none, w, f + 1, h, _ => by
    have hs := (ctext_plainly _ _ h).start
    simp only [CText] at h
    subst h
    exact content_lift hs fun d r hp hd hf _ => (contentPlain_none hd hf.xid).keepsD
  | .some c, w, f + 1, h, hlen => by
    have hs := (ctext_plainly _ _ h).start
    simp only [CText] at h
    obtain ⟨l, a, t, b, hl, ha, ht, hb, rfl⟩ := h
    have ih := ctext_reads hx c t f ht (by simp at hlen; omega)
    refine content_lift hs fun d r hp hd hf _ => ?_
    have hd' : d.rest = c!"Some" ++ (l ++ '(' :: (a ++ (t ++ (b ++ ')' :: r)))) := by simpa using hd
    rw [contentPlain_some hd' (layout_follow hl.layout (parenOpen_follow _)).xid]
    exact deOption_some hx (ih.bind_pure Content.some) (by simpa [Content.levels] using hp) hd' hl.layout ha.layout hb.tail
  | .seq cs, w, f + 1, h, hlen => by
    have hs := (ctext_plainly _ _ h).start
    simp only [CText] at h
    obtain ⟨ts, hts, h⟩ := h
    have hsh : ∀ t ∈ ts, t.length < f := fun t ht => by
      rcases h with h | ⟨-, h⟩ <;> (have := h.shorter t ht; omega)
    by_cases hne : cs = []
    · subst hne
      cases ts with
      | cons _ _ => simp [CTextAll] at hts
      | nil =>
        rcases h with h | ⟨h, -⟩
        · obtain ⟨w', rfl, hi⟩ := delim_inner h.delim
          refine content_lift hs fun d r hp hd hf _ => ?_
          rw [contentPlain_bracket hd]
          obtain ⟨s', h1, h2, h3, -⟩ := deSeq_ok (k := 0) (visit := contentSeq ']' (contentAny f false)) (v := .seq []) (w := w') (r := r) hp.exts
            (by simpa [Content.levels, clevelsAll] using hp.budget) (by rw [hd]; rfl) (fun d' hp' hd' => by
              obtain ⟨s', m1, m2, m3⟩ := readSeq_inner (term := ']') (seed := contentAny f false) (vs := []) (k := 0) (by simp) hi trivial (hp'.mono (by simp)) hd'
              refine ⟨s', ?_, by simpa using m2, m3⟩
              unfold contentSeq
              simp only [bind_apply, m1, pure_apply])
          exact ⟨s', h1, h2, h3⟩
        · exact absurd rfl h
    · have h2 := clevelsAll_pos cs hne
      obtain ⟨k, hk⟩ : ∃ k, clevelsAll cs = k + 2 := ⟨clevelsAll cs - 2, by omega⟩
      have hE := ctextAll_reads hx cs ts f k hts hsh (by omega)
      refine content_lift hs fun d r hp hd hf _ => ?_
      simp only [Content.levels, hk] at hp
      rcases h with h | ⟨-, h⟩
      · obtain ⟨w', rfl, hi⟩ := delim_inner h.delim
        rw [contentPlain_bracket hd]
        obtain ⟨s', h1, h2, h3, -⟩ := deSeq_ok (k := k + 1) (visit := contentSeq ']' (contentAny f false)) (v := .seq cs) (w := w') (r := r) hp.exts
          hp.budget (by rw [hd]; rfl) (fun d' hp' hd' => by
            obtain ⟨s', m1, m2, m3⟩ := readSeq_inner (term := ']') (by simp) hi hE (hp'.mono (by split <;> omega)) hd'
            refine ⟨s', ?_, by simpa using m2, m3⟩
            unfold contentSeq
            simp only [bind_apply, m1, pure_apply])
        exact ⟨s', h1, h2, h3⟩
      · have hpl := ctextAll_plain cs ts hts
        rcases h.first (r := r) (fun t ht => (hpl t ht).start) with rfl | ⟨a, t, l, q, ht, ha, hl, hq, e, -⟩
        · cases cs with
          | nil => exact absurd rfl hne
          | cons _ _ => simp [CTextAll] at hts
        · rw [e] at hd
          rw [contentPlain_open hd (by rw [hd]; exact open_notUnit ha (hpl t ht).start)]
          obtain ⟨ty, hty, hu, hn⟩ := struct_imprecise (hpl t ht) hd ha.layout hl hq
          exact contentStruct_tuple (sc := false) hE h.delim hp (by rw [hd, e]) (by simpa using hty) hu hn (fun _ => rfl)
  | .map es, w, f + 1, h, hlen => by
    have hs := (ctext_plainly _ _ h).start
    simp only [CText] at h
    rcases h with ⟨ts, hts, h⟩ | ⟨ts, hne, hts, h⟩ | h
    · obtain ⟨w', rfl, hi⟩ := delim_inner h.delim
      refine content_lift hs fun d r hp hd hf _ => ?_
      rw [contentPlain_brace hd]
      by_cases hne : es = []
      · subst hne
        cases ts with
        | cons _ _ => simp [CTextEntries] at hts
        | nil =>
          obtain ⟨s', h1, h2, h3, -⟩ := deMap_ok (k := 0) (visit := contentMap '}' (contentAny f false) (contentAny f false)) (v := .map []) (w := w') (r := r)
            hp.exts (by simpa [Content.levels, clevelsEntries] using hp.budget) (by rw [hd]; rfl) (fun d' hp' hd' => by
              obtain ⟨s', m1, m2, m3⟩ := readMap_inner (term := '}') (key := contentAny f false) (val := contentAny f false) (vs := []) (k := 0) (by simp) hi
                trivial (hp'.mono (by simp)) hd'
              refine ⟨s', ?_, by simpa using m2, m3⟩
              unfold contentMap
              simp only [bind_apply, m1, pure_apply])
          exact ⟨s', h1, h2, h3⟩
      · have h2 := clevelsEntries_pos es hne
        obtain ⟨k, hk⟩ : ∃ k, clevelsEntries es = k + 2 := ⟨clevelsEntries es - 2, by omega⟩
        have hE := ctextEntries_reads hx es ts f k hts (fun t ht => by have := h.shorter t ht; omega) (by omega)
        simp only [Content.levels, hk] at hp
        obtain ⟨s', h1, h2, h3, -⟩ := deMap_ok (k := k + 1) (visit := contentMap '}' (contentAny f false) (contentAny f false)) (v := .map es) (w := w') (r := r)
          hp.exts hp.budget (by rw [hd]; rfl) (fun d' hp' hd' => by
            obtain ⟨s', m1, m2, m3⟩ := readMap_inner (term := '}') (by simp) hi hE (hp'.mono (by split <;> omega)) hd'
            refine ⟨s', ?_, by simpa using m2, m3⟩
            unfold contentMap
            simp only [bind_apply, m1, pure_apply])
        exact ⟨s', h1, h2, h3⟩
    · have h2 := clevelsEntries_pos es hne
      obtain ⟨k, hk⟩ : ∃ k, clevelsEntries es = k + 2 := ⟨clevelsEntries es - 2, by omega⟩
      have hE := ctextFields_reads hx es ts f k hts (fun t ht => by have := h.shorter t ht; omega) (by omega)
      refine content_lift hs fun d r hp hd hf _ => ?_
      simp only [Content.levels, hk] at hp
      have hopen : ∃ u, w ++ r = '(' :: u ∧ startsWith (w ++ r) c!"()" = false := by
        rcases h.first (r := r) (fun t ht => (ctextFields_plainly es ts hts t ht).1) with rfl | ⟨a, t, l, q, ht, ha, hl, hq, e, -⟩
        · cases es with
          | nil => exact absurd rfl hne
          | cons _ _ => simp [CTextFields] at hts
        · rw [e]
          exact ⟨_, rfl, open_notUnit ha (ctextFields_plainly es ts hts t ht).1⟩
      obtain ⟨u, hu, hnu⟩ := hopen
      rw [contentPlain_open (hd.trans hu) (by rw [hd]; exact hnu)]
      exact (contentStruct_named hE hne h.delim hp hd).2
    · exact ctextVariant_reads hx es w f hs h (by omega)
  | _, _, 0, _, h => by omega
theorem ctextAll_reads {x : Exts} (hx : x.unwrapVariantNewtypes = false) : ∀ (cs : List Content) (ts : List Text) (f k : Nat), CTextAll cs ts →
    (∀ t ∈ ts, t.length < f) → clevelsAll cs ≤ k + 2 → All2 (Reads x k (contentAny f false)) ts cs
  | [], [], _, _, _, _, _ => trivial
  | c :: cs, t :: ts, f, k, h, hl, hk => by
    simp only [CTextAll] at h
    simp only [clevelsAll] at hk
    exact ⟨(ctext_reads hx c t f h.1 (hl t (by simp))).mono (by omega),
      ctextAll_reads hx cs ts f k h.2 (fun t ht => hl t (List.mem_cons_of_mem _ ht)) (by omega)⟩
  | [], _ :: _, _, _, h, _, _ => by simp [CTextAll] at h
  | _ :: _, [], _, _, h, _, _ => by simp [CTextAll] at h
theorem ctextAll_plain : ∀ (cs : List Content) (ts : List Text), CTextAll cs ts → ∀ t ∈ ts, Plainly t
  | [], [], _ => by simp
  | c :: cs, t :: ts, h => by
    simp only [CTextAll] at h
    intro t' ht
    rcases List.mem_cons.mp ht with rfl | ht
    · exact ctext_plainly c _ h.1
    · exact ctextAll_plain cs ts h.2 t' ht
  | [], _ :: _, h => by simp [CTextAll] at h
  | _ :: _, [], h => by simp [CTextAll] at h
theorem ctextEntries_reads {x : Exts} (hx : x.unwrapVariantNewtypes = false) : ∀ (es : List (Content × Content)) (ts : List Text) (f k : Nat),
    CTextEntries es ts → (∀ t ∈ ts, t.length < f) → clevelsEntries es ≤ k + 2 →
    All2 (ReadsEntry x k (contentAny f false) (contentAny f false)) ts es
  | [], [], _, _, _, _, _ => trivial
  | (a, v) :: es, t :: ts, f, k, h, hl, hk => by
    simp only [CTextEntries] at h
    simp only [clevelsEntries] at hk
    obtain ⟨⟨kt, vt, h1, h2, h3⟩, h4⟩ := h
    have hs := h3.shorter
    have ht := hl t (by simp)
    exact ⟨⟨kt, vt, (ctext_reads hx a kt f h1 (by omega)).mono (by omega), (ctext_reads hx v vt f h2 (by omega)).mono (by omega), h3.entry⟩,
      ctextEntries_reads hx es ts f k h4 (fun t ht => hl t (List.mem_cons_of_mem _ ht)) (by omega)⟩
  | [], _ :: _, _, _, h, _, _ => by simp [CTextEntries] at h
  | _ :: _, [], _, _, h, _, _ => by simp [CTextEntries] at h
theorem ctextFields_reads {x : Exts} (hx : x.unwrapVariantNewtypes = false) : ∀ (es : List (Content × Content)) (ts : List Text) (f k : Nat),
    CTextFields es ts → (∀ t ∈ ts, t.length < f) → clevelsEntries es ≤ k + 2 →
    All2 (fun e f' => ∃ id kt vt, f'.1 = .str id ∧ KeyTok id kt ∧ Reads x k (contentAny f false) vt f'.2 ∧ Entry kt vt e) ts es
  | [], [], _, _, _, _, _ => trivial
  | (a, v) :: es, t :: ts, f, k, h, hl, hk => by
    simp only [CTextFields] at h
    simp only [clevelsEntries] at hk
    obtain ⟨⟨id, kt, vt, h0, h1, h2, h3⟩, h4⟩ := h
    have hs := h3.shorter
    have ht := hl t (by simp)
    exact ⟨⟨id, kt, vt, h0, h1, (ctext_reads hx v vt f h2 (by omega)).mono (by omega), h3.entry⟩,
      ctextFields_reads hx es ts f k h4 (fun t ht => hl t (List.mem_cons_of_mem _ ht)) (by omega)⟩
  | [], _ :: _, _, _, h, _, _ => by simp [CTextFields] at h
  | _ :: _, [], _, _, h, _, _ => by simp [CTextFields] at h
theorem ctextVariant_reads {x : Exts} (hx : x.unwrapVariantNewtypes = false) : ∀ (es : List (Content × Content)) (w : Text) (f : Nat), TokStart w →
    CTextVariant es w → w.length ≤ f → Reads x (clevelsEntries es) (contentBody (contentAny f) false) w (.map es)
  | [(n, c)], w, f, hs, h, hlen => by
    simp only [CTextVariant] at h
    obtain ⟨id, k, l, d0, rfl, hk, hl, rfl, h⟩ := h
    have hklen : 0 < k.length := List.length_pos_iff.mpr hk.wordy.1
    simp only [List.length_append] at hlen
    obtain ⟨f, rfl⟩ : ∃ g, f = g + 1 := ⟨f - 1, by omega⟩
    have hlv : clevelsEntries [(Content.str id, c)] = c.levels + 2 := by simp [clevelsEntries, Content.levels]
    rw [hlv]
    refine content_lift hs fun d r hp hd hf _ => ?_
    rcases h with ⟨a, t, b, ha, ht, hb, rfl⟩ | h
    · have hpl := ctext_plainly c t ht
      have ih := ctext_reads hx c t f ht (by simp at hlen; omega)
      have hd' : d.rest = k ++ (l ++ '(' :: (a ++ (t ++ (b ++ ')' :: r)))) := by simpa using hd
      refine contentPlain_variant hk hd' hl.layout (fun d1 h1 => ?_) fun d1 hk1 hd1 => ?_
      · obtain ⟨ty, h1, h2, -⟩ := struct_imprecise hpl h1 ha.layout hb (.close (r := r))
        exact ⟨ty, h1, h2⟩
      have hp1 := (hp.keep hk1).mono (Nat.le_add_right c.levels 2)
      rw [contentAny, contentBody_plain hp1.nv, contentPlain_open hd1 (by rw [hd1]; exact open_notUnit ha hpl.start)]
      exact contentStruct_newtype ih hpl hp1 hd1 ha.layout hb
    · obtain ⟨u, rfl, -⟩ := ctextArgs_plainly c d0 h
      have hargs := fun d1 => ctextArgs_reads hx c ('(' :: u) f r d1 h (by omega)
      refine contentPlain_variant (u := u ++ r) hk (by simpa using hd) hl.layout (fun d1 h1 => (hargs d1 h1).1) fun d1 hk1 hd1 => ?_
      rw [contentAny]
      exact (hargs d1 hd1).2 ((hp.keep hk1).mono (Nat.le_add_right c.levels 2))
  | [], _, _, _, h, _ => by simp [CTextVariant] at h
  | _ :: _ :: _, _, _, _, h, _ => by simp [CTextVariant] at h
theorem ctextArgs_reads {x : Exts} (hx : x.unwrapVariantNewtypes = false) : ∀ (c : Content) (w : Text) (f : Nat) (r : Text) (d : St),
    CTextArgs c w → w.length ≤ f + 1 → d.rest = w ++ r →
    (∃ ty, Struct .noParensMeanUnit .imprecise d ty ∧ ty ≠ .unit) ∧
    (Pre x c.levels d → ∃ s', contentBody (contentAny f) true d = .ok c s' ∧ s'.rest = r ∧ KeepsD d s')
  | .seq cs, w, f, r, d, h, hlen, hd => by
    simp only [CTextArgs] at h
    obtain ⟨h2, ts, hts, hw⟩ := h
    have hne : cs ≠ [] := by rintro rfl; simp at h2
    have hl2 := clevelsAll_pos cs hne
    obtain ⟨k, hk⟩ : ∃ k, clevelsAll cs = k + 2 := ⟨clevelsAll cs - 2, by omega⟩
    have hE := ctextAll_reads hx cs ts f k hts (fun t ht => by have := hw.shorter t ht; omega) (by omega)
    have hpl := ctextAll_plain cs ts hts
    have hlen2 : 2 ≤ ts.length := by rw [ctextAll_length cs ts hts]; exact h2
    rcases hw.first (r := r) (fun t ht => (hpl t ht).start) with rfl | ⟨a, t, l, q, ht, ha, hl, hq, e, hq2⟩
    · simp at hlen2
    · have hd' := hd.trans e
      obtain ⟨ty, hty, hu, hn⟩ := struct_imprecise (hpl t ht) hd' ha.layout hl hq
      refine ⟨⟨ty, hty, hu⟩, fun hp => ?_⟩
      simp only [Content.levels, hk] at hp
      rw [contentBody_plain hp.nv, contentPlain_open hd' (by rw [hd']; exact open_notUnit ha (hpl t ht).start)]
      obtain ⟨a', u, rfl, ha', hus⟩ := hq2 hlen2
      exact contentStruct_tuple (sc := true) hE hw.delim hp hd
        (by simpa using struct_second (hpl t ht).start (hpl t ht).skips (hpl t ht).peeks hd' ha.layout hl ha' hus) (by simp) (by simp) (by simp)
  | .map es, w, f, r, d, h, hlen, hd => by
    simp only [CTextArgs] at h
    obtain ⟨hne, ts, hts, hw⟩ := h
    have hl2 := clevelsEntries_pos es hne
    obtain ⟨k, hk⟩ : ∃ k, clevelsEntries es = k + 2 := ⟨clevelsEntries es - 2, by omega⟩
    have hE := ctextFields_reads hx es ts f k hts (fun t ht => by have := hw.shorter t ht; omega) (by omega)
    rcases hw.first (r := r) (fun t ht => (ctextFields_plainly es ts hts t ht).1) with rfl | ⟨a, t, l, q, ht, ha, hl, hq, e, -⟩
    · cases es with
      | nil => exact absurd rfl hne
      | cons _ _ => simp [CTextFields] at hts
    · have hd' := hd.trans e
      refine ⟨⟨.named, fields_named hE ht ha.layout hd', by simp⟩, fun hp => ?_⟩
      simp only [Content.levels, hk] at hp
      rw [contentBody_plain hp.nv, contentPlain_open hd' (by rw [hd']; exact open_notUnit ha (ctextFields_plainly es ts hts t ht).1)]
      exact (contentStruct_named hE hne hw.delim hp hd).2
  | .bool _, _, _, _, _, h, _, _ => by simp [CTextArgs] at h
  | .num _, _, _, _, _, h, _, _ => by simp [CTextArgs] at h
  | .char _, _, _, _, _, h, _, _ => by simp [CTextArgs] at h
  | .str _, _, _, _, _, h, _, _ => by simp [CTextArgs] at h
  | .bytes _, _, _, _, _, h, _, _ => by simp [CTextArgs] at h
  | .unit, _, _, _, _, h, _, _ => by simp [CTextArgs] at h
  | .none, _, _, _, _, h, _, _ => by simp [CTextArgs] at h
  | .some _, _, _, _, _, h, _, _ => by simp [CTextArgs] at h
end

end Ron
