import Verif.Lemmas.Tokens
/-! Self-describing data: `deserialize_any` reads every text of the grammar. -/

set_option linter.unusedSimpArgs false

namespace Ron

variable [Env]

/-! ### Keywords -/

/-- A word is not another word. -/
theorem word_other {t kw r : Text} (ht : ∀ c ∈ t, Env.xidCont c = true) (hk : ∀ c ∈ kw, Env.xidCont c = true)
    (hr : NoIdentStart r) (hne : t ≠ kw) : startsWith (t ++ r) kw = false ∨ headXid ((t ++ r).drop kw.length) = true := by
  by_cases hs : startsWith (t ++ r) kw = true
  · right
    obtain ⟨u, hu⟩ := (startsWith_iff _ _).mp hs
    rcases List.append_eq_append_iff.mp hu with ⟨a, ha, hb⟩ | ⟨a, ha, hb⟩
    · cases a with
      | nil => exact absurd (by simpa using ha.symm) hne
      | cons x a =>
        exfalso
        have hx := hk x (by rw [ha]; simp)
        rw [hr x (a ++ u) (by simpa using hb)] at hx
        cases hx
    · cases a with
      | nil => exact absurd (by simpa using ha) hne
      | cons x a =>
        rw [ha]
        simp only [List.append_assoc, List.drop_left, List.cons_append]
        exact ht x (by rw [ha]; simp)
  · left; simpa using hs

theorem reserved_xid {kw : Text} (h : kw ∈ reservedNames) : ∀ c ∈ kw, Env.xidCont c = true := by
  have hall : ∀ k ∈ reservedNames, ∀ c ∈ k, (isAsciiAlpha c || isDigit c || c == '_') = true := by decide
  exact fun c hc => xid_cont_ascii (hall _ h _ hc)

theorem keyword_other {t kw r : Text} (ht : t ∈ reservedNames) (hk : kw ∈ reservedNames)
    (hr : NoIdentStart r) (hne : t ≠ kw) : startsWith (t ++ r) kw = false ∨ headXid ((t ++ r).drop kw.length) = true :=
  word_other (reserved_xid ht) (reserved_xid hk) hr hne

/-- No keyword is consumed. -/
def NoKeyword (d : St) : Prop :=
  ∀ kw ∈ reservedNames, startsWith d.rest kw = false ∨ headXid (d.rest.drop kw.length) = true

theorem anyPlain_noKeyword {any : P Value} {d : St} (h : NoKeyword d) (hp : startsWith d.rest c!"()" = false) :
    anyPlain any d = (do match ← skipIdentifier with
      | some _ => skipWs; anyStruct any
      | none => anyChar any : P Value) d := by
  have g : ∀ kw ∈ reservedNames, consumeIdent kw d = .ok false d := fun kw hk => consumeIdent_false (h kw hk)
  unfold anyPlain
  simp only [bind_apply, g c!"true" (by simp [reservedNames]), g c!"false" (by simp [reservedNames]),
    checkIdent_false (h c!"Some" (by simp [reservedNames])), g c!"None" (by simp [reservedNames]),
    consumeStr_false hp, g c!"inf" (by simp [reservedNames]), g c!"inff32" (by simp [reservedNames]),
    g c!"inff64" (by simp [reservedNames]), g c!"NaN" (by simp [reservedNames]), g c!"NaNf32" (by simp [reservedNames]),
    g c!"NaNf64" (by simp [reservedNames]), Bool.false_eq_true, ↓reduceIte]
  rfl

theorem noKeyword_char {d : St} {c : Char} {u : Text} (hd : d.rest = c :: u) (hc : c ∉ ['t', 'f', 'S', 'N', 'i']) :
    NoKeyword d := by
  intro kw hk
  left
  rw [hd]
  simp only [List.mem_cons, List.not_mem_nil, or_false, not_or] at hc
  simp only [reservedNames, List.mem_cons, List.not_mem_nil, or_false] at hk
  rcases hk with rfl | rfl | rfl | rfl | rfl | rfl | rfl | rfl | rfl | rfl <;> simp <;> (intro h; subst h; simp at hc)

theorem anyPlain_char {any : P Value} {d : St} {c : Char} {u : Text} (hd : d.rest = c :: u)
    (hc : c ∉ ['t', 'f', 'S', 'N', 'i']) (hp : startsWith d.rest c!"()" = false)
    (hs : skipIdentifier d = .ok none d) : anyPlain any d = anyChar any d := by
  rw [anyPlain_noKeyword (noKeyword_char hd hc) hp]
  simp only [bind_apply, hs]

theorem anyBody_plain {any : P Value} {d : St} (h : d.nv = false) : anyBody any d = anyPlain any d := by
  unfold anyBody
  simp only [bind_apply, getSt_apply, h, Bool.false_eq_true, ↓reduceIte]

/-! ### Scalars -/

omit [Env] in
/-- What `RunsW` gives for a token before layout and a delimiter. -/
theorem RunsW.runsTo {α : Type} {f : P α} {d : St} {v : α} {l q : Text} (h : RunsW f d v (l ++ q)) (hl : Layout l) :
    RunsTo f d v q := by
  obtain ⟨s', h1, h2, h3⟩ := h
  exact ⟨s', l, h1, h2, hl, h3.toD⟩

theorem floatRangeOrValue_plain {n : Number} {d : St} (h : startsWith d.rest c!".." = false) :
    floatRangeOrValue n d = .ok (.num n) d := by
  have h3 : startsWith d.rest c!"..=" = false := by
    cases hr : d.rest with
    | nil => simp
    | cons a t => cases t with
      | nil => simp
      | cons b t =>
        rw [hr] at h
        revert h
        simp
        intro h h1 h2
        exact absurd h2 (h h1)
  unfold floatRangeOrValue
  simp only [bind_apply, consumeStr_false h3, consumeStr_false h, Bool.false_eq_true, ↓reduceIte, pure_apply]

theorem anyPlain_kw {d : St} {w r : Text} (hw : w ∈ reservedNames) (hd : d.rest = w ++ r) (hr : NoIdentStart r) :
    (∀ kw ∈ reservedNames, kw ≠ w → consumeIdent kw d = .ok false d) ∧
    consumeIdent w d = .ok true { d with prev := d.rest, rest := r } ∧
    (w ≠ c!"Some" → checkIdent c!"Some" d = .ok false d) ∧ consumeStr c!"()" d = .ok false d := by
  refine ⟨fun kw hk hne => consumeIdent_false (by rw [hd]; exact keyword_other hw hk hr (Ne.symm hne)), ?_, fun hne =>
    checkIdent_false (by rw [hd]; exact keyword_other hw (by simp [reservedNames]) hr hne), ?_⟩
  · exact consumeIdent_true hd hr
  · apply consumeStr_false
    rw [hd]
    simp only [reservedNames, List.mem_cons, List.not_mem_nil, or_false] at hw
    rcases hw with rfl | rfl | rfl | rfl | rfl | rfl | rfl | rfl | rfl | rfl <;> simp

omit [Env] in
theorem floatWord_reserved {w : Text} {v : Number} (h : (w, v) ∈ floatWords) : w ∈ reservedNames := by
  simp only [floatWords, List.mem_cons, Prod.mk.injEq, List.not_mem_nil, or_false] at h
  rcases h with ⟨rfl, -⟩ | ⟨rfl, -⟩ | ⟨rfl, -⟩ | ⟨rfl, -⟩ | ⟨rfl, -⟩ | ⟨rfl, -⟩ <;> simp [reservedNames]

/-- Words for floats. -/
theorem anyPlain_floatWord {any : P Value} {d : St} {w r : Text} {v : Number} (h : (w, v) ∈ floatWords)
    (hd : d.rest = w ++ r) (hr : NoIdentStart r) (hdots : startsWith r c!".." = false) :
    anyPlain any d = .ok (.num v) { d with prev := d.rest, rest := r } := by
  obtain ⟨g, gt, gs, gu⟩ := anyPlain_kw (floatWord_reserved h) hd hr
  have ge : ∀ n, floatRangeOrValue n { d with prev := d.rest, rest := r } = .ok (.num n) { d with prev := d.rest, rest := r } :=
    fun n => floatRangeOrValue_plain hdots
  unfold anyPlain
  simp only [floatWords, List.mem_cons, Prod.mk.injEq, List.not_mem_nil, or_false] at h
  rcases h with ⟨rfl, rfl⟩ | ⟨rfl, rfl⟩ | ⟨rfl, rfl⟩ | ⟨rfl, rfl⟩ | ⟨rfl, rfl⟩ | ⟨rfl, rfl⟩ <;>
    simp only [bind_apply, g c!"true" (by simp [reservedNames]) (by simp), g c!"false" (by simp [reservedNames]) (by simp),
      gs (by simp), g c!"None" (by simp [reservedNames]) (by simp), gu, gt, ge, Bool.false_eq_true, ↓reduceIte]
  all_goals
    first
    | done
    | (rw [g c!"inf" (by simp [reservedNames]) (by simp)]; simp only [Bool.false_eq_true, ↓reduceIte, bind_apply, gt, ge])
  all_goals
    first
    | done
    | (rw [g c!"inff32" (by simp [reservedNames]) (by simp)]; simp only [Bool.false_eq_true, ↓reduceIte, bind_apply, gt, ge])
  all_goals
    first
    | done
    | (rw [g c!"inff64" (by simp [reservedNames]) (by simp)]; simp only [Bool.false_eq_true, ↓reduceIte, bind_apply, gt, ge])
  all_goals
    first
    | done
    | (rw [g c!"NaN" (by simp [reservedNames]) (by simp)]; simp only [Bool.false_eq_true, ↓reduceIte, bind_apply, gt, ge])
  all_goals
    first
    | done
    | (rw [g c!"NaNf32" (by simp [reservedNames]) (by simp)]; simp only [Bool.false_eq_true, ↓reduceIte, bind_apply, gt, ge])

/-- What begins with a digit or a minus sign is a number. -/
theorem anyPlain_digits {any : P Value} {d s2 : St} {c : Char} {u : Text} {v : Number} (hd' : d.rest = c :: u)
    (hcd : isDigit c = true ∨ c = '-') (h2 : anyNumber d = .ok v s2) : anyPlain any d = floatRangeOrValue v s2 := by
  have hfacts : c.toNat < 128 ∧ (c == '_' || isAsciiAlpha c) = false ∧ c ∉ ['t', 'f', 'S', 'N', 'i'] ∧
      c ∉ ['(', '[', '{', '"', '\'', 'b', 'r', '.'] := by
    rcases hcd with h | rfl
    · obtain ⟨h1, h2, h3, h4⟩ := isDigit_bounds h
      refine ⟨h1, h2, ?_, ?_⟩ <;> (simp at h4 ⊢; simp [h4])
    · decide
  obtain ⟨f1, f2, f3, f4⟩ := hfacts
  simp only [List.mem_cons, List.not_mem_nil, or_false, not_or] at f4
  obtain ⟨e1, e2, e3, e4, e5, e6, e7, e8⟩ := f4
  have hu : startsWith d.rest c!"()" = false := by rw [hd']; simp [Ne.symm e1, e1]
  have hdd : startsWith d.rest c!".." = false := by rw [hd']; simp [Ne.symm e8, e8]
  have hde : startsWith d.rest c!"..=" = false := by rw [hd']; simp [Ne.symm e8, e8]
  have hnum : (isDigit c || c == '+' || c == '-' || c == '.' || c == 'b') = true := by
    rcases hcd with h | rfl
    · simp [h]
    · decide
  rw [anyPlain_char hd' f3 hu (skipIdentifier_ascii hd' f1 f2)]
  unfold anyChar
  have hpk : peekCharOrEof d = .ok c d := by
    unfold peekCharOrEof; simp only [bind_apply, peekChar_apply, hd', List.head?_cons, pure_apply]
  simp only [bind_apply, hpk, getSt_apply, beq_iff_eq, e1, e2, e3, ↓reduceIte, ite_P]
  rw [if_pos (by simpa using hnum), if_neg (by simp [e6])]
  simp only [bind_apply, consumeStr_false hde, consumeStr_false hdd, Bool.false_eq_true, ↓reduceIte, h2]

/-- Numbers. -/
theorem anyPlain_number {any : P Value} {d : St} {n v : Number} {sfx : Bool} {r : Text} (hd : d.rest = n.text sfx ++ r)
    (hr : IdentFollow r) (hdots : startsWith r c!".." = false) (hn : RunsW anyNumber d v r) :
    RunsW (anyPlain any) d (.num v) r := by
  rcases number_text_form n sfx with ⟨v', hw⟩ | ⟨c, u, hc, hcd⟩
  · obtain ⟨s1, h1, -, -⟩ := anyNumber_consume hd hr.xid hw
    obtain ⟨s2, h2, -, -⟩ := hn
    have hv : v' = v := by rw [h1] at h2; simp only [Res.ok.injEq] at h2; exact h2.1
    subst hv
    exact ⟨_, anyPlain_floatWord hw hd hr.xid hdots, rfl, .step _ _ _⟩
  · obtain ⟨s2, h2, h3, h4⟩ := hn
    refine ⟨s2, ?_, h3, h4⟩
    rw [anyPlain_digits (by rw [hd, hc]; rfl) hcd h2]
    exact floatRangeOrValue_plain (by rw [h3]; exact hdots)


omit [Env] in
theorem peekCharOrEof_cons {d : St} {c : Char} {u : Text} (hd : d.rest = c :: u) : peekCharOrEof d = .ok c d := by
  unfold peekCharOrEof; simp only [bind_apply, peekChar_apply, hd, List.head?_cons, pure_apply]

omit [Env] in
theorem StrLit.form {t v : Text} (h : StrLit t v) (r : Text) :
    (∃ u, t ++ r = '"' :: u) ∨ (∃ u, t ++ r = 'r' :: u ∧ startsStringLike (t ++ r) = true) := by
  cases h with
  | esc h => exact .inl ⟨_, rfl⟩
  | @raw n v h =>
    refine .inr ⟨_, rfl, ?_⟩
    cases n with
    | zero => simp [startsStringLike]
    | succ n => cases n with
      | zero => simp [startsStringLike, List.replicate_succ]
      | succ n => simp [startsStringLike, List.replicate_succ]

omit [Env] in
theorem BytesLit.form {t : Text} {v : List UInt8} (h : BytesLit t v) (r : Text) :
    ∃ u, t ++ r = 'b' :: u ∧ startsStringLike (t ++ r) = true ∧ startsWith (t ++ r) c!"b'" = false := by
  cases h with
  | esc h => exact ⟨_, rfl, by simp [startsStringLike], by simp⟩
  | @raw n v h =>
    refine ⟨_, rfl, ?_, by simp⟩
    cases n with
    | zero => simp [startsStringLike]
    | succ n => simp [startsStringLike, List.replicate_succ]

omit [Env] in
theorem charText_form (c : Char) : ∃ u, charText c = '\'' :: u := by
  unfold charText
  split <;> exact ⟨_, rfl⟩

theorem anyPlain_str {any : P Value} {d : St} {t v r : Text} (h : StrLit t v) (hd : d.rest = t ++ r) :
    RunsW (anyPlain any) d (.str v) r := by
  obtain ⟨s', h1, h2, h3⟩ := string_ok hd h
  refine ⟨s', ?_, h2, h3⟩
  rcases h.form r with ⟨u, hu⟩ | ⟨u, hu, hs⟩
  · have hd' := hd.trans hu
    rw [anyPlain_char hd' (by decide) (by rw [hd']; simp) (skipIdentifier_ascii hd' (by decide) (by decide))]
    unfold anyChar
    simp [bind_apply, peekCharOrEof_cons hd', h1, show isDigit '"' = false by decide]
  · have hd' := hd.trans hu
    rw [anyPlain_char hd' (by decide) (by rw [hd']; simp) (skipIdentifier_string (by rw [hd]; exact hs))]
    unfold anyChar
    simp [bind_apply, peekCharOrEof_cons hd', h1, show isDigit 'r' = false by decide]

theorem anyPlain_bytes {any : P Value} {d : St} {t r : Text} {v : List UInt8} (h : BytesLit t v) (hd : d.rest = t ++ r) :
    RunsW (anyPlain any) d (.bytes v) r := by
  obtain ⟨s', h1, h2, h3⟩ := byteString_ok hd h
  refine ⟨s', ?_, h2, h3⟩
  obtain ⟨u, hu, hs, hb⟩ := h.form r
  have hd' := hd.trans hu
  rw [anyPlain_char hd' (by decide) (by rw [hd']; simp) (skipIdentifier_string (by rw [hd]; exact hs))]
  rw [← hd] at hb
  unfold anyChar
  simp [bind_apply, peekCharOrEof_cons hd', h1, hb]

theorem anyPlain_charLit {any : P Value} {d : St} {c : Char} {r : Text} (hd : d.rest = charText c ++ r) :
    RunsW (anyPlain any) d (.char c) r := by
  obtain ⟨s', h1, h2, h3⟩ := charLit_ok hd
  refine ⟨s', ?_, h2, h3⟩
  obtain ⟨u, hu⟩ := charText_form c
  have hd' : d.rest = '\'' :: (u ++ r) := by rw [hd, hu]; rfl
  rw [anyPlain_char hd' (by decide) (by rw [hd']; simp) (skipIdentifier_ascii hd' (by decide) (by decide))]
  unfold anyChar
  simp [bind_apply, peekCharOrEof_cons hd', h1, show isDigit '\'' = false by decide]

/-! ### Struct types -/

omit [Env] in
theorem setCursor_keepsD {d s : St} (h : KeepsD d s) (c : Cur) :
    KeepsD d { s with rest := c.rest, preWs := c.preWs, lastWs := c.lastWs } := ⟨h.src, h.exts, h.limit, h.nv⟩

/-- The struct type is found without moving. -/
def Struct (nm : NewtypeMode) (tm : TupleMode) (d : St) (ty : StructType) : Prop :=
  ∃ s', checkStructType nm tm d = .ok ty s' ∧ s'.rest = d.rest ∧ KeepsD d s'

theorem struct_of_inner {nm : NewtypeMode} {tm : TupleMode} {d s : St} {ty : StructType}
    (h : checkStructTypeInner nm tm d = .ok ty s) (hk : KeepsD d s) : Struct nm tm d ty := by
  refine ⟨{ s with rest := d.rest, preWs := d.preWs, lastWs := d.lastWs }, ?_, rfl, setCursor_keepsD hk ⟨d.rest, d.preWs, d.lastWs⟩⟩
  unfold checkStructType
  simp only [bind_apply, cursor_apply, h, setCursor_apply, pure_apply]

theorem struct_unit {d : St} {tm : TupleMode} (h : startsWith d.rest ['('] = false) : Struct .noParensMeanUnit tm d .unit := by
  refine struct_of_inner (s := d) ?_ (.refl _)
  unfold checkStructTypeInner
  simp only [bind_apply, ↓reduceIte, consumeChar_false h, Bool.not_false, pure_apply]

theorem struct_empty {d : St} {tm : TupleMode} {a r : Text} (hd : d.rest = '(' :: (a ++ ')' :: r)) (ha : Layout a) :
    Struct .noParensMeanUnit tm d .emptyTuple := by
  obtain ⟨s1, h1, h2, h3⟩ := skipWs_tok (d := { d with prev := d.rest, rest := a ++ ')' :: r }) rfl ha
    (stop_cons (c := ')') (by simp)).noLayout
  refine struct_of_inner (s := s1) ?_ ((KeepsD.step _ _ _).trans h3)
  unfold checkStructTypeInner
  simp [bind_apply, consumeChar_true hd, h1, h2]

omit [Env] in
theorem tokStart_open (r : Text) : TokStart ('(' :: r) := ⟨_, _, rfl, by decide, by decide⟩

/-- How an item begins: not with an identifier, with a name, or with a name and more. -/
def Heads (t : Text) : Prop := ∀ (d : St) (l q : Text), d.rest = t ++ (l ++ q) → Layout l → Stop q →
  skipIdentifier d = .ok none d ∨
  ∃ n s l1, skipIdentifier d = .ok (some n) s ∧ KeepsD d s ∧ Layout l1 ∧ (s.rest = l1 ++ q ∨ ∃ r, TokStart r ∧ s.rest = l1 ++ r)

/-- What follows an item of a tuple. -/
inductive AfterItem : Text → Prop
  | close {r : Text} : AfterItem (')' :: r)
  | comma {l r : Text} : Layout l → NoLayoutStart r → AfterItem (',' :: (l ++ r))

omit [Env] in
theorem AfterItem.stop {q : Text} (h : AfterItem q) : Stop q := by
  cases h <;> exact stop_cons (by simp)

theorem struct_tuple {d : St} {a t l q : Text} (ht : TokStart t) (hh : Heads t) (hd : d.rest = '(' :: (a ++ (t ++ (l ++ q))))
    (ha : Layout a) (hl : Layout l) (hq : AfterItem q) :
    ∃ ty, Struct .noParensMeanUnit .imprecise d ty ∧ ty ≠ .unit ∧ ty ≠ .named := by
  obtain ⟨s1, h1, h2, h3⟩ := skipWs_tok (d := { d with prev := d.rest, rest := a ++ (t ++ (l ++ q)) }) rfl ha (ht.noLayout _)
  have hk1 := (KeepsD.step d _ _).trans h3
  have hc : startsWith s1.rest [')'] = false := by rw [h2]; exact ht.notDelim _ (by simp)
  rcases hh s1 l q h2 hl hq.stop with hn | ⟨n, s2, l1, g1, g2, g3, g4⟩
  · refine ⟨.anyTuple, struct_of_inner (s := s1) ?_ hk1, by simp, by simp⟩
    unfold checkStructTypeInner
    simp [bind_apply, consumeChar_true hd, h1, hc, hn, structTypeScan]
  · rcases g4 with g4 | ⟨r, hc', g4⟩
    · obtain ⟨s3, k1, k2, k3⟩ := skipWs_tok g4 g3 hq.stop.noLayout
      cases hq with
      | @close r =>
        refine ⟨.newtypeTuple, struct_of_inner (s := s3) ?_ (hk1.trans (g2.trans k3)), by simp, by simp⟩
        unfold checkStructTypeInner
        simp [bind_apply, consumeChar_true hd, h1, hc, g1, k1, k2]
      | @comma l' r hl' hr =>
        have k2' : ({ s3 with rest := s3.rest.drop 1 } : St).rest = l' ++ r := by simp [k2]
        obtain ⟨s4, m1, m2, m3⟩ := skipWs_tok k2' hl' hr
        refine ⟨if startsWith r [')'] then .newtypeTuple else .nonNewtypeTuple,
          struct_of_inner (s := s4) ?_ (hk1.trans (g2.trans (k3.trans (KeepsD.trans (b := { s3 with rest := s3.rest.drop 1 }) ⟨rfl, rfl, rfl, id⟩ m3)))), ?_, ?_⟩
        · unfold checkStructTypeInner
          rw [k2] at m1
          simp only [List.drop_succ_cons, List.drop_zero] at m1
          simp only [bind_apply, ↓reduceIte, consumeChar_true hd, Bool.not_true, Bool.false_eq_true, h1, checkChar_apply, hc,
            Bool.and_false, ite_P, g1, k1, peekChar_apply, k2, List.head?_cons, skipNextChar_apply, List.drop_succ_cons,
            List.drop_zero, m1, m2, pure_apply, decide_true, Bool.true_and]
          split <;> rfl
        · split <;> simp
        · split <;> simp
    · have hc4 : NoLayoutStart r := by simpa using hc'.noLayout []
      obtain ⟨s3, k1, k2, k3⟩ := skipWs_tok g4 g3 hc4
      refine ⟨.anyTuple, struct_of_inner (s := s3) ?_ (hk1.trans (g2.trans k3)), by simp, by simp⟩
      obtain ⟨c, u, rfl, -, hn⟩ := hc'
      simp only [List.mem_cons, List.not_mem_nil, or_false, not_or] at hn
      unfold checkStructTypeInner
      simp only [bind_apply, ↓reduceIte, consumeChar_true hd, Bool.not_true, Bool.false_eq_true, h1, checkChar_apply, hc,
        Bool.and_false, ite_P, g1, k1, peekChar_apply, k2, List.head?_cons]
      generalize hg : some c = o
      split
      · cases hg; exact absurd rfl hn.2.2.2.2.2.1
      · cases hg; exact absurd rfl hn.2.1
      · cases hg; exact absurd rfl hn.2.2.1
      · rfl

theorem struct_named {d : St} {a n t l q : Text} {tm : TupleMode} (ht : KeyTok n t)
    (hd : d.rest = '(' :: (a ++ (t ++ (l ++ ':' :: q)))) (ha : Layout a) (hl : Layout l) :
    Struct .noParensMeanUnit tm d .named := by
  obtain ⟨s1, h1, h2, h3⟩ := skipWs_tok (d := { d with prev := d.rest, rest := a ++ (t ++ (l ++ ':' :: q)) }) rfl ha
    (ht.tokStart.noLayout _)
  have hk1 := (KeepsD.step d _ _).trans h3
  have hc : startsWith s1.rest [')'] = false := by rw [h2]; exact ht.tokStart.notDelim _ (by simp)
  obtain ⟨s2, g1, g2, g3⟩ := ht.skips (follow_ident hl (stop_cons (c := ':') (q := q) (by simp))) h2
  obtain ⟨s3, k1, k2, k3⟩ := skipWs_tok g2 hl (noLayout_colon q)
  refine struct_of_inner (s := s3) ?_ (hk1.trans (g3.toD.trans k3))
  unfold checkStructTypeInner
  simp [bind_apply, consumeChar_true hd, h1, hc, g1, k1, k2]

/-! ### How values begin -/

theorem heads_none {t : Text} (h : ∀ d : St, ∀ r, d.rest = t ++ r → skipIdentifier d = .ok none d) : Heads t :=
  fun d _ _ hd _ _ => .inl (h d _ hd)

theorem heads_ascii {c : Char} {u : Text} (h : c.toNat < 128) (hc : (c == '_' || isAsciiAlpha c) = false) : Heads (c :: u) :=
  heads_none fun _ _ hd => skipIdentifier_ascii hd h hc

theorem reserved_plain {w : Text} (h : w ∈ reservedNames) : PlainName w := by
  have hall : ∀ k ∈ reservedNames, ∀ c ∈ k, c.toNat < 128 ∧ (isAsciiAlpha c || isDigit c || c == '_') = true := by decide
  have hhd : ∀ k ∈ reservedNames, ∃ c cs, k = c :: cs ∧ (c == '_' || isAsciiAlpha c) = true := by
    simp [reservedNames]; decide
  obtain ⟨c, cs, rfl, hc⟩ := hhd w h
  have hx := reserved_xid h
  refine ⟨c, cs, rfl, ?_, fun d hd => hx d (by simp [hd])⟩
  rw [isIdentFirst_ascii (hall _ h c (by simp)).1]; exact hc

theorem heads_word {t : Text} (h : PlainName t) : Heads t := by
  intro d l q hd hl hq
  obtain ⟨s, h1, h2, h3⟩ := skipIdentifier_plain h (follow_ident hl hq) hd
  exact .inr ⟨t, s, l, h1, h3.toD, hl, .inl h2⟩

theorem NameTok.noParen {n t : Text} (h : NameTok n t) : ∃ c u, t = c :: u ∧ c ≠ '(' := by
  obtain ⟨hn, rfl | ⟨rfl, hp, -⟩⟩ := h
  · exact ⟨_, _, rfl, by decide⟩
  · obtain ⟨c, cs, rfl, hc, -⟩ := hp
    refine ⟨c, cs, rfl, ?_⟩
    rintro rfl
    rw [isIdentFirst_ascii (by decide)] at hc
    revert hc; decide

theorem NameTok.heads {n t : Text} (h : NameTok n t) : Heads t := by
  intro d l q hd hl hq
  obtain ⟨s, h1, h2, h3⟩ := h.skips (follow_ident hl hq) hd
  exact .inr ⟨n, s, l, h1, h3.toD, hl, .inl h2⟩

theorem NameTok.heads_paren {n t l u : Text} (h : NameTok n t) (hl : Layout l) : Heads (t ++ (l ++ '(' :: u)) := by
  intro d l' q hd _ _
  obtain ⟨s, h1, h2, h3⟩ := h.skips (r := l ++ '(' :: (u ++ (l' ++ q))) (layout_follow hl (parenOpen_follow _)) (by simpa using hd)
  exact .inr ⟨n, s, l, h1, h3.toD, hl, .inr ⟨_, tokStart_open _, h2⟩⟩

theorem heads_some {l u : Text} (hl : Layout l) : Heads (c!"Some" ++ (l ++ '(' :: u)) := by
  intro d l' q hd _ _
  obtain ⟨s, h1, h2, h3⟩ := skipIdentifier_plain (reserved_plain (w := c!"Some") (by simp [reservedNames]))
    (r := l ++ '(' :: (u ++ (l' ++ q))) (layout_follow hl (parenOpen_follow _)) (by simpa using hd)
  exact .inr ⟨_, s, l, h1, h3.toD, hl, .inr ⟨_, tokStart_open _, h2⟩⟩

theorem heads_number (n : Number) (sfx : Bool) : Heads (n.text sfx) := by
  rcases number_text_form n sfx with ⟨v, hw⟩ | ⟨c, u, hc, hcd⟩
  · exact heads_word (reserved_plain (floatWord_reserved hw))
  · rw [hc]
    rcases hcd with h | rfl
    · exact heads_ascii (isDigit_bounds h).1 (isDigit_bounds h).2.1
    · exact heads_ascii (by decide) (by decide)

theorem tokStart_number (n : Number) (sfx : Bool) : TokStart (n.text sfx) := by
  rcases number_text_form n sfx with ⟨v, hw⟩ | ⟨c, u, hc, hcd⟩
  · obtain ⟨c, cs, e, hc, -⟩ := reserved_plain (floatWord_reserved hw)
    exact ⟨c, cs, e, identFirst_notDelim hc⟩
  · refine ⟨c, u, hc, ?_⟩
    rcases hcd with h | rfl
    · obtain ⟨h1, h2, h3, h4⟩ := isDigit_bounds h
      refine ⟨h3, ?_⟩
      simp at h4 ⊢; simp [h4]
    · decide

theorem tokStart_plain {t : Text} (h : PlainName t) : TokStart t := by
  obtain ⟨c, cs, rfl, hc, -⟩ := h
  exact ⟨c, cs, rfl, identFirst_notDelim hc⟩

/-! ### Ranges -/

theorem Number.NoWord.head {n : Number} (h : n.NoWord) (sfx : Bool) : ∃ c u, n.text sfx = c :: u ∧ (isDigit c = true ∨ c = '-') := by
  rcases number_text_form n sfx with ⟨v, hw⟩ | hh
  · exfalso
    cases n with
    | int t v' =>
      simp only [Number.text, litOf_text] at hw
      have : ∃ c u, intText v' ++ suffixText (if sfx then some t else none) = c :: u ∧ (isDigit c = true ∨ c = '-') := by
        unfold intText
        split
        · exact ⟨'-', _, rfl, .inr rfl⟩
        · cases e : natText v'.natAbs with
          | nil => exact absurd e (natText_ne_nil _)
          | cons c u => exact ⟨c, _, rfl, .inl (natText_digit v'.natAbs c (by rw [e]; simp))⟩
      obtain ⟨c, u, e, hc⟩ := this
      rw [e] at hw
      simp only [floatWords, List.mem_cons, Prod.mk.injEq, List.cons.injEq, List.not_mem_nil, or_false] at hw
      rcases hw with h | h | h | h | h | h <;> (obtain ⟨⟨rfl, -⟩, -⟩ := h; revert hc; decide)
    | f32 b =>
      have hm : (f32Text b ++ (if sfx then floatSuffix true else []), v) ∈ floatWords := hw
      rcases f32Text_form b with ⟨⟨sg, ip, fp, h1, h2, h3, e⟩, -⟩ | ⟨h1, -, v64, -, -, -, -, hs⟩
      · rw [e] at hm
        have : ∃ c u, sg ++ ip ++ '.' :: fp ++ (if sfx then floatSuffix true else []) = c :: u ∧ (isDigit c = true ∨ c = '-') := by
          rcases h1 with rfl | rfl
          · obtain ⟨hne, hd⟩ := h2
            cases ip with
            | nil => exact absurd rfl hne
            | cons c ip => exact ⟨c, _, rfl, .inl (hd c (by simp))⟩
          · exact ⟨'-', _, rfl, .inr rfl⟩
        obtain ⟨c, u, e, hc⟩ := this
        rw [e] at hm
        simp only [floatWords, List.mem_cons, Prod.mk.injEq, List.cons.injEq, List.not_mem_nil, or_false] at hm
        rcases hm with h | h | h | h | h | h <;> (obtain ⟨⟨rfl, -⟩, -⟩ := h; revert hc; decide)
      · have hneg := h hs
        have hd : ∃ u, f32Text b = '-' :: u := by
          cases hn : b.isNan with
          | true => exact ⟨_, by unfold f32Text; simp only [hn, hneg, Bool.and_self, ↓reduceIte]; rfl⟩
          | false =>
            rcases F32.inf_cases (by simpa [hn] using hs) with ⟨rfl, -⟩ | ⟨rfl, -⟩
            · exact absurd hneg (by decide)
            · exact ⟨_, by unfold f32Text; rw [Env.fmt32_inf.2]; rfl⟩
        obtain ⟨u, e⟩ := hd
        rw [e] at hm
        simp [floatWords] at hm
    | f64 b =>
      have hm : (f64Text b ++ (if sfx then floatSuffix false else []), v) ∈ floatWords := hw
      cases hs : (b.isNan || b.isInf) with
      | true =>
        have hneg := h hs
        have hd : ∃ u, f64Text b = '-' :: u := by
          cases hn : b.isNan with
          | true => exact ⟨_, by unfold f64Text; simp only [hn, hneg, Bool.and_self, ↓reduceIte]; rfl⟩
          | false =>
            rcases F64.inf_cases (by simpa [hn] using hs) with ⟨rfl, -⟩ | ⟨rfl, -⟩
            · exact absurd hneg (by decide)
            · exact ⟨_, by unfold f64Text; rw [Env.fmt64_inf.2]; rfl⟩
        obtain ⟨u, e⟩ := hd
        rw [e] at hm
        simp [floatWords] at hm
      | false =>
        simp only [Bool.or_eq_false_iff] at hs
        obtain ⟨ip, fp, h2, h3, e⟩ := Env.fmt64_finite b hs.1 hs.2
        have : ∃ c u, f64Text b ++ (if sfx then floatSuffix false else []) = c :: u ∧ (isDigit c = true ∨ c = '-') := by
          unfold f64Text
          rw [e]
          simp only [hs.1, Bool.false_and, Bool.false_eq_true, ↓reduceIte, List.nil_append]
          cases b.isNeg with
          | true => exact ⟨'-', _, rfl, .inr rfl⟩
          | false =>
            obtain ⟨hne, hd⟩ := h2
            cases ip with
            | nil => exact absurd rfl hne
            | cons c ip => exact ⟨c, _, rfl, .inl (hd c (by simp))⟩
        obtain ⟨c, u, e, hc⟩ := this
        rw [e] at hm
        simp only [floatWords, List.mem_cons, Prod.mk.injEq, List.cons.injEq, List.not_mem_nil, or_false] at hm
        rcases hm with h | h | h | h | h | h <;> (obtain ⟨⟨rfl, -⟩, -⟩ := h; revert hc; decide)
  · exact hh

omit [Env] in
theorem isNumberStart_of {c : Char} (h : isDigit c = true ∨ c = '-') (t : Text) : isNumberStart t c = true := by
  rcases h with h | rfl
  · have : c ≠ 'b' := by rintro rfl; revert h; decide
    simp [isNumberStart, h, this]
  · rfl

theorem numFollow_dots (r : Text) : NumFollow ('.' :: '.' :: r) := by
  refine ⟨fun c r' e => ?_, fun c r' e => .inr ⟨r, rfl⟩⟩
  simp only [List.cons.injEq] at e
  rw [← e.1, Env.xidCont_ascii _ (by decide)]; rfl

theorem follow_noEq {l q : Text} (hl : Layout l) (hq : Stop q) : ∀ r', l ++ q ≠ '=' :: r' := by
  intro r' e
  cases hl with
  | nil =>
    rcases hq with rfl | ⟨c, q', rfl, hc⟩
    · cases e
    · cases e; revert hc; decide
  | @ws c l hc hl =>
    simp only [List.cons_append, List.cons.injEq] at e
    obtain ⟨rfl, -⟩ := e
    revert hc; decide
  | line _ _ => cases e
  | block _ _ => cases e

theorem RangeLit.head {sfx : Bool} {name w : Text} {es : List (Text × Number)} (h : RangeLit sfx name es w)
    (hw : ∀ e ∈ es, e.2.NoWord) : ∃ c u, w = c :: u ∧ (isDigit c = true ∨ c = '-' ∨ c = '.') := by
  have key : ∀ a : Number, a.NoWord → ∀ r, ∃ c u, a.text sfx ++ r = c :: u ∧ (isDigit c = true ∨ c = '-' ∨ c = '.') := by
    intro a ha r
    obtain ⟨c, u, hc, hcd⟩ := ha.head sfx
    exact ⟨c, u ++ r, by rw [hc]; rfl, hcd.imp_right .inl⟩
  cases h with
  | range => exact key _ (hw _ (List.mem_cons_self ..)) _
  | rangeInclusive => exact key _ (hw _ (List.mem_cons_self ..)) _
  | rangeFrom => exact key _ (hw _ (List.mem_cons_self ..)) _
  | rangeTo => exact ⟨_, _, rfl, .inr (.inr rfl)⟩
  | rangeToInclusive => exact ⟨_, _, rfl, .inr (.inr rfl)⟩

theorem RangeLit.tokStart {sfx : Bool} {name w : Text} {es : List (Text × Number)} (h : RangeLit sfx name es w)
    (hw : ∀ e ∈ es, e.2.NoWord) : TokStart w := by
  obtain ⟨c, u, e, hc⟩ := h.head hw
  refine ⟨c, u, e, ?_⟩
  rcases hc with hc | rfl | rfl
  · obtain ⟨h1, h2, h3, h4⟩ := isDigit_bounds hc
    refine ⟨h3, ?_⟩
    simp at h4 ⊢; simp [h4]
  · decide
  · decide

theorem RangeLit.heads {sfx : Bool} {name w : Text} {es : List (Text × Number)} (h : RangeLit sfx name es w)
    (hw : ∀ e ∈ es, e.2.NoWord) : Heads w := by
  obtain ⟨c, u, rfl, hc⟩ := h.head hw
  rcases hc with hc | rfl | rfl
  · exact heads_ascii (isDigit_bounds hc).1 (isDigit_bounds hc).2.1
  · exact heads_ascii (by decide) (by decide)
  · exact heads_ascii (by decide) (by decide)

/-- Nothing that may follow an item begins like a number. -/
theorem follow_noNumber {r : Text} (h : IdentFollow r) (t : Text) : (match (generalizing := false) r with | [] => false | c :: _ => isNumberStart t c) = false := by
  cases r with
  | nil => rfl
  | cons c r =>
    have h1 := (h c r rfl).1
    simp only [isIdentRaw, Bool.or_eq_false_iff, beq_eq_false_iff_ne] at h1
    obtain ⟨⟨⟨a1, a2⟩, a3⟩, a4⟩ := h1
    have hd : isDigit c = false := by
      cases hd : isDigit c with
      | false => rfl
      | true => rw [digit_cont hd] at a4; cases a4
    have hb : c ≠ 'b' := by
      rintro rfl
      rw [Env.xidCont_ascii _ (by decide)] at a4
      revert a4; decide
    simp [isNumberStart, hd, a1, a2, a3, hb]

theorem anyPlain_dots {any : P Value} {d : St} {u : Text} (hd : d.rest = '.' :: '.' :: u) : anyPlain any d = anyChar any d :=
  anyPlain_char (c := '.') hd (by decide) (by rw [hd]; rfl) (skipIdentifier_ascii hd (by decide) (by decide))

theorem range_reads_any {sfx : Bool} {name w r : Text} {es : List (Text × Number)} (h : RangeLit sfx name es w)
    (hw : ∀ e ∈ es, e.2.WF ∧ e.2.NoWord) {any : P Value} {d : St} (hd : d.rest = w ++ r) (hr : IdentFollow r)
    (hne : ∀ r', r ≠ '=' :: r') :
    RunsW (anyPlain any) d
      (.map (mapOfList (es.map fun e => (.str e.1, .num (if sfx then e.2.canon else e.2.untyped))))) r := by
  cases h with
  | @range a b =>
    simp only [List.append_assoc] at hd
    have wa : a.WF := (hw _ (List.mem_cons_self ..)).1
    have na : a.NoWord := (hw _ (List.mem_cons_self ..)).2
    have wb : b.WF := (hw _ (List.mem_cons_of_mem _ (List.mem_cons_self ..))).1
    have nb : b.NoWord := (hw _ (List.mem_cons_of_mem _ (List.mem_cons_self ..))).2
    obtain ⟨c, u, hc, hcd⟩ := na.head sfx
    obtain ⟨c', u', hc', hcd'⟩ := nb.head sfx
    obtain ⟨s1, h1, h2, h3⟩ := anyNumber_read a sfx wa hd (numFollow_dots _)
    obtain ⟨s2, g1, g2, g3⟩ := anyNumber_read b sfx wb (s := { s1 with prev := s1.rest, rest := b.text sfx ++ r }) rfl hr.num
    refine ⟨s2, ?_, g2, h3.trans (.of g3)⟩
    rw [anyPlain_digits (u := u ++ ('.' :: '.' :: (b.text sfx ++ r))) (by rw [hd, hc]; rfl) hcd h1]
    have e1 : startsWith s1.rest c!"..=" = false := by
      rw [h2, hc']
      have : c' ≠ '=' := by rintro rfl; revert hcd'; decide
      simp [this, Ne.symm this]
    unfold floatRangeOrValue
    simp only [bind_apply, consumeStr_false e1, Bool.false_eq_true, ↓reduceIte, ite_P]
    rw [consumeStr_true (by rw [h2]; rfl)]
    simp only [h2, ↓reduceIte, getSt_apply, bind_apply, List.cons_append, List.drop_succ_cons, List.drop_zero, List.length_cons,
      List.length_nil, hc', isNumberStart_of hcd', Bool.not_true, Bool.false_eq_true, List.nil_append, Nat.zero_add]
    rw [h2, hc'] at g1
    simp only [List.cons_append, List.nil_append] at g1
    rw [g1]
    rfl
  | @rangeInclusive a b =>
    simp only [List.append_assoc] at hd
    have wa : a.WF := (hw _ (List.mem_cons_self ..)).1
    have na : a.NoWord := (hw _ (List.mem_cons_self ..)).2
    have wb : b.WF := (hw _ (List.mem_cons_of_mem _ (List.mem_cons_self ..))).1
    have nb : b.NoWord := (hw _ (List.mem_cons_of_mem _ (List.mem_cons_self ..))).2
    obtain ⟨c, u, hc, hcd⟩ := na.head sfx
    obtain ⟨s1, h1, h2, h3⟩ := anyNumber_read a sfx wa hd (numFollow_dots _)
    obtain ⟨s2, g1, g2, g3⟩ := anyNumber_read b sfx wb (s := { s1 with prev := s1.rest, rest := b.text sfx ++ r }) rfl hr.num
    refine ⟨s2, ?_, g2, h3.trans (.of g3)⟩
    rw [anyPlain_digits (u := u ++ ('.' :: '.' :: '=' :: (b.text sfx ++ r))) (by rw [hd, hc]; rfl) hcd h1]
    unfold floatRangeOrValue
    simp only [bind_apply]
    rw [consumeStr_true (by rw [h2]; rfl)]
    simp only [h2, ↓reduceIte, bind_apply, List.cons_append, List.drop_succ_cons, List.drop_zero, List.length_cons,
      List.length_nil, List.nil_append, Nat.zero_add]
    rw [h2] at g1
    simp only [List.cons_append, List.nil_append] at g1
    rw [g1]
    rfl
  | @rangeFrom a =>
    simp only [List.append_assoc] at hd
    have wa : a.WF := (hw _ (List.mem_cons_self ..)).1
    have na : a.NoWord := (hw _ (List.mem_cons_self ..)).2
    obtain ⟨c, u, hc, hcd⟩ := na.head sfx
    obtain ⟨s1, h1, h2, h3⟩ := anyNumber_read a sfx wa hd (numFollow_dots _)
    refine ⟨{ s1 with prev := s1.rest, rest := r }, ?_, rfl, h3.trans (.of (.refl _))⟩
    rw [anyPlain_digits (u := u ++ ('.' :: '.' :: r)) (by rw [hd, hc]; rfl) hcd h1]
    have e1 : startsWith s1.rest c!"..=" = false := by
      rw [h2]
      cases r with
      | nil => rfl
      | cons c r =>
        have : c ≠ '=' := fun e => hne r (by rw [e])
        simp [this, Ne.symm this]
    unfold floatRangeOrValue
    simp only [bind_apply, consumeStr_false e1, Bool.false_eq_true, ↓reduceIte, ite_P]
    rw [consumeStr_true (by rw [h2]; rfl)]
    simp only [h2, ↓reduceIte, getSt_apply, bind_apply, List.cons_append, List.drop_succ_cons, List.drop_zero, List.length_cons,
      List.length_nil, List.nil_append, Nat.zero_add]
    refine (if_pos ?_).trans rfl
    exact congrArg (!·) (follow_noNumber hr r)
  | @rangeTo b =>
    simp only [List.append_assoc] at hd
    have wb : b.WF := (hw _ (List.mem_cons_self ..)).1
    have nb : b.NoWord := (hw _ (List.mem_cons_self ..)).2
    obtain ⟨c', u', hc', hcd'⟩ := nb.head sfx
    obtain ⟨s2, g1, g2, g3⟩ := anyNumber_read b sfx wb (s := { d with prev := d.rest, rest := b.text sfx ++ r }) rfl hr.num
    refine ⟨s2, ?_, g2, .of g3⟩
    rw [anyPlain_dots hd]
    have e1 : startsWith d.rest c!"..=" = false := by
      rw [hd, hc']
      have : c' ≠ '=' := by rintro rfl; revert hcd'; decide
      simp [this, Ne.symm this]
    unfold anyChar
    have hpk : peekCharOrEof d = .ok '.' d := by
      unfold peekCharOrEof; simp only [bind_apply, peekChar_apply, hd, List.cons_append, List.head?_cons, pure_apply]
    simp only [bind_apply, hpk, getSt_apply, beq_iff_eq, ↓reduceIte, ite_P]
    rw [if_neg (by decide), if_neg (by decide), if_neg (by decide), if_pos (by decide), if_neg (by simp)]
    simp only [bind_apply, consumeStr_false e1, Bool.false_eq_true, ↓reduceIte]
    rw [consumeStr_true (by rw [hd]; rfl)]
    simp only [hd, ↓reduceIte, bind_apply, List.cons_append, List.drop_succ_cons, List.drop_zero, List.length_cons, ite_P,
      List.length_nil, List.nil_append, Nat.zero_add, hc', isNumberStart_of hcd']
    rw [hd, hc'] at g1
    simp only [List.cons_append, List.nil_append] at g1
    rw [g1]
    rfl
  | @rangeToInclusive b =>
    simp only [List.append_assoc] at hd
    have wb : b.WF := (hw _ (List.mem_cons_self ..)).1
    have nb : b.NoWord := (hw _ (List.mem_cons_self ..)).2
    obtain ⟨s2, g1, g2, g3⟩ := anyNumber_read b sfx wb (s := { d with prev := d.rest, rest := b.text sfx ++ r }) rfl hr.num
    refine ⟨s2, ?_, g2, .of g3⟩
    rw [anyPlain_dots hd]
    unfold anyChar
    have hpk : peekCharOrEof d = .ok '.' d := by
      unfold peekCharOrEof; simp only [bind_apply, peekChar_apply, hd, List.cons_append, List.head?_cons, pure_apply]
    simp only [bind_apply, hpk, getSt_apply, beq_iff_eq, ↓reduceIte, ite_P]
    rw [if_neg (by decide), if_neg (by decide), if_neg (by decide), if_pos (by decide), if_neg (by simp)]
    rw [consumeStr_true (by rw [hd]; rfl)]
    simp only [hd, ↓reduceIte, bind_apply, List.cons_append, List.drop_succ_cons, List.drop_zero, List.length_cons,
      List.length_nil, List.nil_append, Nat.zero_add]
    rw [hd] at g1
    simp only [List.cons_append, List.nil_append] at g1
    rw [g1]
    rfl

/-- `..` -/
theorem full_reads_any {any : P Value} {d : St} {r : Text} (hd : d.rest = c!".." ++ r) (hr : IdentFollow r)
    (hne : ∀ r', r ≠ '=' :: r') : RunsW (anyPlain any) d .unit r := by
  refine ⟨{ d with prev := d.rest, rest := r }, ?_, rfl, .of (.refl _)⟩
  rw [anyPlain_dots hd]
  have e1 : startsWith d.rest c!"..=" = false := by
    rw [hd]
    cases r with
    | nil => rfl
    | cons c r =>
      have : c ≠ '=' := fun e => hne r (by rw [e])
      simp [this, Ne.symm this]
  unfold anyChar
  have hpk : peekCharOrEof d = .ok '.' d := by
    unfold peekCharOrEof; simp only [bind_apply, peekChar_apply, hd, List.cons_append, List.head?_cons, pure_apply]
  simp only [bind_apply, hpk, getSt_apply, beq_iff_eq, ↓reduceIte, ite_P]
  rw [if_neg (by decide), if_neg (by decide), if_neg (by decide), if_pos (by decide), if_neg (by simp)]
  simp only [bind_apply, consumeStr_false e1, Bool.false_eq_true, ↓reduceIte]
  rw [consumeStr_true (by rw [hd]; rfl)]
  simp only [hd, ↓reduceIte, bind_apply, List.cons_append, List.drop_succ_cons, List.drop_zero, List.length_cons, ite_P,
    List.length_nil, List.nil_append, Nat.zero_add]
  refine (if_neg ?_).trans rfl
  exact Bool.eq_false_iff.mp (follow_noNumber hr _)

theorem scalar_tokStart {w : Text} {v : Value} (h : Scalar w v) : TokStart w := by
  cases h with
  | true => exact tokStart_plain (reserved_plain (by simp [reservedNames]))
  | false => exact tokStart_plain (reserved_plain (by simp [reservedNames]))
  | none => exact tokStart_plain (reserved_plain (by simp [reservedNames]))
  | unit => exact ⟨_, _, rfl, by decide, by decide⟩
  | typed h => exact tokStart_number _ _
  | untyped h => exact tokStart_number _ _
  | @char c => obtain ⟨u, hu⟩ := charText_form c; rw [hu]; exact ⟨_, _, rfl, by decide, by decide⟩
  | str h =>
    rcases h.form [] with ⟨u, hu⟩ | ⟨u, hu, -⟩ <;> rw [List.append_nil] at hu <;> rw [hu] <;> exact ⟨_, _, rfl, by decide, by decide⟩
  | bytes h => obtain ⟨u, hu, -⟩ := h.form []; rw [List.append_nil] at hu; rw [hu]; exact ⟨_, _, rfl, by decide, by decide⟩
  | name h => exact h.tokStart
  | range h hw => exact h.tokStart fun e he => (hw e he).2
  | full => exact ⟨_, _, rfl, by decide, by decide⟩

theorem scalar_heads {w : Text} {v : Value} (h : Scalar w v) : Heads w := by
  cases h with
  | true => exact heads_word (reserved_plain (by simp [reservedNames]))
  | false => exact heads_word (reserved_plain (by simp [reservedNames]))
  | none => exact heads_word (reserved_plain (by simp [reservedNames]))
  | unit => exact heads_ascii (by decide) (by decide)
  | typed h => exact heads_number _ _
  | untyped h => exact heads_number _ _
  | @char c => obtain ⟨u, hu⟩ := charText_form c; rw [hu]; exact heads_ascii (by decide) (by decide)
  | str h =>
    refine heads_none fun d r hd => ?_
    rcases h.form r with ⟨u, hu⟩ | ⟨u, hu, hs⟩
    · exact skipIdentifier_ascii (hd.trans hu) (by decide) (by decide)
    · exact skipIdentifier_string (by rw [hd]; exact hs)
  | bytes h =>
    refine heads_none fun d r hd => ?_
    obtain ⟨u, hu, hs, -⟩ := h.form r
    exact skipIdentifier_string (by rw [hd]; exact hs)
  | name h => exact h.heads
  | range h hw => exact h.heads fun e he => (hw e he).2
  | full => exact heads_ascii (by decide) (by decide)

theorem anyStruct_unit {any : P Value} {d : St} (h : startsWith d.rest ['('] = false) :
    ∃ s', anyStruct any d = .ok .unit s' ∧ s'.rest = d.rest ∧ KeepsD d s' := by
  obtain ⟨s', h1, h2, h3⟩ := struct_unit (tm := .imprecise) h
  refine ⟨s', ?_, h2, h3⟩
  unfold anyStruct
  simp only [bind_apply, h1, pure_apply]

theorem scalar_reads {x : Exts} {w : Text} {v : Value} (h : Scalar w v) (any : P Value) : Reads x 0 (anyBody any) w v := by
  refine ⟨scalar_tokStart h, fun d l q hp hd hl hq => ?_⟩
  have hf := follow_ident hl hq
  have hdots := follow_noDots hl hq
  unfold RunsTo
  rw [anyBody_plain hp.nv]
  show RunsTo (anyPlain any) d v q
  cases h with
  | true =>
    obtain ⟨g, gt, gs, gu⟩ := anyPlain_kw (w := c!"true") (by simp [reservedNames]) hd hf.xid
    refine RunsW.runsTo (l := l) ⟨{ d with prev := d.rest, rest := l ++ q }, ?_, rfl, .step _ _ _⟩ hl
    unfold anyPlain
    simp only [bind_apply, gt, ↓reduceIte, pure_apply]
  | false =>
    obtain ⟨g, gt, gs, gu⟩ := anyPlain_kw (w := c!"false") (by simp [reservedNames]) hd hf.xid
    refine RunsW.runsTo (l := l) ⟨{ d with prev := d.rest, rest := l ++ q }, ?_, rfl, .step _ _ _⟩ hl
    unfold anyPlain
    simp only [bind_apply, g c!"true" (by simp [reservedNames]) (by simp), gt, ↓reduceIte, pure_apply, Bool.false_eq_true]
  | none =>
    obtain ⟨g, gt, gs, gu⟩ := anyPlain_kw (w := c!"None") (by simp [reservedNames]) hd hf.xid
    refine RunsW.runsTo (l := l) ⟨{ d with prev := d.rest, rest := l ++ q }, ?_, rfl, .step _ _ _⟩ hl
    unfold anyPlain
    simp only [bind_apply, g c!"true" (by simp [reservedNames]) (by simp), g c!"false" (by simp [reservedNames]) (by simp),
      gs (by simp), gt, ↓reduceIte, pure_apply, Bool.false_eq_true]
  | unit =>
    have hk := noKeyword_char (d := d) hd (by decide)
    have g : ∀ kw ∈ reservedNames, consumeIdent kw d = .ok false d := fun kw hkw => consumeIdent_false (hk kw hkw)
    have hu : consumeStr c!"()" d = .ok true { d with prev := d.rest, rest := d.rest.drop 2 } := consumeStr_true (by rw [hd]; simp)
    refine RunsW.runsTo (l := l) ⟨{ d with prev := d.rest, rest := d.rest.drop 2 }, ?_, by simp [hd], .step _ _ _⟩ hl
    unfold anyPlain
    simp only [bind_apply, g c!"true" (by simp [reservedNames]), g c!"false" (by simp [reservedNames]),
      checkIdent_false (hk c!"Some" (by simp [reservedNames])), g c!"None" (by simp [reservedNames]), hu, ↓reduceIte, pure_apply,
      Bool.false_eq_true]
  | @typed n h =>
    exact (anyPlain_number hd hf hdots (by simpa using anyNumber_read n true h hd hf.num)).runsTo hl
  | @untyped n h =>
    exact (anyPlain_number hd hf hdots (by simpa using anyNumber_read n false h hd hf.num)).runsTo hl
  | char => exact (anyPlain_charLit hd).runsTo hl
  | str h => exact (anyPlain_str h hd).runsTo hl
  | bytes h => exact (anyPlain_bytes h hd).runsTo hl
  | range h hw => exact (range_reads_any h hw hd hf (follow_noEq hl hq)).runsTo hl
  | full => exact (full_reads_any hd hf (follow_noEq hl hq)).runsTo hl
  | @name _ n h =>
    have hk : NoKeyword d := fun kw hkw => by rw [hd]; exact h.notKeyword hf hkw
    obtain ⟨s1, h1, h2, h3⟩ := h.skips hf hd
    obtain ⟨s2, k1, k2, k3⟩ := skipWs_tok h2 hl hq.noLayout
    obtain ⟨s3, m1, m2, m3⟩ := anyStruct_unit (any := any) (d := s2) (by rw [k2]; exact stop_ne hq (by decide))
    refine ⟨s3, [], ?_, by rw [m2, k2]; rfl, .nil, h3.toD.trans (k3.trans m3)⟩
    have hpar : startsWith d.rest c!"()" = false := by
      obtain ⟨c, u, rfl, hc⟩ := h.noParen
      rw [hd]; simp [Ne.symm hc]
    rw [anyPlain_noKeyword hk hpar]
    simp only [bind_apply, h1, k1, m1]


/-! ### Options -/

omit [Env] in
/-- An item followed by a tail and a closing delimiter. -/
theorem Reads.tail {α : Type} {x : Exts} {k : Nat} {seed : P α} {t : Text} {v : α} (h : Reads x k seed t v) {d : St}
    (hp : Pre x k d) {b r : Text} {term : Char} (hterm : term ∈ [')', ']', '}']) (hd : d.rest = t ++ (b ++ term :: r)) (hb : Tail b) :
    ∃ s' b', seed d = .ok v s' ∧ s'.rest = b' ++ term :: r ∧ Tail b' ∧ KeepsD d s' := by
  have hterm' : term ∈ [',', ')', ']', '}', ':'] := by revert hterm; simp; rintro (rfl | rfl | rfl) <;> simp
  obtain ⟨b1, q, hb1, e, hq⟩ := tail_split (r := r) (term := term) hb
  have hstop : Stop q := by
    rcases hq with rfl | ⟨c, -, rfl⟩
    · exact stop_cons hterm'
    · exact stop_cons (by simp)
  obtain ⟨s2, l2, g1, g2, g3, g4⟩ := h.2 d b1 q hp (by rw [hd, e]) hb1 hstop
  rcases hq with rfl | ⟨c, hc, rfl⟩
  · exact ⟨s2, l2, g1, g2, .plain g3, g4⟩
  · exact ⟨s2, l2 ++ ',' :: c, g1, by rw [g2]; simp, .comma g3 hc, g4⟩

omit [Env] in
theorem noLayout_open (r : Text) : NoLayoutStart ('(' :: r) := by intro c r' e; cases e; decide

theorem deOption_some {α : Type} {x : Exts} {k : Nat} {vn : α} {visit : P α} {v : α} {l a t b r : Text} {d : St}
    (hx : x.unwrapVariantNewtypes = false) (hv : Reads x k visit t v) (hp : Pre x (k + 1) d)
    (hd : d.rest = c!"Some" ++ (l ++ '(' :: (a ++ (t ++ (b ++ ')' :: r))))) (hl : Layout l) (ha : Layout a) (hb : Tail b) :
    ∃ s', deOption vn visit d = .ok v s' ∧ s'.rest = r ∧ KeepsD d s' := by
  have hf : NoIdentStart (l ++ '(' :: (a ++ (t ++ (b ++ ')' :: r)))) := (layout_follow hl (parenOpen_follow _)).xid
  have hnone : consumeIdent c!"None" d = .ok false d := consumeIdent_false (by
    rw [hd]; exact keyword_other (t := c!"Some") (by simp [reservedNames]) (by simp [reservedNames]) hf (by simp))
  have hsome : consumeIdent c!"Some" d = .ok true { d with prev := d.rest, rest := l ++ '(' :: (a ++ (t ++ (b ++ ')' :: r))) } :=
    consumeIdent_true hd hf
  obtain ⟨s1, h1, h2, h3⟩ := skipWs_tok (d := { d with prev := d.rest, rest := l ++ '(' :: (a ++ (t ++ (b ++ ')' :: r))) }) rfl hl
    (noLayout_open _)
  have hk1 := (KeepsD.step d _ _).trans h3
  obtain ⟨s2, g1, g2, g3⟩ := skipWs_tok (d := { s1 with prev := s1.rest, rest := a ++ (t ++ (b ++ ')' :: r)) }) rfl ha
    (hv.1.noLayout _)
  have hk2 := hk1.trans ((KeepsD.step s1 _ _).trans g3)
  have hp2 := hp.keep hk2
  have e2 : ({ s2 with nv := s2.exts.unwrapVariantNewtypes } : St) = s2 := by
    have e : s2.exts.unwrapVariantNewtypes = s2.nv := by rw [hp2.exts, hx, hp2.nv]
    rw [e]
  obtain ⟨s3, b', m1, m2, m3, m4⟩ := hv.guardQ.tail hp2 (by simp) g2 hb
  have e3 : ({ s3 with nv := false } : St) = s3 := by
    have := (hp2.keep m4).nv
    rw [← this]
  obtain ⟨bb, s4, n1, n2, n3⟩ := comma_tail m2 m3 (by simp)
  refine ⟨{ s4 with prev := s4.rest, rest := r }, ?_, rfl, hk2.trans (m4.trans (n3.trans (KeepsD.step _ _ _)))⟩
  unfold deOption
  simp only [bind_apply, hnone, hsome, Bool.false_eq_true, ↓reduceIte, h1, consumeChar_true h2, g1, modSt_apply, e2, m1,
    setNv_apply, e3, n1, consumeChar_true n2, pure_apply]

omit [Env] in
theorem Reads.bind_pure {α β : Type} {x : Exts} {k : Nat} {seed : P α} {t : Text} {v : α} (h : Reads x k seed t v) (g : α → β) :
    Reads x k (do let a ← seed; pure (g a)) t (g v) := by
  refine ⟨h.1, fun d l q hp hd hl hq => ?_⟩
  obtain ⟨s', l', h1, h2⟩ := h.2 d l q hp hd hl hq
  exact ⟨s', l', by simp only [bind_apply, h1, pure_apply], h2⟩

theorem anyPlain_some {any : P Value} {d : St} {r : Text} (hd : d.rest = c!"Some" ++ r) (hr : NoIdentStart r) :
    anyPlain any d = deOption .none (do let v ← any; pure (.some v)) d := by
  obtain ⟨g, gt, gs, gu⟩ := anyPlain_kw (w := c!"Some") (by simp [reservedNames]) hd hr
  unfold anyPlain
  simp only [bind_apply, g c!"true" (by simp [reservedNames]) (by simp), g c!"false" (by simp [reservedNames]) (by simp),
    checkIdent_true hd hr, ↓reduceIte, Bool.false_eq_true]

/-! ### Compound values -/

theorem anyPlain_open {any : P Value} {d : St} {u : Text} (hd : d.rest = '(' :: u) (h : startsWith d.rest c!"()" = false) :
    anyPlain any d = anyStruct any d := by
  rw [anyPlain_char hd (by decide) h (skipIdentifier_ascii hd (by decide) (by decide))]
  unfold anyChar
  simp [bind_apply, peekCharOrEof_cons hd]

theorem anyPlain_bracket {any : P Value} {d : St} {u : Text} (hd : d.rest = '[' :: u) :
    anyPlain any d = deSeq (visitSeq ']' any) d := by
  rw [anyPlain_char hd (by decide) (by rw [hd]; simp) (skipIdentifier_ascii hd (by decide) (by decide))]
  unfold anyChar
  simp [bind_apply, peekCharOrEof_cons hd]

theorem anyPlain_brace {any : P Value} {d : St} {u : Text} (hd : d.rest = '{' :: u) :
    anyPlain any d = deMap (visitMap '}' any any) d := by
  rw [anyPlain_char hd (by decide) (by rw [hd]; simp) (skipIdentifier_ascii hd (by decide) (by decide))]
  unfold anyChar
  simp [bind_apply, peekCharOrEof_cons hd]

omit [Env] in
/-- What follows the first item of a tuple. -/
theorem first_item {ts : List Text} {w r : Text} (h : Inner ')' ts w) (hts : ∀ t ∈ ts, TokStart t) :
    (ts = [] ∧ ∃ a, Layout a ∧ w = a ++ [')']) ∨
    ∃ a t l q, t ∈ ts ∧ Layout a ∧ Layout l ∧ AfterItem q ∧ w ++ r = a ++ (t ++ (l ++ q)) := by
  cases h with
  | nil ha => exact .inl ⟨rfl, _, ha, rfl⟩
  | @items a u t _ ha hu ht =>
    right
    cases hu with
    | one =>
      cases ht with
      | plain hb => exact ⟨a, u, _, _, by simp, ha, hb, .close (r := r), by simp⟩
      | @comma b c hb hc =>
        exact ⟨a, u, b, ',' :: (c ++ ')' :: r), by simp, ha, hb, .comma hc (stop_cons (c := ')') (by simp)).noLayout, by simp⟩
    | @cons t0 b a' u ts hb ha' hu =>
      refine ⟨a, t0, b, ',' :: (a' ++ (u ++ (t ++ ')' :: r))), by simp, ha, hb, .comma ha' ?_, by simp⟩
      exact (hu.tokStart fun t ht => hts t (List.mem_cons_of_mem _ ht)).noLayout _

theorem deIdentValue_reads {x : Exts} {n t : Text} (h : KeyTok n t) : Reads x 0 deIdentValue t (.str n) := by
  refine ⟨h.tokStart, fun d l q hp hd hl hq => ?_⟩
  obtain ⟨s1, h1, h2, h3⟩ := h.reads (follow_ident hl hq) hd
  refine ⟨{ s1 with lastIdent := some n }, l, ?_, h2, hl, h3.toD.trans ⟨rfl, rfl, rfl, id⟩⟩
  unfold deIdentValue deIdentifier
  simp only [bind_apply, h1, modSt_apply, pure_apply]

/-- `handle_any_struct` on a tuple. -/
theorem anyStruct_tuple {any : P Value} {x : Exts} {k N : Nat} {ts : List Text} {vs : List Value} {w r : Text} {d : St}
    (hE : All2 (Reads x k any) ts vs) (hh : ∀ t ∈ ts, Heads t) (hw : Delim '(' ')' ts w) (hN : 1 ≤ N) (hk : ts ≠ [] → k + 2 ≤ N)
    (hp : Pre x N d) (hd : d.rest = w ++ r) : ∃ s', anyStruct any d = .ok (.seq vs) s' ∧ s'.rest = r ∧ KeepsD d s' := by
  obtain ⟨w', rfl, hi⟩ := delim_inner hw
  have hty : ∃ ty, Struct .noParensMeanUnit .imprecise d ty ∧ ty ≠ .unit ∧ ty ≠ .named := by
    rcases first_item (r := r) hi hE.tokStart with ⟨-, a, ha, rfl⟩ | ⟨a, t, l, q, ht, ha, hl, hq, e⟩
    · exact ⟨_, struct_empty (a := a) (r := r) (by simpa using hd) ha, by simp, by simp⟩
    · exact struct_tuple (hE.tokStart t ht) (hh t ht) (by rw [hd, List.cons_append, e]) ha hl hq
  obtain ⟨ty, ⟨s1, h1, h2, h3⟩, hu, hn⟩ := hty
  obtain ⟨s2, g1, g2, g3⟩ := deTuple_ok (k := N - 1) (visit := visitSeq ')' any) (v := .seq vs) (w := w') (r := r)
    (by rw [Nat.sub_add_cancel hN]; exact hp.keep h3) (by rw [h2, hd]; rfl) (fun d' hp' hd' => by
      obtain ⟨s', m1, m2, m3⟩ := readSeq_inner (term := ')') (by simp) hi hE (hp'.mono (by split <;> first | omega | (have := hk ‹_›; omega))) hd'
      refine ⟨s', [], ?_, by simpa using m2, .nil, m3⟩
      unfold visitSeq
      simp only [bind_apply, m1, pure_apply])
  refine ⟨s2, ?_, g2, h3.trans g3⟩
  unfold anyStruct
  simp only [bind_apply, h1]
  exact g1

/-- `handle_any_struct` on a struct. -/
theorem anyStruct_named {any : P Value} {x : Exts} {k N : Nat} {es : List Text} {fs : List (Text × Value)} {w r : Text} {d : St}
    (hE : All2 (fun e f => ∃ kt vt, KeyTok f.1 kt ∧ Reads x k any vt f.2 ∧ Entry kt vt e) es fs) (hne : fs ≠ [])
    (hw : Delim '(' ')' es w) (hk : k + 2 ≤ N)
    (hp : Pre x N d) (hd : d.rest = w ++ r) :
    ∃ s', anyStruct any d = .ok (.map (mapOfList (fs.map fun f => (.str f.1, f.2)))) s' ∧ s'.rest = r ∧ KeepsD d s' := by
  obtain ⟨w', rfl, hi⟩ := delim_inner hw
  have hR : All2 (ReadsEntry x k deIdentValue any) es (fs.map fun f => (Value.str f.1, f.2)) := by
    clear hi hw hd hne
    induction es generalizing fs with
    | nil => cases fs with
      | nil => trivial
      | cons _ _ => exact hE.elim
    | cons e es ih => cases fs with
      | nil => exact hE.elim
      | cons f fs =>
        obtain ⟨⟨kt, vt, h1, h2, h3⟩, h4⟩ := hE
        exact ⟨⟨kt, vt, (deIdentValue_reads h1).mono (Nat.zero_le _), h2, h3⟩, ih h4⟩
  have hty : Struct .noParensMeanUnit .imprecise d .named := by
    rcases first_item (r := r) hi (fun t ht => by obtain ⟨_, _, h⟩ := hR.mem_left t ht; exact h.tokStart) with
      ⟨rfl, -⟩ | ⟨a, t, l, q, ht, ha, hl, hq, e⟩
    · cases fs with
      | nil => exact absurd rfl hne
      | cons _ _ => exact hE.elim
    · obtain ⟨f, -, kt, vt, h1, h2, h3⟩ := hE.mem_left t ht
      cases h3 with
      | @mk l1 l2 hl1 hl2 =>
        exact struct_named (q := l2 ++ (vt ++ (l ++ q))) h1 (by rw [hd, List.cons_append, e]; simp) ha hl1
  obtain ⟨s1, h1, h2, h3⟩ := hty
  obtain ⟨s2, g1, g2, g3⟩ := structAfterName_ok (k := N - 1) (visit := visitMap ')' deIdentValue any)
    (v := .map (mapOfList (fs.map fun f => (.str f.1, f.2)))) (w := w') (r := r) []
    (by rw [Nat.sub_add_cancel (by omega)]; exact hp.keep h3) (by rw [h2, hd]; rfl) (fun d' hp' hd' => by
      obtain ⟨s', m1, m2, m3⟩ := readMap_inner (term := ')') (by simp) hi hR (hp'.mono (by split <;> omega)) hd'
      refine ⟨s', [], ?_, by simpa using m2, .nil, m3⟩
      unfold visitMap
      simp only [bind_apply, m1, pure_apply])
  refine ⟨s2, ?_, g2, h3.trans g3⟩
  unfold anyStruct
  simp only [bind_apply, h1]
  exact g1

/-- An optional name before parentheses is skipped. -/
theorem anyPlain_prefix {any : P Value} {d : St} {p u : Text} {v : Value} {r : Text} (hp : Prefix p) (hd : d.rest = p ++ '(' :: u)
    (hu : p = [] → startsWith d.rest c!"()" = false)
    (h : ∀ d1 : St, KeepsD d d1 → d1.rest = '(' :: u → ∃ s', anyStruct any d1 = .ok v s' ∧ s'.rest = r ∧ KeepsD d1 s') :
    ∃ s', anyPlain any d = .ok v s' ∧ s'.rest = r ∧ KeepsD d s' := by
  cases hp with
  | none =>
    rw [anyPlain_open hd (hu rfl)]
    exact h d (.refl _) hd
  | @name n t l hn hl =>
    have hd' : d.rest = t ++ (l ++ '(' :: u) := by simpa using hd
    have hf : IdentFollow (l ++ '(' :: u) := layout_follow hl (parenOpen_follow _)
    have hk : NoKeyword d := fun kw hkw => by rw [hd']; exact hn.notKeyword hf hkw
    obtain ⟨s1, h1, h2, h3⟩ := hn.skips hf hd'
    obtain ⟨s2, k1, k2, k3⟩ := skipWs_tok h2 hl (noLayout_open _)
    obtain ⟨s3, m1, m2, m3⟩ := h s2 (h3.toD.trans k3) k2
    have hpar : startsWith d.rest c!"()" = false := by
      obtain ⟨c, u, rfl, hc⟩ := hn.noParen
      rw [hd']; simp [Ne.symm hc]
    refine ⟨s3, ?_, m2, h3.toD.trans (k3.trans m3)⟩
    rw [anyPlain_noKeyword hk hpar]
    simp only [bind_apply, h1, k1, m1]

/-- One level of the grammar is read. -/
theorem level_reads {S D E : Text → Value → Prop} {any : P Value} {x : Exts} {kD kE N : Nat} (hx : x.unwrapVariantNewtypes = false)
    (hS : ∀ t v, S t v → Reads x 0 (anyBody any) t v ∧ Heads t)
    (hD : ∀ t v, D t v → Reads x kD any t v) (hE : ∀ t v, E t v → kE + 2 ≤ N ∧ Reads x kE any t v ∧ Heads t)
    (hkD : kD + 1 ≤ N) {w : Text} {v : Value} (h : Level S D E w v) : Reads x N (anyBody any) w v ∧ Heads w := by
  have hN : 1 ≤ N := by omega
  have lift : ∀ {w : Text} {v : Value}, TokStart w → (∀ d r, Pre x N d → d.rest = w ++ r → IdentFollow r →
      ∃ s', anyPlain any d = .ok v s' ∧ s'.rest = r ∧ KeepsD d s') → Reads x N (anyBody any) w v := by
    intro w v hw h
    refine ⟨hw, fun d l q hp hd hl hq => ?_⟩
    obtain ⟨s', h1, h2, h3⟩ := h d (l ++ q) hp hd (follow_ident hl hq)
    exact ⟨s', l, by rw [anyBody_plain hp.nv]; exact h1, h2, hl, h3⟩
  have pfx : ∀ {p u : Text}, Prefix p → TokStart (p ++ '(' :: u) ∧ Heads (p ++ '(' :: u) := by
    intro p u hp
    cases hp with
    | none => exact ⟨⟨_, _, rfl, by decide, by decide⟩, heads_ascii (by decide) (by decide)⟩
    | name hn hl => exact ⟨by simpa using hn.tokStart.append _, by simpa using hn.heads_paren hl⟩
  cases h with
  | scalar h => exact ⟨(hS _ _ h).1.mono (Nat.zero_le _), (hS _ _ h).2⟩
  | @some l a t b v hl ha ht hb =>
    refine ⟨lift (tokStart_plain (reserved_plain (w := c!"Some") (by simp [reservedNames])) |>.append _) fun d r hp hd _ => ?_,
      heads_some hl⟩
    have hd' : d.rest = c!"Some" ++ (l ++ '(' :: (a ++ (t ++ (b ++ ')' :: r)))) := by simpa using hd
    rw [anyPlain_some hd' (layout_follow hl (parenOpen_follow _)).xid]
    exact deOption_some hx ((hD t v ht).bind_pure Value.some) (hp.mono hkD) hd' hl ha hb
  | @seq ts vs w hA hw =>
    obtain ⟨w', rfl, hi⟩ := delim_inner hw
    refine ⟨lift ⟨_, _, rfl, by decide, by decide⟩ fun d r hp hd _ => ?_, heads_ascii (by decide) (by decide)⟩
    have hR : All2 (Reads x kE any) ts vs := hA.mono fun t _ v _ h => (hE t v h).2.1
    have hk : ts ≠ [] → kE + 2 ≤ N := fun hne => by
      obtain ⟨t, ht⟩ := List.exists_mem_of_ne_nil _ hne
      obtain ⟨v, -, h⟩ := hA.mem_left t ht
      exact (hE t v h).1
    obtain ⟨s', h1, h2, h3, -⟩ := deSeq_ok (k := N - 1) (visit := visitSeq ']' any) (v := .seq vs) (w := w') (r := r) hp.exts
      (by rw [Nat.sub_add_cancel hN]; exact hp.budget) (by rw [hd]; rfl) (fun d' hp' hd' => by
        obtain ⟨s', m1, m2, m3⟩ := readSeq_inner (term := ']') (by simp) hi hR
          (hp'.mono (by split <;> first | omega | (have := hk ‹_›; omega))) hd'
        refine ⟨s', ?_, by simpa using m2, m3⟩
        unfold visitSeq
        simp only [bind_apply, m1, pure_apply])
    exact ⟨s', by rw [anyPlain_bracket hd]; exact h1, h2, h3⟩
  | @map es kvs w hA hw =>
    obtain ⟨w', rfl, hi⟩ := delim_inner hw
    refine ⟨lift ⟨_, _, rfl, by decide, by decide⟩ fun d r hp hd _ => ?_, heads_ascii (by decide) (by decide)⟩
    have hR : All2 (ReadsEntry x kE any any) es kvs := hA.mono fun t _ v _ ⟨k, v', h1, h2, h3⟩ =>
      ⟨k, v', (hE _ _ h1).2.1, (hE _ _ h2).2.1, h3⟩
    have hk : es ≠ [] → kE + 2 ≤ N := fun hne => by
      obtain ⟨t, ht⟩ := List.exists_mem_of_ne_nil _ hne
      obtain ⟨v, -, k, v', h, -⟩ := hA.mem_left t ht
      exact (hE _ _ h).1
    obtain ⟨s', h1, h2, h3, -⟩ := deMap_ok (k := N - 1) (visit := visitMap '}' any any) (v := .map (mapOfList kvs)) (w := w') (r := r)
      hp.exts (by rw [Nat.sub_add_cancel hN]; exact hp.budget) (by rw [hd]; rfl) (fun d' hp' hd' => by
        obtain ⟨s', m1, m2, m3⟩ := readMap_inner (term := '}') (by simp) hi hR
          (hp'.mono (by split <;> first | omega | (have := hk ‹_›; omega))) hd'
        refine ⟨s', ?_, by simpa using m2, m3⟩
        unfold visitMap
        simp only [bind_apply, m1, pure_apply])
    exact ⟨s', by rw [anyPlain_brace hd]; exact h1, h2, h3⟩
  | @tuple p w ts vs hpf hA hw hne =>
    have hR : All2 (Reads x kE any) ts vs := hA.mono fun t _ v _ h => (hE t v h).2.1
    have hH : ∀ t ∈ ts, Heads t := fun t ht => by obtain ⟨v, -, h⟩ := hA.mem_left t ht; exact (hE t v h).2.2
    have hk : ts ≠ [] → kE + 2 ≤ N := fun hne => by
      obtain ⟨t, ht⟩ := List.exists_mem_of_ne_nil _ hne
      obtain ⟨v, -, h⟩ := hA.mem_left t ht
      exact (hE t v h).1
    obtain ⟨w', rfl, hi⟩ := delim_inner hw
    refine ⟨lift (pfx hpf).1 fun d r hp hd _ => ?_, (pfx hpf).2⟩
    refine anyPlain_prefix (u := w' ++ r) hpf (by simpa using hd) ?_ fun d1 hk1 hd1 =>
      anyStruct_tuple hR hH hw hN hk (hp.keep hk1) (by simpa using hd1)
    rintro rfl
    simp only [List.nil_append] at hne hd
    rw [hd]
    rcases first_item (r := r) hi hR.tokStart with ⟨-, a, ha, rfl⟩ | ⟨a, t, l, q, ht, ha, hl, hq, e⟩
    · cases a with
      | nil => simp at hne
      | cons c a =>
        simp
        rintro rfl
        cases ha with
        | ws h => revert h; decide
    · rw [List.cons_append, e]
      simp only [startsWith_cons, beq_self_eq_true, Bool.true_and]
      cases a with
      | nil => exact (hR.tokStart t ht).notDelim _ (by simp)
      | cons c a =>
        simp
        rintro rfl
        cases ha with
        | ws h => revert h; decide
  | @struct p w es fs hpf hne hA hw =>
    have hR : All2 (fun e f => ∃ kt vt, KeyTok f.1 kt ∧ Reads x kE any vt f.2 ∧ Entry kt vt e) es fs :=
      hA.mono fun t _ v _ ⟨k, v', h1, h2, h3⟩ => ⟨k, v', h1, (hE _ _ h2).2.1, h3⟩
    have hk : kE + 2 ≤ N := by
      cases fs with
      | nil => exact absurd rfl hne
      | cons f fs => cases es with
        | nil => exact hA.elim
        | cons e es => obtain ⟨⟨k, v', h1, h2, h3⟩, -⟩ := hA; exact (hE _ _ h2).1
    obtain ⟨w', rfl, hi⟩ := delim_inner hw
    refine ⟨lift (pfx hpf).1 fun d r hp hd _ => ?_, (pfx hpf).2⟩
    refine anyPlain_prefix (u := w' ++ r) hpf (by simpa using hd) ?_ fun d1 hk1 hd1 =>
      anyStruct_named hR hne hw hk (hp.keep hk1) (by simpa using hd1)
    rintro rfl
    simp only [List.nil_append] at hd
    rw [hd]
    rcases first_item (r := r) hi (fun t ht => by obtain ⟨_, _, kt, vt, h1, h2, h3⟩ := hR.mem_left t ht; cases h3; exact h1.tokStart.append _) with
      ⟨rfl, -⟩ | ⟨a, t, l, q, ht, ha, hl, hq, e⟩
    · cases fs with
      | nil => exact absurd rfl hne
      | cons _ _ => exact hA.elim
    · rw [List.cons_append, e]
      simp only [startsWith_cons, beq_self_eq_true, Bool.true_and]
      cases a with
      | nil =>
        obtain ⟨_, _, kt, vt, h1, h2, h3⟩ := hR.mem_left t ht; cases h3
        exact (h1.tokStart.append _).notDelim _ (by simp)
      | cons c a =>
        simp
        rintro rfl
        cases ha with
        | ws h => revert h; decide

/-- Every text of the grammar is read as the value it denotes. -/
theorem gram_reads {S : Text → Value → Prop} {x : Exts} (hx : x.unwrapVariantNewtypes = false)
    (hS : ∀ any t v, S t v → Reads x 0 (anyBody any) t v ∧ Heads t) :
    ∀ (n f : Nat), n < f → ∀ (w : Text) (v : Value), Gram S n w v →
    Reads x n (deAny f) w v ∧ Heads w := by
  intro n
  induction n using Nat.strongRecOn with
  | ind n ih =>
    intro f hf w v h
    obtain ⟨f, rfl⟩ : ∃ g, f = g + 1 := ⟨f - 1, by omega⟩
    match n, h with
    | 0, h => exact hS _ _ _ h
    | 1, h =>
      have ih0 := ih 0 (by omega) f (by omega)
      exact level_reads (kD := 0) (kE := 0) hx (hS _) (fun t v h => (ih0 t v h).1) (fun t v h => h.elim) (Nat.le_refl _) h
    | n + 2, h =>
      have ih0 := ih n (by omega) f (by omega)
      have ih1 := ih (n + 1) (by omega) f (by omega)
      exact level_reads (kD := n + 1) (kE := n) hx (hS _) (fun t v h => (ih1 t v h).1) (fun t v h => ⟨Nat.le_refl _, ih0 t v h⟩)
        (Nat.le_refl _) h

theorem den_reads {x : Exts} (hx : x.unwrapVariantNewtypes = false) (n f : Nat) (hf : n < f) (w : Text) (v : Value) (h : Den n w v) :
    Reads x n (deAny f) w v ∧ Heads w :=
  gram_reads hx (fun _ _ _ h => ⟨scalar_reads h _, scalar_heads h⟩) n f hf w v h

end Ron
