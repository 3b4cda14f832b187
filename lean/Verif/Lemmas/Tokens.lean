import Verif.Lemmas.Reader
/-! Tokens in front of a delimiter. -/

set_option linter.unusedSimpArgs false

namespace Ron

variable [Env]

theorem stop_identFollow {q : Text} (h : Stop q) : IdentFollow q := by
  intro c q' e
  rcases h with rfl | ⟨d, q'', rfl, hd⟩
  · cases e
  · cases e
    have key : ∀ c ∈ [',', ')', ']', '}', ':'], c.toNat < 128 ∧
      ((c == '.' || c == '+' || c == '-') || (isAsciiAlpha c || isDigit c || c == '_')) = false ∧ c ≠ '"' ∧ c ≠ '\'' ∧ c ≠ '#' := by
      decide
    obtain ⟨h1, h2, h3, h4, h5⟩ := key c hd
    exact ⟨by rw [isIdentRaw_ascii h1]; exact h2, h3, h4, h5⟩

theorem follow_ident {l q : Text} (hl : Layout l) (hq : Stop q) : IdentFollow (l ++ q) := layout_follow hl (stop_identFollow hq)

theorem IdentFollow.num {r : Text} (h : IdentFollow r) : NumFollow r := by
  refine ⟨h.xid, fun c r' e => .inl ?_⟩
  have := (h c r' e).1
  simp only [isIdentRaw, Bool.or_eq_false_iff, beq_eq_false_iff_ne] at this
  exact ⟨this.1.1.1, this.1.1.2, this.1.2⟩

theorem follow_num {l q : Text} (hl : Layout l) (hq : Stop q) : NumFollow (l ++ q) := (follow_ident hl hq).num

theorem follow_noDots {l q : Text} (hl : Layout l) (hq : Stop q) : startsWith (l ++ q) c!".." = false := by
  have := follow_num hl hq
  cases e : l ++ q with
  | nil => simp
  | cons c r =>
    rw [e] at this
    simp only [startsWith_cons, Bool.and_eq_false_iff, beq_eq_false_iff_ne]
    left
    rintro rfl
    have h1 := follow_ident hl hq
    rw [e] at h1
    have h2 := (h1 _ _ rfl).1
    rw [isIdentRaw_ascii (by decide)] at h2
    revert h2; decide

theorem parenOpen_follow (r : Text) : IdentFollow ('(' :: r) :=
  follow_cons (by decide) (by decide) (by decide) (by decide) (by decide)

/-! ### Names -/

theorem needsRaw_false {name : Text} (h : PlainName name) (hr : name ∉ reservedNames) : needsRaw name = false := by
  obtain ⟨c, cs, rfl, hc, hcs⟩ := h
  simp only [needsRaw, hc, Bool.not_true, Bool.false_or, Bool.or_eq_false_iff, Bool.not_eq_false', List.all_eq_true]
  exact ⟨hcs, by simpa using hr⟩

theorem NameTok.identText {name : Text} (h : RawName name) : NameTok name (identText name) := by
  refine ⟨h, ?_⟩
  unfold Ron.identText
  split
  · exact .inl rfl
  · next hn =>
    have := needsRaw_plain (by simpa using hn)
    exact .inr ⟨rfl, this.1, this.2⟩

omit [Env] in
theorem NameTok.keyTok [Env] {name tok : Text} (h : NameTok name tok) : KeyTok name tok :=
  ⟨h.1, h.2.imp id fun h => ⟨h.1, h.2.1⟩⟩

theorem KeyTok.reads {name tok r : Text} {d : St} (h : KeyTok name tok) (hr : IdentFollow r) (hd : d.rest = tok ++ r) :
    RunsW identifier d name r := by
  obtain ⟨hn, rfl | ⟨rfl, hp⟩⟩ := h
  · exact identTok_reads' hn hr (by simpa using hd)
  · exact ⟨_, identifier_plain hp hr hd, rfl, .step _ _ _⟩
where
  identTok_reads' {name r : Text} {d : St} (hn : RawName name) (hr : IdentFollow r) (hd : d.rest = 'r' :: '#' :: (name ++ r)) :
      RunsW identifier d name r := by
    obtain ⟨p, h⟩ := identifier_raw hn hr hd
    exact ⟨_, h, rfl, .step _ _ _⟩

theorem NameTok.reads {name tok r : Text} {d : St} (h : NameTok name tok) (hr : IdentFollow r) (hd : d.rest = tok ++ r) :
    RunsW identifier d name r := h.keyTok.reads hr hd

theorem skipIdentifier_raw {name r : Text} {d : St} (h : RawName name) (hr : IdentFollow r)
    (hd : d.rest = 'r' :: '#' :: (name ++ r)) : RunsW skipIdentifier d (some name) r := by
  have w2 : whileLen isIdentRaw (name ++ r) = name.length := by
    rw [whileLen_append _ _ _ h.2, whileLen_stop _ _ fun d r' e => (hr d r' e).1]; rfl
  refine ⟨{ d with prev := d.rest, rest := r }, ?_, rfl, .step _ _ _⟩
  have hl : 0 < name.length := List.length_pos_iff.mpr h.1
  have hb : 2 + name.length ≤ d.rest.length := by rw [hd]; simp; omega
  unfold skipIdentifier
  simp only [bind_apply, getSt_apply, ite_P]
  rw [hd, notString_raw h]
  simp only [Bool.false_eq_true, ↓reduceIte, startsWith_cons, beq_self_eq_true, startsWith_nil_right, Bool.and_true,
    List.drop_succ_cons, List.drop_zero, w2, gt_iff_lt, hl, bind_apply, advance_ok hb, pure_apply, hd]
  simp [Nat.add_comm 2]

theorem skipIdentifier_plain {name r : Text} {d : St} (hp : PlainName name) (hr : IdentFollow r) (hd : d.rest = name ++ r) :
    RunsW skipIdentifier d (some name) r := by
  have h := hp.raw
  obtain ⟨c, cs, rfl, hc, hcs⟩ := hp
  have w1' : whileLen Env.xidCont (cs ++ r) = cs.length := by
    rw [whileLen_append _ _ _ hcs, hr.xid.whileLen]; rfl
  have hb : 1 + cs.length ≤ d.rest.length := by rw [hd]; simp; omega
  refine ⟨{ d with prev := d.rest, rest := r }, ?_, rfl, .step _ _ _⟩
  unfold skipIdentifier
  simp only [bind_apply, getSt_apply, ite_P]
  rw [hd, notString h.2 hr h.1, notRawPrefix h.2 hr h.1]
  simp only [Bool.false_eq_true, ↓reduceIte, List.cons_append, hc, w1', bind_apply, advance_ok hb, pure_apply, hd]
  simp [Nat.add_comm 1]

theorem KeyTok.skips {name tok r : Text} {d : St} (h : KeyTok name tok) (hr : IdentFollow r) (hd : d.rest = tok ++ r) :
    RunsW skipIdentifier d (some name) r := by
  obtain ⟨hn, rfl | ⟨rfl, hp⟩⟩ := h
  · exact skipIdentifier_raw hn hr (by simpa using hd)
  · exact skipIdentifier_plain hp hr hd

theorem NameTok.skips {name tok r : Text} {d : St} (h : NameTok name tok) (hr : IdentFollow r) (hd : d.rest = tok ++ r) :
    RunsW skipIdentifier d (some name) r := h.keyTok.skips hr hd

theorem checkIdent_false {t : Text} {s : St} (h : startsWith s.rest t = false ∨ headXid (s.rest.drop t.length) = true) :
    checkIdent t s = .ok false s := by
  rcases h with h | h <;> simp [checkIdent_apply, h]

theorem checkIdent_true {t r : Text} {s : St} (h : s.rest = t ++ r) (hr : NoIdentStart r) : checkIdent t s = .ok true s := by
  simp [checkIdent_apply, h, headXid_false.mpr hr]

/-- A name token is not a keyword. -/
theorem NameTok.notKeyword {name tok r : Text} (h : NameTok name tok) (hr : IdentFollow r)
    {kw : Text} (hk : kw ∈ reservedNames) :
    startsWith (tok ++ r) kw = false ∨ headXid ((tok ++ r).drop kw.length) = true := by
  obtain ⟨hn, rfl | ⟨rfl, hp, hres⟩⟩ := h
  · left
    simp only [reservedNames, List.mem_cons, List.not_mem_nil, or_false] at hk
    rcases hk with rfl | rfl | rfl | rfl | rfl | rfl | rfl | rfl | rfl | rfl <;> simp
  · by_cases hs : startsWith (tok ++ r) kw = true
    · right
      obtain ⟨u, hu⟩ := (startsWith_iff _ _).mp hs
      rcases List.append_eq_append_iff.mp hu with ⟨a, ha, hb⟩ | ⟨a, ha, hb⟩
      · cases a with
        | nil => simp only [List.append_nil] at ha; exact absurd (ha ▸ hk) hres
        | cons x a =>
          exfalso
          have hx : Env.xidCont x = true := by
            have : x ∈ kw := by rw [ha]; simp
            have hall : ∀ k ∈ reservedNames, ∀ c ∈ k, (isAsciiAlpha c || isDigit c || c == '_') = true := by decide
            exact xid_cont_ascii (hall _ hk _ this)
          have := (hr x (a ++ u) (by simpa using hb)).1
          rw [identRaw_of_xid hx] at this
          cases this
      · cases a with
        | nil => simp only [List.append_nil] at ha; exact absurd (ha ▸ hk) hres
        | cons x a =>
          rw [ha]
          simp only [List.append_assoc, List.drop_left, List.cons_append]
          exact hp.xid x (by rw [ha]; simp)
    · left; simpa using hs

theorem identFirst_notDelim {c : Char} (h : isIdentFirst c = true) : c ∉ ronWhitespace ∧ c ∉ ['/', ',', ')', ']', '}', ':', '#'] := by
  have hx := identFirst_xid h
  refine ⟨fun hc => ?_, fun hc => ?_⟩
  · rw [Env.xidCont_ws c ((isWs_iff c).mpr hc)] at hx; cases hx
  · have key : ∀ c ∈ ['/', ',', ')', ']', '}', ':', '#'], c.toNat < 128 ∧ (isAsciiAlpha c || isDigit c || c == '_') = false := by decide
    rw [Env.xidCont_ascii c (key c hc).1, (key c hc).2] at hx; cases hx

theorem KeyTok.tokStart {name tok : Text} (h : KeyTok name tok) : TokStart tok := by
  obtain ⟨hn, rfl | ⟨rfl, hp⟩⟩ := h
  · exact ⟨'r', _, rfl, by decide, by decide⟩
  · obtain ⟨c, cs, rfl, hc, -⟩ := hp
    exact ⟨c, cs, rfl, identFirst_notDelim hc⟩

theorem NameTok.tokStart {name tok : Text} (h : NameTok name tok) : TokStart tok := h.keyTok.tokStart

/-- `skip_identifier` on something else. -/
theorem skipIdentifier_string {d : St} (h : startsStringLike d.rest = true) : skipIdentifier d = .ok none d := by
  unfold skipIdentifier
  simp only [bind_apply, getSt_apply, ite_P, h, ↓reduceIte, pure_apply]

theorem skipIdentifier_none {d : St} {c : Char} {u : Text} (hd : d.rest = c :: u) (hc : isIdentFirst c = false) :
    skipIdentifier d = .ok none d := by
  have hr : c ≠ 'r' := by
    rintro rfl
    simp [isIdentFirst, xid_ascii_lower (c := 'r') (by decide)] at hc
  have hr' : startsWith d.rest c!"r#" = false := by
    rw [hd]; simp [Ne.symm hr]
  unfold skipIdentifier
  simp only [bind_apply, getSt_apply, ite_P, hr', Bool.false_eq_true, ↓reduceIte]
  split
  · rfl
  · simp only [hd, hc, Bool.false_eq_true, ↓reduceIte, pure_apply, ite_P]

theorem isIdentFirst_ascii {c : Char} (h : c.toNat < 128) : isIdentFirst c = (c == '_' || isAsciiAlpha c) := by
  simp [isIdentFirst, Env.xidStart_ascii c h]

theorem skipIdentifier_ascii {d : St} {c : Char} {u : Text} (hd : d.rest = c :: u) (h : c.toNat < 128)
    (hc : (c == '_' || isAsciiAlpha c) = false) : skipIdentifier d = .ok none d :=
  skipIdentifier_none hd (by rw [isIdentFirst_ascii h]; exact hc)

/-! ### Numbers -/

/-- The words for special floats. -/
def floatWords : List (Text × Number) :=
  [(c!"inf", Number.f32 F32.inf), (c!"inff32", .f32 F32.inf), (c!"inff64", .f64 F64.inf),
    (c!"NaN", .f32 F32.nan), (c!"NaNf32", .f32 F32.nan), (c!"NaNf64", .f64 F64.nan)]

omit [Env] in
theorem isDigit_bounds {c : Char} (h : isDigit c = true) : c.toNat < 128 ∧ (c == '_' || isAsciiAlpha c) = false ∧ c ∉ ronWhitespace ∧
    c ∉ ['/', ',', ')', ']', '}', ':', '#', '(', '[', '{', '"', '\'', 'b', 'r', '.', 't', 'f', 'S', 'N', 'i'] := by
  have : c ∈ c!"0123456789" := by
    simp only [isDigit, Bool.and_eq_true, decide_eq_true_eq, char_le_iff] at h
    have h1 : '0'.toNat = 48 := rfl
    have h2 : '9'.toNat = 57 := rfl
    have hc : c = Char.ofNat c.toNat := (Char.ofNat_toNat c).symm
    have : c.toNat ∈ [48, 49, 50, 51, 52, 53, 54, 55, 56, 57] := by simp; omega
    simp only [List.mem_cons, List.not_mem_nil, or_false] at this
    rcases this with h | h | h | h | h | h | h | h | h | h <;> (rw [hc, h]; decide)
  revert this
  have key : ∀ c ∈ c!"0123456789", c.toNat < 128 ∧ (c == '_' || isAsciiAlpha c) = false ∧ c ∉ ronWhitespace ∧
    c ∉ ['/', ',', ')', ']', '}', ':', '#', '(', '[', '{', '"', '\'', 'b', 'r', '.', 't', 'f', 'S', 'N', 'i'] := by decide
  exact key c

/-- A number literal is a word or begins with a digit or a minus sign. -/
theorem number_text_form (n : Number) (sfx : Bool) :
    (∃ v, (n.text sfx, v) ∈ floatWords) ∨ ∃ c u, n.text sfx = c :: u ∧ (isDigit c = true ∨ c = '-') := by
  have dec : ∀ {t : Text}, Decimal t → ∀ s : Text, ∃ c u, t ++ s = c :: u ∧ (isDigit c = true ∨ c = '-') := by
    rintro t ⟨sg, ip, fp, h1, h2, h3, rfl⟩ s
    rcases h1 with rfl | rfl
    · obtain ⟨hne, hd⟩ := h2
      cases ip with
      | nil => exact absurd rfl hne
      | cons c ip => exact ⟨c, _, rfl, .inl (hd c (by simp))⟩
    · exact ⟨'-', _, rfl, .inr rfl⟩
  cases n with
  | int t v =>
    right
    simp only [Number.text, litOf_text]
    unfold intText
    split
    · exact ⟨'-', _, rfl, .inr rfl⟩
    · cases e : natText v.natAbs with
      | nil => exact absurd e (natText_ne_nil _)
      | cons c u => exact ⟨c, _, rfl, .inl (natText_digit v.natAbs c (by rw [e]; simp))⟩
  | f32 b =>
    simp only [Number.text]
    rcases f32Text_form b with ⟨h1, -⟩ | ⟨h1, -⟩
    · exact .inr (dec h1 _)
    · simp only [List.mem_cons, List.not_mem_nil, or_false] at h1
      rcases h1 with h | h | h | h <;> rw [h] <;> cases sfx
      · exact .inl ⟨.f32 F32.inf, by simp [floatWords]⟩
      · exact .inl ⟨.f32 F32.inf, by simp [floatWords, floatSuffix]⟩
      · exact .inr ⟨'-', _, rfl, .inr rfl⟩
      · exact .inr ⟨'-', _, rfl, .inr rfl⟩
      · exact .inl ⟨.f32 F32.nan, by simp [floatWords, floatSuffix]⟩
      · exact .inl ⟨.f32 F32.nan, by simp [floatWords, floatSuffix]⟩
      · exact .inr ⟨'-', _, rfl, .inr rfl⟩
      · exact .inr ⟨'-', _, rfl, .inr rfl⟩
  | f64 b =>
    simp only [Number.text]
    rcases f64Text_form b with ⟨h1, -⟩ | ⟨h1, -⟩
    · exact .inr (dec h1 _)
    · simp only [List.mem_cons, List.not_mem_nil, or_false] at h1
      rcases h1 with h | h | h | h <;> rw [h] <;> cases sfx
      · exact .inl ⟨.f32 F32.inf, by simp [floatWords]⟩
      · exact .inl ⟨.f64 F64.inf, by simp [floatWords, floatSuffix]⟩
      · exact .inr ⟨'-', _, rfl, .inr rfl⟩
      · exact .inr ⟨'-', _, rfl, .inr rfl⟩
      · exact .inl ⟨.f32 F32.nan, by simp [floatWords, floatSuffix]⟩
      · exact .inl ⟨.f64 F64.nan, by simp [floatWords, floatSuffix]⟩
      · exact .inr ⟨'-', _, rfl, .inr rfl⟩
      · exact .inr ⟨'-', _, rfl, .inr rfl⟩

end Ron
