import Verif.Lemmas.Strings
/-! Identifiers. -/

set_option linter.unusedSimpArgs false

namespace Ron

variable [Env]

/-- What may follow an identifier: nothing that continues a (raw) identifier or turns it into a literal prefix. -/
def IdentFollow (r : Text) : Prop :=
  ∀ c r', r = c :: r' → isIdentRaw c = false ∧ c ≠ '"' ∧ c ≠ '\'' ∧ c ≠ '#'

theorem identRaw_of_xid {c : Char} (h : Env.xidCont c = true) : isIdentRaw c = true := by simp [isIdentRaw, h]

theorem IdentFollow.xid {r : Text} (h : IdentFollow r) : NoIdentStart r := by
  intro c r' e
  have := (h c r' e).1
  simp only [isIdentRaw, Bool.or_eq_false_iff] at this
  exact this.2

theorem identFirst_xid {c : Char} (h : isIdentFirst c = true) : Env.xidCont c = true := by
  simp only [isIdentFirst, Bool.or_eq_true, beq_iff_eq] at h
  rcases h with rfl | h
  · exact xid_cont_ascii (by decide)
  · exact Env.xidStart_cont c h

theorem raw_ne {c : Char} (h : isIdentRaw c = true) : c ≠ '"' ∧ c ≠ '\'' ∧ c ≠ '#' := by
  simp only [isIdentRaw, Bool.or_eq_true, beq_iff_eq] at h
  refine ⟨?_, ?_, ?_⟩ <;> rintro rfl <;>
  · rcases h with ((h | h) | h) | h
    · revert h; decide
    · revert h; decide
    · revert h; decide
    · rw [Env.xidCont_ascii _ (by decide)] at h; revert h; decide

/-- The characters of the name can all occur in a raw identifier. -/
def RawName (name : Text) : Prop := name ≠ [] ∧ ∀ c ∈ name, isIdentRaw c = true

/-- The name can be written without `r#`. -/
def PlainName (name : Text) : Prop := ∃ c cs, name = c :: cs ∧ isIdentFirst c = true ∧ ∀ d ∈ cs, Env.xidCont d = true

theorem PlainName.xid {name : Text} (h : PlainName name) : ∀ c ∈ name, Env.xidCont c = true := by
  obtain ⟨c, cs, rfl, hc, hcs⟩ := h
  intro d hd
  simp only [List.mem_cons] at hd
  rcases hd with rfl | hd
  · exact identFirst_xid hc
  · exact hcs d hd

theorem PlainName.raw {name : Text} (h : PlainName name) : RawName name :=
  ⟨by obtain ⟨c, cs, rfl, -⟩ := h; simp, fun c hc => identRaw_of_xid (h.xid c hc)⟩

/-- No name followed by a delimiter looks like the beginning of a string. -/
theorem notString {name r : Text} (h : ∀ c ∈ name, isIdentRaw c = true) (hr : IdentFollow r) (hne : name ≠ []) :
    startsStringLike (name ++ r) = false := by
  have hq : ∀ (c : Char) (u : Text), c = '"' ∨ c = '\'' ∨ c = '#' → ∀ v, name ++ r = v ++ c :: u → v.length ≤ name.length →
      v.length ≥ 1 → False := by
    intro c u hc v e hv _
    rcases Nat.lt_or_ge v.length name.length with hlt | hge
    · have : c ∈ name := by
        have h1 : (name ++ r)[v.length]? = some c := by rw [e]; simp
        rw [List.getElem?_append_left hlt] at h1
        exact List.mem_of_getElem? h1
      have := raw_ne (h c this)
      rcases hc with rfl | rfl | rfl <;> simp at this
    · have hl : v.length = name.length := by omega
      have h2 : name = v ∧ r = c :: u := List.append_inj e hl.symm
      have := hr c u h2.2
      rcases hc with rfl | rfl | rfl <;> simp at this
  obtain ⟨c0, n0, rfl⟩ : ∃ c n, name = c :: n := by cases name <;> simp_all
  have key : ∀ (p : Text) (c : Char), (c = '"' ∨ c = '\'' ∨ c = '#') → p.length = 1 → startsWith (c0 :: n0 ++ r) (p ++ [c]) = false := by
    intro p c hc hp
    apply Bool.eq_false_iff.mpr
    intro hs
    obtain ⟨u, hu⟩ := (startsWith_iff _ _).mp hs
    exact hq c u hc p (by simpa using hu) (by simp [hp]) (by omega)
  have key2 : ∀ (c : Char), (c = '"' ∨ c = '\'' ∨ c = '#') → startsWith (c0 :: n0 ++ r) (['b', 'r'] ++ [c]) = false := by
    intro c hc
    apply Bool.eq_false_iff.mpr
    intro hs
    obtain ⟨u, hu⟩ := (startsWith_iff _ _).mp hs
    cases n0 with
    | nil =>
      simp only [List.cons_append, List.nil_append, List.cons.injEq] at hu
      have := (hr _ _ hu.2).1
      rw [identRaw_of_xid (xid_cont_ascii (by decide))] at this
      cases this
    | cons c1 n1 => exact hq c u hc ['b', 'r'] (by simpa using hu) (by simp) (by simp)
  unfold startsStringLike
  rw [show c!"b\"" = ['b'] ++ ['"'] from rfl, key ['b'] '"' (by simp) rfl, show c!"b'" = ['b'] ++ ['\''] from rfl,
    key ['b'] '\'' (by simp) rfl, show c!"br#" = ['b', 'r'] ++ ['#'] from rfl, key2 '#' (by simp),
    show c!"br\"" = ['b', 'r'] ++ ['"'] from rfl, key2 '"' (by simp), show c!"r\"" = ['r'] ++ ['"'] from rfl,
    key ['r'] '"' (by simp) rfl]
  have h3 : ∀ t, startsWith (c0 :: n0 ++ r) ('r' :: '#' :: t) = false := by
    intro t
    apply Bool.eq_false_iff.mpr
    intro hs
    obtain ⟨u, hu⟩ := (startsWith_iff _ _).mp hs
    exact hq '#' (t ++ u) (by simp) ['r'] (by simpa using hu) (by simp) (by simp)
  rw [h3, h3]
  rfl

/-- No name followed by a delimiter looks like a raw identifier. -/
theorem notRawPrefix {name r : Text} (h : ∀ c ∈ name, isIdentRaw c = true) (hr : IdentFollow r) (hne : name ≠ []) :
    startsWith (name ++ r) c!"r#" = false := by
  obtain ⟨c0, n0, rfl⟩ : ∃ c n, name = c :: n := by cases name <;> simp_all
  cases n0 with
  | nil =>
    cases r with
    | nil => simp
    | cons d r =>
      have := (hr d r rfl).2.2.2
      simp only [List.cons_append, List.nil_append, startsWith_cons, startsWith_nil_right, Bool.and_true,
        Bool.and_eq_false_iff, beq_eq_false_iff_ne]
      exact .inr (Ne.symm this)
  | cons c1 n1 =>
    have := (raw_ne (h c1 (by simp))).2.2
    simp only [List.cons_append, startsWith_cons, startsWith_nil_right, Bool.and_true, Bool.and_eq_false_iff,
      beq_eq_false_iff_ne]
    exact .inr (Ne.symm this)

/-- A raw name written with `r#` is not a string either. -/
theorem notString_raw {name r : Text} (h : RawName name) : startsStringLike ('r' :: '#' :: (name ++ r)) = false := by
  obtain ⟨hne, h⟩ := h
  obtain ⟨c0, n0, rfl⟩ : ∃ c n, name = c :: n := by cases name <;> simp_all
  have := raw_ne (h c0 (by simp))
  simp only [startsStringLike, startsWith_cons, List.cons_append, startsWith_nil_right, Bool.and_true]
  simp only [Bool.or_eq_false_iff, Bool.and_eq_false_iff, beq_eq_false_iff_ne]
  simp [Ne.symm this.1, Ne.symm this.2.2]

/-- The text written for a name. -/
def identText (name : Text) : Text := if needsRaw name then 'r' :: '#' :: name else name

theorem needsRaw_plain {name : Text} (h : needsRaw name = false) : PlainName name ∧ name ∉ reservedNames := by
  unfold needsRaw at h
  simp only [Bool.or_eq_false_iff] at h
  obtain ⟨h1, h2⟩ := h
  refine ⟨?_, by simpa using h2⟩
  cases name with
  | nil => simp at h1
  | cons c cs =>
    simp only [Bool.or_eq_false_iff, Bool.not_eq_false', List.all_eq_true] at h1
    exact ⟨c, cs, rfl, h1.1, h1.2⟩

theorem writeIdentifier_quiet {s : Ser} (h : s.Quiet) (name : Text) :
    writeIdentifier name s = if name.isEmpty || !name.all isIdentRaw then .err (.invalidIdentifier name) s
      else .ok () (s.put (identText name)) := by
  unfold writeIdentifier validateIdentifier identText
  by_cases h1 : (name.isEmpty || !name.all isIdentRaw) = true
  · simp only [wbind_apply, h1, ↓reduceIte, wfail_apply]
  · simp only [wbind_apply, h1, ↓reduceIte, wpure_apply, Bool.false_eq_true]
    rw [ite_W]
    split
    · rw [wbind_apply, write_quiet h]; simp only [write_quiet (h.put _), Ser.put_put, List.cons_append, List.nil_append]
    · rw [write_quiet h]

theorem validName_iff {name : Text} : (name.isEmpty || !name.all isIdentRaw) = false ↔ RawName name := by
  simp [RawName, List.all_eq_true]

/-- The identifier of a plain name. -/
theorem identifier_plain {name r : Text} {d : St} (h : PlainName name) (hr : IdentFollow r) (hd : d.rest = name ++ r) :
    identifier d = .ok name { d with prev := d.rest, rest := r } := by
  have hx := h.xid
  have hraw := h.raw
  obtain ⟨c, cs, rfl, hc, hcs⟩ := h
  have w1 : whileLen Env.xidCont (c :: cs ++ r) = (c :: cs).length := by
    rw [whileLen_append _ _ _ hx, hr.xid.whileLen]; rfl
  have w1' : whileLen Env.xidCont (cs ++ r) = cs.length := by
    rw [whileLen_append _ _ _ hcs, hr.xid.whileLen]; rfl
  have w2 : whileLen isIdentRaw (c :: cs ++ r) = (c :: cs).length := by
    rw [whileLen_append _ _ _ hraw.2, whileLen_stop _ _ fun d r' e => (hr d r' e).1]; rfl
  have p : peekCharOrEof d = .ok c d := by unfold peekCharOrEof; rw [hd]; rfl
  unfold identifier
  simp only [bind_apply, p, getSt_apply, ite_P, hc, Bool.not_true, Bool.false_eq_true, ↓reduceIte]
  rw [hd, notString hraw.2 hr hraw.1, notRawPrefix hraw.2 hr hraw.1, w1, w2]
  simp only [Bool.false_eq_true, ↓reduceIte, List.cons_append, List.drop_succ_cons, List.drop_zero, w1']
  have : (if (c == 'r') = true then (c :: cs).length else 1 + cs.length) = (c :: cs).length := by
    split <;> simp; omega
  rw [this]
  simp only [Nat.lt_irrefl, gt_iff_lt, ↓reduceIte, bind_apply, advance_apply, pure_apply, hd]
  simp

/-- The identifier of a name written with `r#`. -/
theorem identifier_raw {name r : Text} {d : St} (h : RawName name) (hr : IdentFollow r) (hd : d.rest = 'r' :: '#' :: (name ++ r)) :
    ∃ p, identifier d = .ok name { d with prev := p, rest := r } := by
  have hs := notString_raw (r := r) h
  obtain ⟨hne, h⟩ := h
  obtain ⟨c0, n0, rfl⟩ : ∃ c n, name = c :: n := by cases name <;> simp_all
  have w2 : whileLen isIdentRaw (c0 :: n0 ++ r) = (c0 :: n0).length := by
    rw [whileLen_append _ _ _ h, whileLen_stop _ _ fun d r' e => (hr d r' e).1]; rfl
  have p : peekCharOrEof d = .ok 'r' d := by unfold peekCharOrEof; rw [hd]
  have hf : isIdentFirst 'r' = true := by simp [isIdentFirst, xid_ascii_lower (c := 'r') (by decide)]
  have hc0 := h c0 (by simp)
  refine ⟨c0 :: n0 ++ r, ?_⟩
  unfold identifier
  simp only [bind_apply, p, getSt_apply, ite_P, hf, Bool.not_true, Bool.false_eq_true, ↓reduceIte]
  rw [hd, hs]
  simp only [Bool.false_eq_true, ↓reduceIte, startsWith_cons, beq_self_eq_true, startsWith_nil_right, Bool.and_true,
    bind_apply, cursor_apply, advance_ok (show 2 ≤ d.rest.length by rw [hd]; simp), getSt_apply, hd, List.drop_succ_cons, List.drop_zero, ite_P]
  simp only [List.cons_append, hc0, Bool.not_true, Bool.false_eq_true, ↓reduceIte, bind_apply, advance_apply, whileLen_le, pure_apply]
  simp only [List.cons_append] at w2
  rw [w2]
  simp

/-- What is written for a valid name is read as that name. -/
theorem identText_reads {name r : Text} {d : St} (h : RawName name) (hr : IdentFollow r) (hd : d.rest = identText name ++ r) :
    RunsW identifier d name r := by
  unfold identText at hd
  split at hd
  · obtain ⟨p, hp⟩ := identifier_raw h hr (by simpa using hd)
    exact ⟨_, hp, rfl, .step _ _ _⟩
  · next hn =>
    have := (needsRaw_plain (by simpa using hn)).1
    exact ⟨_, identifier_plain this hr hd, rfl, .step _ _ _⟩

/-- `skip_identifier` agrees. -/
theorem identText_skips {name r : Text} {d : St} (h : RawName name) (hr : IdentFollow r) (hd : d.rest = identText name ++ r) :
    RunsW skipIdentifier d (some name) r := by
  unfold identText at hd
  split at hd
  · have w2 : whileLen isIdentRaw (name ++ r) = name.length := by
      rw [whileLen_append _ _ _ h.2, whileLen_stop _ _ fun d r' e => (hr d r' e).1]; rfl
    have hd' : d.rest = 'r' :: '#' :: (name ++ r) := by simpa using hd
    refine ⟨{ d with prev := d.rest, rest := r }, ?_, rfl, .step _ _ _⟩
    have hl : 0 < name.length := List.length_pos_iff.mpr h.1
    unfold skipIdentifier
    simp only [bind_apply, getSt_apply, ite_P]
    rw [hd', notString_raw h]
    simp only [Bool.false_eq_true, ↓reduceIte, startsWith_cons, beq_self_eq_true, startsWith_nil_right, Bool.and_true,
      List.drop_succ_cons, List.drop_zero, w2, gt_iff_lt, hl, bind_apply, advance_apply, pure_apply, hd']
    simp [Nat.add_comm 2]
  · next hn =>
    have hp := (needsRaw_plain (by simpa using hn)).1
    have hx := hp.xid
    obtain ⟨c, cs, rfl, hc, hcs⟩ := hp
    have w1' : whileLen Env.xidCont (cs ++ r) = cs.length := by
      rw [whileLen_append _ _ _ hcs, hr.xid.whileLen]; rfl
    refine ⟨{ d with prev := d.rest, rest := r }, ?_, rfl, .step _ _ _⟩
    unfold skipIdentifier
    simp only [bind_apply, getSt_apply, ite_P]
    rw [hd, notString h.2 hr h.1, notRawPrefix h.2 hr h.1]
    simp only [Bool.false_eq_true, ↓reduceIte, List.cons_append, hc, w1', bind_apply, advance_apply, pure_apply, hd]
    simp [Nat.add_comm 1]

/-- What is written for a valid name is not a keyword. -/
theorem identText_notKeyword {name r : Text} {d : St} (hr : IdentFollow r) (hd : d.rest = identText name ++ r)
    {kw : Text} (hk : kw ∈ reservedNames) : consumeIdent kw d = .ok false d := by
  apply consumeIdent_false
  unfold identText at hd
  split at hd
  · left
    rw [hd]
    simp only [reservedNames, List.mem_cons, List.not_mem_nil, or_false] at hk
    rcases hk with rfl | rfl | rfl | rfl | rfl | rfl | rfl | rfl | rfl | rfl <;> simp
  · next hn =>
    obtain ⟨hp, hres⟩ := needsRaw_plain (by simpa using hn)
    rw [hd]
    by_cases hs : startsWith (name ++ r) kw = true
    · right
      obtain ⟨u, hu⟩ := (startsWith_iff _ _).mp hs
      rcases List.append_eq_append_iff.mp hu with ⟨a, ha, hb⟩ | ⟨a, ha, hb⟩
      · -- kw = name ++ a
        cases a with
        | nil => simp only [List.append_nil] at ha; exact absurd (ha ▸ hk) hres
        | cons x a =>
          exfalso
          have hx : Env.xidCont x = true := by
            have : x ∈ kw := by rw [ha]; simp
            have hall : ∀ k ∈ reservedNames, ∀ c ∈ k, (isAsciiAlpha c || isDigit c || c == '_') = true := by decide
            exact xid_cont_ascii (hall _ hk _ this)
          have := (hr x (a ++ u) (by simpa using hb)).1
          rw [identRaw_of_xid hx] at this
          cases this
      · -- name = kw ++ a
        cases a with
        | nil => simp only [List.append_nil] at ha; exact absurd (ha ▸ hk) hres
        | cons x a =>
          rw [ha]
          simp only [List.append_assoc, List.drop_left, List.cons_append]
          exact hp.xid x (by rw [ha]; simp)
    · left; simpa using hs

end Ron
