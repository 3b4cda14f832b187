import Verif.Lemmas.Ident
import Verif.Lemmas.Attr
import Verif.Lemmas.Witness
import Verif.Lemmas.Named
/-!
# C11: identifiers are written so that they read back, or refused
-/

namespace Ron

variable [Env]

/-- Writing a name either fails with `InvalidIdentifier` before anything is written, or appends a text that reads back
as precisely that name wherever a delimiter follows. -/
theorem C11_written_or_refused (s : Ser) (hq : s.Quiet) (name : Text) :
    writeIdentifier name s = .err (.invalidIdentifier name) s ∨
    ∃ w, Emits (writeIdentifier name) s w ∧
      ∀ (d : St) (r : Text), d.rest = w ++ r → IdentFollow r → RunsW identifier d name r := by
  rw [writeIdentifier_quiet hq]
  cases h : (name.isEmpty || !name.all isIdentRaw) with
  | true => exact .inl (by simp)
  | false =>
    refine .inr ⟨identText name, .of ?_, fun d r hd hr => identText_reads (validName_iff.mp h) hr hd⟩
    rw [writeIdentifier_quiet hq, h]; simp

/-- The names that are refused are exactly the empty one and those with a character that is neither an identifier
character nor one of `.`, `+`, `-`. -/
theorem C11_refused_iff (s : Ser) (hq : s.Quiet) (name : Text) :
    (∃ s', writeIdentifier name s = .err (.invalidIdentifier name) s') ↔
      name = [] ∨ ∃ c ∈ name, Env.xidCont c = false ∧ c ≠ '.' ∧ c ≠ '+' ∧ c ≠ '-' := by
  rw [writeIdentifier_quiet hq]
  have hx : (name.isEmpty || !name.all isIdentRaw) = true ↔
      name = [] ∨ ∃ c ∈ name, Env.xidCont c = false ∧ c ≠ '.' ∧ c ≠ '+' ∧ c ≠ '-' := by
    simp only [Bool.or_eq_true, List.isEmpty_iff, Bool.not_eq_true', List.all_eq_false, isIdentRaw]
    constructor
    · rintro (h | ⟨c, hc, h⟩)
      · exact .inl h
      · refine .inr ⟨c, hc, ?_⟩
        simp at h; exact ⟨h.2, h.1.1.1, h.1.1.2, h.1.2⟩
    · rintro (h | ⟨c, hc, h⟩)
      · exact .inl h
      · exact .inr ⟨c, hc, by simp [h]⟩
  rw [← hx]
  split
  · next h => simp [h]
  · next h => simp [h]

/-- Nothing but the name, possibly after `r#`, is written: a name cannot inject other syntax. -/
theorem C11_no_injection (s : Ser) (hq : s.Quiet) (name w : Text) (h : Emits (writeIdentifier name) s w) :
    (w = name ∨ w = 'r' :: '#' :: name) ∧
    ∀ c ∈ name, c ∉ c!"()[]{}:,\"'#/ \t\n\r\\" := by
  obtain ⟨s', h1, h2⟩ := h
  rw [writeIdentifier_quiet hq] at h1
  split at h1
  · cases h1
  · next hv =>
    cases h1
    have hw : w = identText name := by simpa using h2.symm
    refine ⟨by rw [hw, identText]; split <;> simp, ?_⟩
    intro c hc hm
    have hraw := (validName_iff.mp (by simpa using hv)).2 c hc
    have hall : ∀ c ∈ c!"()[]{}:,\"'#/ \t\n\r\\", c.toNat < 128 ∧ c ≠ '.' ∧ c ≠ '+' ∧ c ≠ '-' ∧
        (isAsciiAlpha c || isDigit c || c == '_') = false := by decide
    obtain ⟨ha, h1, h2, h3, h4⟩ := hall c hm
    simp [isIdentRaw, Env.xidCont_ascii c ha, h1, h2, h3] at hraw
    simp at h4
    rcases hraw with (h | h) | h <;> simp [h] at h4

/-- A written name is never mistaken for `true`, `false`, `Some`, `None`, `inf` or `NaN` (with or without suffix). -/
theorem C11_not_keyword (s : Ser) (hq : s.Quiet) (name w : Text) (h : Emits (writeIdentifier name) s w)
    (d : St) (r : Text) (hd : d.rest = w ++ r) (hr : IdentFollow r) (kw : Text)
    (hk : kw ∈ [c!"true", c!"false", c!"Some", c!"None", c!"inf", c!"inff32", c!"inff64", c!"NaN", c!"NaNf32", c!"NaNf64"]) :
    consumeIdent kw d = .ok false d := by
  obtain ⟨s', h1, h2⟩ := h
  rw [writeIdentifier_quiet hq] at h1
  split at h1
  · cases h1
  · next hv =>
    cases h1
    have hw : w = identText name := by simpa using h2.symm
    exact identText_notKeyword hr (hw ▸ hd) hk

/-- Conversely an identifier is read only to its end: a name that goes on with an identifier character or with one of `.`, `+`, `-`
is not cut short but refused with the advice to write it as a raw identifier. -/
theorem C11_maximal (s s' : St) (id : Text) (h : identifier s = .ok id s') :
    (s.rest = id ++ s'.rest ∨ s.rest = 'r' :: '#' :: (id ++ s'.rest)) ∧ id ≠ [] ∧
    ∀ c r, s'.rest = c :: r → Env.xidCont c = false ∧ c ≠ '.' ∧ c ≠ '+' ∧ c ≠ '-' := by
  obtain ⟨tok, h1, h2, h3, -⟩ := identifier_sound h
  refine ⟨by cases h2 <;> simp_all, h3, ?_⟩
  have key : ∀ c r, s'.rest = c :: r → isIdentRaw c = false := by
    unfold identifier at h
    replace h := bind_ok h; obtain ⟨c, s1, h1, h⟩ := h
    obtain ⟨rfl, r, hr⟩ := peekCharOrEof_inv h1
    rw [getSt_bind] at h
    replace h := ite_inv h; rcases h with ⟨-, h⟩ | ⟨hf, h⟩
    · replace h := ite_inv h; rcases h with ⟨-, h⟩ | ⟨-, h⟩ <;> cases h
    replace h := ite_inv h; rcases h with ⟨-, h⟩ | ⟨-, h⟩
    · cases h
    replace h := ite_inv h; rcases h with ⟨hs, h⟩ | ⟨-, h⟩
    · rw [bind_apply, cursor_apply] at h
      simp only at h
      replace h := (advance_inv h).2
      rw [getSt_bind] at h
      replace h := ite_inv h; rcases h with ⟨-, h⟩ | ⟨hraw, h⟩
      · cases h
      · replace h := (advance_inv h).2
        simp only [pure_apply, Res.ok.injEq] at h
        obtain ⟨-, rfl⟩ := h
        simp only
        obtain ⟨a, r', e, ha, hw, hr'⟩ := whileLen_split isIdentRaw (s1.rest.drop 2)
        rw [e] at hw ⊢
        rw [hw]
        simpa using hr'
    · have hfirst : Env.xidCont c = true := identFirst_xid (by simpa using hf)
      have hstd : (if (c == 'r') = true then whileLen Env.xidCont s1.rest else 1 + whileLen Env.xidCont (s1.rest.drop 1)) =
          whileLen Env.xidCont s1.rest := by
        split
        · rfl
        · rw [hr, whileLen_cons_true _ _ _ hfirst]; simp; omega
      rw [hstd] at h
      replace h := ite_inv h; rcases h with ⟨-, h⟩ | ⟨hle, h⟩
      · cases h
      · replace h := (advance_inv h).2
        simp only [pure_apply, Res.ok.injEq] at h
        obtain ⟨-, rfl⟩ := h
        obtain ⟨a, r', e, ha, hw, hr'⟩ := whileLen_split Env.xidCont s1.rest
        have e2 : whileLen isIdentRaw s1.rest = a.length + whileLen isIdentRaw r' := by
          conv => lhs; rw [e]
          exact whileLen_append _ _ _ fun c hc => by simp [isIdentRaw, ha c hc]
        rw [hw, e2] at hle
        have e3 : whileLen isIdentRaw r' = 0 := by omega
        intro d t hd
        rw [hw] at hd
        simp only [e, List.drop_left] at hd
        rw [hd] at e3
        cases hraw : isIdentRaw d with
        | false => rfl
        | true => rw [whileLen_cons_true _ _ _ hraw] at e3; omega
  intro c r hc
  have := key c r hc
  simp only [isIdentRaw, Bool.or_eq_false_iff, beq_eq_false_iff_ne] at this
  simp [this]

/-- Non-vacuity: `a-b` is refused, `a` before a colon and `r#a-b` are read. -/
example : letI := asciiEnv true false
    (∃ s', identifier (St.init c!"a-b: 1") = .err (.suggestRawIdentifier c!"a-b") s') ∧
    (∃ s', identifier (St.init c!"a: 1") = .ok c!"a" s') ∧ (∃ s', identifier (St.init c!"r#a-b: 1") = .ok c!"a-b" s') :=
  ⟨⟨_, rfl⟩, ⟨_, rfl⟩, ⟨_, rfl⟩⟩

/-- Whatever is serialized: if it succeeds then every name of a type, variant or field in the data is a possible identifier;
a name with any other character is refused, wherever it is in the data. -/
theorem C11_document [Env] (o : Options) (cfg : Option PrettyConfig) (v : SVal) (t : Text) (h : toText o cfg v = .ok t) : v.Named :=
  toText_named h

/-- Non-vacuity: a keyword, a raw identifier, a plain name and a refused name. -/
example : letI := asciiEnv true false
    identText c!"Some" = c!"r#Some" ∧ identText c!"a-b" = c!"r#a-b" ∧ identText c!"field_1" = c!"field_1" ∧
    ¬ RawName c!"a b" ∧ RawName c!"a-b" ∧ IdentFollow c!":1" := by
  refine ⟨by decide, by decide, by decide, ?_, ⟨by simp, by decide⟩, ?_⟩
  · rintro ⟨-, h⟩
    have := h ' ' (by simp)
    revert this; decide
  · intro c r' e; cases e; decide

end Ron
