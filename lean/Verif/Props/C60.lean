import Verif.Lemmas.BadNumbers
import Verif.Lemmas.BadFloats
import Verif.Lemmas.Witness
import Verif.Props.C59
/-!
# C60: every text a number may be read from: the number, or the error and its place

`GoodInt` and `BadInt` of `Verif.Spec.BadNumbers` divide all texts (byte literals `b'..'` are those of C59): which number is read and
what is left, or which error and what is left.  `GoodFloat` and `BadFloat` do so for floats.
-/

namespace Ron

variable [Env]

/-- A number is read exactly when the text starts with one. -/
theorem C60_reads (d : St) (T : IntTy) (v : Int) (r : Text) (hb : ∀ r, d.rest ≠ 'b' :: '\'' :: r) :
    (∃ d', integer (.one T) d = .ok (T, v) d' ∧ d'.rest = r) ↔ GoodInt T d.rest v r := by
  constructor
  · rintro ⟨d', h, rfl⟩
    rcases int_total T d.rest with ⟨v', r', hg⟩ | ⟨e, r', hg⟩
    · obtain ⟨_, h3, rfl, -⟩ := integer_good rfl hb hg
      rw [h3] at h; cases h; exact hg
    · obtain ⟨_, h3, -⟩ := integer_badInt rfl hb hg
      rw [h3] at h; cases h
  · intro h
    obtain ⟨d', h1, h2, -⟩ := integer_good rfl hb h
    exact ⟨d', h1, h2⟩

/-- Reading fails with `e`, leaving `r`, exactly when the text is bad in that way. -/
theorem C60_fails (d : St) (T : IntTy) (e : Err) (r : Text) (hb : ∀ r, d.rest ≠ 'b' :: '\'' :: r) :
    (∃ d', integer (.one T) d = .err e d' ∧ d'.rest = r) ↔ BadInt T d.rest e r := by
  constructor
  · rintro ⟨d', h, rfl⟩
    rcases int_total T d.rest with ⟨v', r', hg⟩ | ⟨e, r', hg⟩
    · obtain ⟨_, h3, -⟩ := integer_good rfl hb hg
      rw [h3] at h; cases h
    · obtain ⟨_, h3, rfl, -⟩ := integer_badInt rfl hb hg
      rw [h3] at h; cases h; exact hg
  · intro h
    obtain ⟨d', h1, h2, -⟩ := integer_badInt rfl hb h
    exact ⟨d', h1, h2⟩

/-- Every text is one or the other, in one way only. -/
theorem C60_unique (T : IntTy) (u : Text) (hb : ∀ r, u ≠ 'b' :: '\'' :: r) :
    ((∃ v r, GoodInt T u v r ∧ ∀ v' r', GoodInt T u v' r' → v' = v ∧ r' = r) ∧ ∀ e r, ¬ BadInt T u e r) ∨
    ((∃ e r, BadInt T u e r ∧ ∀ e' r', BadInt T u e' r' → e' = e ∧ r' = r) ∧ ∀ v r, ¬ GoodInt T u v r) := by
  have hb' : ∀ r, (St.init u).rest ≠ 'b' :: '\'' :: r := hb
  rcases int_total T u with ⟨v, r, hg⟩ | ⟨e, r, hg⟩
  · obtain ⟨_, h1, rfl, -⟩ := integer_good (s := St.init u) rfl hb hg
    refine .inl ⟨⟨v, _, hg, fun v' r' h => ?_⟩, fun e r h => ?_⟩
    · obtain ⟨_, h2, rfl, -⟩ := integer_good (s := St.init u) rfl hb h
      rw [h1] at h2; cases h2; exact ⟨rfl, rfl⟩
    · obtain ⟨_, h2, -⟩ := integer_badInt (s := St.init u) rfl hb h
      rw [h1] at h2; cases h2
  · obtain ⟨_, h1, rfl, -⟩ := integer_badInt (s := St.init u) rfl hb hg
    refine .inr ⟨⟨e, _, hg, fun v' r' h => ?_⟩, fun e r h => ?_⟩
    · obtain ⟨_, h2, rfl, -⟩ := integer_badInt (s := St.init u) rfl hb h
      rw [h1] at h2; cases h2; exact ⟨rfl, rfl⟩
    · obtain ⟨_, h2, -⟩ := integer_good (s := St.init u) rfl hb h
      rw [h1] at h2; cases h2

/-- A document: the error says what is wrong, and ends where reading stopped. -/
theorem C60_doc (o : Options) (D : Nat → Ty) (f : Nat) (T : IntTy) (hT : T.Avail) (l hdr u r p : Text) (ex : Exts) (e : Err)
    (hl : Layout l) (ha : Attrs hdr ex) (hn : NoLayoutStart u) (hh : u.head? ≠ some '#') (hb : ∀ r, u ≠ 'b' :: '\'' :: r)
    (h : BadInt T u e r) (hp : l ++ (hdr ++ u) = p ++ r) :
    ∃ sp, fromStr o (deTy D (f + 1) (.int T)) (l ++ (hdr ++ u)) = .error (e, sp) ∧ sp.stop = Position.after p := by
  refine doc_errs hn hh (fun d hd => ?_) hl ha hp
  obtain ⟨s', h1, h2, h3⟩ := integer_badInt hd hb h
  refine ⟨s', ?_, h2, h3⟩
  have hT' : ¬ ((T = .i128 ∨ T = .u128) ∧ Env.int128 = false) := by rintro ⟨h1, h2⟩; rw [hT h1] at h2; cases h2
  simp only [deTy, deInt, hT', ↓reduceIte, bind_apply, h1]

/-- A float (of 32 bits if `b`) is read exactly when the text starts with one. -/
theorem C60_float_reads (d : St) (b : Bool) (v : Number) (r : Text) :
    (∃ d', float (if b then .f32 else .f64) d = .ok v d' ∧ d'.rest = r) ↔ GoodFloat b d.rest v r := by
  have hr : (if b then FloatTarget.f32 else .f64) = realTarget b := by cases b <;> rfl
  rw [hr]
  constructor
  · rintro ⟨d', h, rfl⟩
    rcases float_total b d.rest with ⟨v', r', hg⟩ | ⟨e, r', hg⟩
    · obtain ⟨_, h3, rfl, -⟩ := float_good rfl hg
      rw [h3] at h; cases h; exact hg
    · obtain ⟨_, h3, -⟩ := float_bad rfl hg
      rw [h3] at h; cases h
  · intro h
    obtain ⟨d', h1, h2, -⟩ := float_good rfl h
    exact ⟨d', h1, h2⟩

/-- Reading a float fails with `e`, leaving `r`, exactly when the text is bad in that way. -/
theorem C60_float_fails (d : St) (b : Bool) (e : Err) (r : Text) :
    (∃ d', float (if b then .f32 else .f64) d = .err e d' ∧ d'.rest = r) ↔ BadFloat b d.rest e r := by
  have hr : (if b then FloatTarget.f32 else .f64) = realTarget b := by cases b <;> rfl
  rw [hr]
  constructor
  · rintro ⟨d', h, rfl⟩
    rcases float_total b d.rest with ⟨v', r', hg⟩ | ⟨e, r', hg⟩
    · obtain ⟨_, h3, -⟩ := float_good rfl hg
      rw [h3] at h; cases h
    · obtain ⟨_, h3, rfl, -⟩ := float_bad rfl hg
      rw [h3] at h; cases h; exact hg
  · intro h
    obtain ⟨d', h1, h2, -⟩ := float_bad rfl h
    exact ⟨d', h1, h2⟩

/-- A document with a malformed float. -/
theorem C60_doc_float (o : Options) (D : Nat → Ty) (f : Nat) (b : Bool) (l hdr u r p : Text) (ex : Exts) (e : Err)
    (hl : Layout l) (ha : Attrs hdr ex) (hn : NoLayoutStart u) (hh : u.head? ≠ some '#')
    (h : BadFloat b u e r) (hp : l ++ (hdr ++ u) = p ++ r) :
    ∃ sp, fromStr o (deTy D (f + 1) (if b then .f32 else .f64)) (l ++ (hdr ++ u)) = .error (e, sp) ∧ sp.stop = Position.after p := by
  refine doc_errs hn hh (fun d hd => ?_) hl ha hp
  obtain ⟨s', h1, h2, h3⟩ := float_bad hd h
  refine ⟨s', ?_, h2, h3⟩
  cases b <;> simp only [realTarget] at h1 <;> simp only [Bool.false_eq_true, ↓reduceIte, deTy, bind_apply, h1]

/-- A boolean is one of two whole words; anything else fails where it begins. -/
theorem C60_bool (d : St) :
    (∀ b r, (∃ d', Ron.bool d = .ok b d' ∧ d'.rest = r) ↔ d.rest = (if b then c!"true" else c!"false") ++ r ∧ NoIdentStart r) ∧
    (∀ e d', Ron.bool d = .err e d' → e = .expectedBoolean ∧ d'.rest = d.rest) := by
  have hne : ∀ r r' : Text, c!"true" ++ r ≠ c!"false" ++ r' := by intro r r' h; simp at h
  unfold Ron.bool
  rw [bind_apply]
  rcases consumeIdent_cases c!"true" d with ⟨r0, a1, a2, a3⟩ | ⟨a1, a3⟩
  · rw [a3]
    simp only [↓reduceIte, pure_apply]
    refine ⟨fun b r => ⟨?_, ?_⟩, fun e d' h => by cases h⟩
    · rintro ⟨d', h, rfl⟩; cases h; exact ⟨a1, a2⟩
    · rintro ⟨h, -⟩
      cases b with
      | true => rw [a1] at h; exact ⟨_, rfl, by simpa using h⟩
      | false => rw [a1] at h; exact absurd h (hne _ _)
  · rw [a3]
    simp only [Bool.false_eq_true, ↓reduceIte]
    rw [bind_apply]
    have hnt : ∀ r, d.rest = c!"true" ++ r → ¬ NoIdentStart r := by
      intro r e hr
      rw [consumeIdent_true e hr] at a3; cases a3
    rcases consumeIdent_cases c!"false" d with ⟨r0, b1, b2, b3⟩ | ⟨b1, b3⟩
    · rw [b3]
      simp only [↓reduceIte, pure_apply]
      refine ⟨fun b r => ⟨?_, ?_⟩, fun e d' h => by cases h⟩
      · rintro ⟨d', h, rfl⟩; cases h; exact ⟨b1, b2⟩
      · rintro ⟨h, hr⟩
        cases b with
        | true => exact absurd hr (hnt r h)
        | false => rw [b1] at h; exact ⟨_, rfl, by simpa using h⟩
    · rw [b3]
      simp only [Bool.false_eq_true, ↓reduceIte, fail_apply]
      refine ⟨fun b r => ⟨?_, ?_⟩, fun e d' h => by cases h; exact ⟨rfl, rfl⟩⟩
      · rintro ⟨d', h, -⟩; cases h
      · rintro ⟨h, hr⟩
        cases b with
        | true => exact absurd hr (hnt r h)
        | false => rw [consumeIdent_true (t := c!"false") h hr] at b3; cases b3

/-- A letter after the digits is left for what follows. -/
example : GoodInt .u8 c!"12x" 12 c!"x" := by
  have h : NumSplit c!"12x" .none .dec c!"12" c!"x" := by
    refine ⟨by decide, rfl, by decide, ?_, ?_, ?_⟩
    · intro _ b' r hb' h; cases b' <;> simp [LitBase.pre] at h hb'
    · intro c hc
      simp only [List.mem_cons, List.not_mem_nil, or_false] at hc
      rcases hc with rfl | rfl <;> exact .inr ⟨_, rfl⟩
    · intro c r h; cases h; decide
  refine GoodInt.plain h ?_ ?_ (by decide)
  · rintro S r ⟨-, h, -⟩
    cases S <;> simp [IntTy.suffix] at h
  · refine ⟨by decide, by decide, ?_⟩
    intro c hc
    simp only [List.mem_cons, List.not_mem_nil, or_false] at hc
    rcases hc with rfl | rfl <;> exact .inr ⟨_, rfl, by decide⟩

/-- `25a` has a wrong digit; `26a` is too large for eight bits before that is seen. -/
example : BadInt .u8 c!"25a" (.invalidIntegerDigit 'a' 10) c!"a" ∧ BadInt .u8 c!"26a" .integerOutOfBounds [] := by
  have hno : ∀ S r, ¬ SuffixAt ([] : Text) S r := by
    rintro S r ⟨-, h, -⟩
    cases S <;> simp [IntTy.suffix] at h
  have h : ∀ c : Char, c = '5' ∨ c = '6' → NumSplit ['2', c, 'a'] .none .dec ['2', c, 'a'] [] := by
    intro c hc
    refine ⟨by simp, rfl, by simp, ?_, ?_, ?_⟩
    · intro _ b' r hb' h; cases b' <;> simp [LitBase.pre] at h hb'
    · intro x hx
      simp only [List.mem_cons, List.not_mem_nil, or_false] at hx
      rcases hx with rfl | rfl | rfl
      · exact .inr ⟨_, rfl⟩
      · rcases hc with rfl | rfl <;> exact .inr ⟨_, rfl⟩
      · exact .inr ⟨_, rfl⟩
    · intro c r h; cases h
  have ha : ∀ c : Char, c = '5' ∨ c = '6' → AllDigits 10 ['2', c] := by
    intro c hc x hx
    simp only [List.mem_cons, List.not_mem_nil, or_false] at hx
    rcases hx with rfl | rfl
    · exact .inr ⟨_, rfl, by decide⟩
    · rcases hc with rfl | rfl <;> exact .inr ⟨_, rfl, by decide⟩
  exact ⟨.plain (h '5' (.inl rfl)) hno (.digit (p := c!"25") (q := []) (d := 10) rfl (by decide) (ha _ (.inl rfl)) rfl (by decide) (by decide)),
    .plain (h '6' (.inr rfl)) hno (.large (p := c!"26") (q := []) (c := 'a') rfl (by decide) (ha _ (.inr rfl)) (by decide) (by decide))⟩

/-- A suffix: `_1u8` fails before the underscore, `300u8` after the suffix, `u8` is missing its digits, `7u8` is not an `i8`. -/
example : BadInt .i8 c!"_1u8]" .underscoreAtBeginning c!"_1u8]" ∧ BadInt .i8 c!"300u8]" .integerOutOfBounds c!"]" ∧
    BadInt .i8 c!"u8]" .expectedInteger c!"]" ∧ BadInt .i8 c!"7u8]" (.invalidValueForType c!"an 8-bit signed integer" c!"7u8") c!"]" := by
  have hS : SuffixAt c!"u8]" .u8 c!"]" := by
    refine ⟨(by intro h; rcases h with h | h <;> cases h), rfl, ?_⟩
    intro c r h; cases h
    rw [Env.xidCont_ascii _ (by decide)]; decide
  have hsp : ∀ body : Text, body = c!"_1" ∨ body = c!"300" ∨ body = [] ∨ body = c!"7" → NumSplit (body ++ c!"u8]") .none .dec body c!"u8]" := by
    intro body hb
    refine ⟨by simp, rfl, ?_, ?_, ?_, ?_⟩
    · intro _; rcases hb with rfl | rfl | rfl | rfl <;> decide
    · intro _ b' r hb' h; rcases hb with rfl | rfl | rfl | rfl <;> cases b' <;> simp [LitBase.pre] at h hb'
    · intro x hx
      rcases hb with rfl | rfl | rfl | rfl <;> simp at hx
      · rcases hx with rfl | rfl
        · exact .inl rfl
        · exact .inr ⟨_, rfl⟩
      · rcases hx with rfl | rfl <;> exact .inr ⟨_, rfl⟩
      · subst hx; exact .inr ⟨_, rfl⟩
    · intro c r h; cases h; decide
  refine ⟨.here (l := c!"_1") (hsp c!"_1" (by simp)) hS (.underscore rfl) (by decide) (by decide),
    .past (hsp c!"300" (by simp)) hS (.larger (p := c!"30") (c := '0') (q := []) (d := 0) rfl (by decide) ?_ rfl (by decide) (by decide)) (.inr rfl),
    .past (hsp [] (by simp)) hS (.none rfl) (.inl rfl),
    .other (hsp c!"7" (by simp)) hS ?_ (by decide) (by decide) rfl⟩
  · intro x hx
    simp only [List.mem_cons, List.not_mem_nil, or_false] at hx
    rcases hx with rfl | rfl <;> exact .inr ⟨_, rfl, by decide⟩
  · refine ⟨by decide, by decide, ?_⟩
    intro x hx
    simp only [List.mem_cons, List.not_mem_nil, or_false] at hx
    subst hx; exact .inr ⟨_, rfl, by decide⟩

/-- Floats: `1._5` fails at the underscore after the point; `inff32` is no `f64`; nothing but letters is no float. -/
example : BadFloat true c!"1._5" .floatUnderscore c!"_5" ∧
    BadFloat false c!"-inff32," (.invalidValueForType c!"a 64-bit floating point number" c!"-inff32") c!"," ∧
    BadFloat true c!"xyz" .expectedFloat c!"xyz" ∧ GoodFloat true c!"NaN," (.f32 F32.nan) c!"," := by
  have hx : NoIdentStart c!"," := by
    intro c r h; cases h
    rw [Env.xidCont_ascii _ (by decide)]; decide
  have no : ∀ u : Text, (∀ w ∈ [c!"inf", c!"+inf", c!"-inf", c!"NaN", c!"+NaN", c!"-NaN"], ¬ w <+: u) → ∀ w x y tag r, ¬ WordAt u w x y tag r := by
    rintro u h w x y tag r ⟨hw, e, -⟩
    refine h w ?_ ⟨_, e.symm⟩
    cases hw <;> decide
  refine ⟨?_, ?_, ?_, ?_⟩
  · refine .misplaced (t := c!"1._5") (r := []) (p := c!"1.") (q := c!"5") ⟨no _ (by decide), rfl, by decide, by decide, .inl (by simp)⟩ (by decide) rfl ?_ ?_
    · intro p q e
      have : '_' ∈ c!"1." := by rw [e]; simp
      exact absurd this (by decide)
    · rintro ⟨p1, c, p2, e, h1, h2⟩
      rcases p1 with _ | ⟨a, _ | ⟨a', p1⟩⟩
      · cases e; exact h2 (by decide)
      · cases e; revert h1; decide
      · simp at e
  · exact .word (w := c!"-inf") (b' := true) ⟨.negInf, rfl, hx⟩ (by decide)
  · exact .none (r := c!"xyz") ⟨no _ (by decide), rfl, by simp, by decide, .inl (by rintro _ _ ⟨⟩; decide)⟩
  · exact .word (b := true) (w := c!"NaN") (tag := none) ⟨.nan, rfl, hx⟩ (.inl rfl)

end Ron
