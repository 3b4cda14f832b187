import Verif.Lemmas.Number
import Verif.Lemmas.StringsSound
import Verif.Spec.Float
/-! Lemmas about `float`. -/

set_option linter.unusedSimpArgs false

namespace Ron

theorem floatAlphabet_iff (c : Char) : isFloatChar c = true ↔ c ∈ floatAlphabet := by
  have hd : isDigit c = true ↔ c ∈ c!"0123456789" := by
    unfold isDigit
    simp only [Bool.and_eq_true, decide_eq_true_eq, Char.le_def, UInt32.le_iff_toNat_le]
    constructor
    · intro ⟨h1, h2⟩
      have h1 : 48 ≤ c.toNat := h1
      have h2 : c.toNat ≤ 57 := h2
      have : c = Char.ofNat c.toNat := (Char.ofNat_toNat c).symm
      rw [this]
      generalize c.toNat = n at h1 h2
      have : n = 48 ∨ n = 49 ∨ n = 50 ∨ n = 51 ∨ n = 52 ∨ n = 53 ∨ n = 54 ∨ n = 55 ∨ n = 56 ∨ n = 57 := by omega
      rcases this with h | h | h | h | h | h | h | h | h | h <;> subst h <;> decide
    · intro h
      simp only [List.mem_cons, List.not_mem_nil, or_false] at h
      rcases h with h | h | h | h | h | h | h | h | h | h <;> subst h <;> decide
  simp only [isFloatChar, Bool.or_eq_true, hd, beq_iff_eq, floatAlphabet, List.mem_cons, List.not_mem_nil, or_false, or_assoc]

theorem floatLen_of_run {t r : Text} (hc : ∀ c ∈ t, c ∈ floatAlphabet) (hd : ¬ (c!".." <:+: t))
    (hf : (∀ c r', r = c :: r' → c ∉ floatAlphabet) ∨ (c!".." <+: r ∧ ∀ p, t ≠ p ++ ['.'])) :
    floatLen (t ++ r) = t.length := by
  have h0 : floatLen r = 0 := by
    rcases hf with hf | ⟨⟨r', hr⟩, -⟩
    · cases r with
      | nil => simp
      | cons c r =>
        apply floatLen_stop
        rw [Bool.eq_false_iff]
        exact fun h => hf c r rfl ((floatAlphabet_iff c).mp h)
    · rw [← hr]; exact floatLen_dots _
  induction t with
  | nil => simpa using h0
  | cons c t ih =>
    have ih := ih (fun x hx => hc x (by simp [hx])) (fun h => hd (h.trans (List.suffix_cons c t).isInfix)) (by
      rcases hf with hf | ⟨h1, h2⟩
      · exact .inl hf
      · exact .inr ⟨h1, fun p e => h2 (c :: p) (by rw [e]; simp)⟩)
    by_cases hdot : c = '.'
    · subst hdot
      cases t with
      | nil =>
        cases r with
        | nil => decide
        | cons d r =>
          have : d ≠ '.' := by
            rcases hf with hf | ⟨h1, h2⟩
            · rintro rfl; exact hf _ _ rfl (by decide)
            · exact absurd rfl (h2 [])
          show floatLen ('.' :: d :: r) = 1
          rw [floatLen_dot this, h0]
      | cons d t =>
        have : d ≠ '.' := by
          rintro rfl
          exact hd ⟨[], t, rfl⟩
        rw [List.cons_append, List.cons_append, floatLen_dot this]
        rw [List.cons_append] at ih
        rw [ih]; simp
    · rw [List.cons_append, floatLen_cons ((floatAlphabet_iff c).mpr (hc c (by simp))) hdot, ih]; simp

theorem FloatRun.len {t r : Text} (h : FloatRun t r) : floatLen (t ++ r) = t.length := floatLen_of_run h.chars h.noDots h.follow

/-- Underscores are allowed from the start on if `allow`. -/
theorem floatStrip_spec (t : Text) (i : Nat) (allow : Bool) :
    (∃ f, floatStrip t i allow = .ok f ∧ f = plainFloat t ∧
      ∀ p q, t = p ++ '_' :: q → (allow = true ∧ '.' ∉ p) ∨ ∃ p1 c p2, p = p1 ++ c :: p2 ∧ c ∈ c!"0123456789eE" ∧ '.' ∉ p2) ∨
    (∃ j p q, floatStrip t i allow = .error j ∧ t = p ++ '_' :: q ∧ ¬ ((allow = true ∧ '.' ∉ p) ∨
      ∃ p1 c p2, p = p1 ++ c :: p2 ∧ c ∈ c!"0123456789eE" ∧ '.' ∉ p2)) := by
  have hdig : ∀ c, (isDigit c || c == 'e' || c == 'E') = true ↔ c ∈ c!"0123456789eE" := by
    intro c
    by_cases h : c = 'e' ∨ c = 'E'
    · rcases h with rfl | rfl <;> decide
    · simp only [not_or] at h
      have := floatAlphabet_iff c
      simp only [isFloatChar, floatAlphabet, List.mem_cons, List.not_mem_nil, or_false, Bool.or_eq_true, beq_iff_eq, h, false_or] at this ⊢
      constructor
      · intro hd
        have hx := this.mp (by simp [hd])
        rcases hx with hx | hx | hx | hx | hx | hx | hx | hx | hx | hx | hx | hx | hx | hx <;> subst hx <;>
          first | decide | (revert hd; decide)
      · intro hx
        rcases hx with hx | hx | hx | hx | hx | hx | hx | hx | hx | hx <;> subst hx <;> decide
  induction t generalizing i allow with
  | nil => left; exact ⟨[], rfl, rfl, fun p q e => by simp at e⟩
  | cons c t ih =>
    rw [floatStrip]
    by_cases hu : c = '_'
    · subst hu
      simp only [beq_self_eq_true, ↓reduceIte]
      cases allow with
      | false =>
        right
        refine ⟨i, [], t, rfl, rfl, ?_⟩
        rintro (⟨h, -⟩ | ⟨p1, c, p2, h, -⟩)
        · cases h
        · simp at h
      | true =>
        simp only [↓reduceIte]
        rcases ih (i + 1) true with ⟨f, h1, h2, h3⟩ | ⟨j, p, q, h1, h2, h3⟩
        · left
          refine ⟨f, h1, by rw [h2]; simp [plainFloat], ?_⟩
          intro p q e
          cases p with
          | nil => left; simp
          | cons d p =>
            simp only [List.cons_append, List.cons.injEq] at e
            obtain ⟨rfl, e⟩ := e
            rcases h3 p q e with ⟨-, h⟩ | ⟨p1, c, p2, rfl, h4, h5⟩
            · left; simp [h]
            · right; exact ⟨'_' :: p1, c, p2, rfl, h4, h5⟩
        · right
          refine ⟨j, '_' :: p, q, h1, by rw [h2]; rfl, ?_⟩
          rintro (⟨-, h⟩ | ⟨p1, c, p2, h, h4, h5⟩)
          · exact h3 (.inl ⟨rfl, fun hm => h (by simp [hm])⟩)
          · cases p1 with
            | nil =>
              simp only [List.nil_append, List.cons.injEq] at h
              obtain ⟨rfl, -⟩ := h
              revert h4; decide
            | cons d p1 =>
              simp only [List.cons_append, List.cons.injEq] at h
              exact h3 (.inr ⟨p1, c, p2, h.2, h4, h5⟩)
    · have hb : (c == '_') = false := by simpa using hu
      simp only [hb, Bool.false_eq_true, ↓reduceIte]
      generalize ha : (if (isDigit c || c == 'e' || c == 'E') = true then true else if (c == '.') = true then false else allow) = a
      have hcond : ∀ p, ((a = true ∧ '.' ∉ p) ∨ ∃ p1 c p2, p = p1 ++ c :: p2 ∧ c ∈ c!"0123456789eE" ∧ '.' ∉ p2) ↔
          ((allow = true ∧ '.' ∉ c :: p) ∨ ∃ p1 d p2, c :: p = p1 ++ d :: p2 ∧ d ∈ c!"0123456789eE" ∧ '.' ∉ p2) := by
        intro p
        by_cases hx : (isDigit c || c == 'e' || c == 'E') = true
        · rw [if_pos hx] at ha
          subst ha
          have hm := (hdig c).mp hx
          constructor
          · rintro (⟨-, h⟩ | ⟨p1, d, p2, rfl, h4, h5⟩)
            · exact .inr ⟨[], c, p, rfl, hm, h⟩
            · exact .inr ⟨c :: p1, d, p2, rfl, h4, h5⟩
          · rintro (⟨-, h⟩ | ⟨p1, d, p2, h, h4, h5⟩)
            · exact .inl ⟨rfl, fun hh => h (by simp [hh])⟩
            · cases p1 with
              | nil =>
                simp only [List.nil_append, List.cons.injEq] at h
                obtain ⟨rfl, rfl⟩ := h
                exact .inl ⟨rfl, h5⟩
              | cons e p1 =>
                simp only [List.cons_append, List.cons.injEq] at h
                exact .inr ⟨p1, d, p2, h.2, h4, h5⟩
        · rw [if_neg hx] at ha
          have hm : c ∉ c!"0123456789eE" := fun h => hx ((hdig c).mpr h)
          have hr : (∃ p1 d p2, c :: p = p1 ++ d :: p2 ∧ d ∈ c!"0123456789eE" ∧ '.' ∉ p2) ↔
              ∃ p1 d p2, p = p1 ++ d :: p2 ∧ d ∈ c!"0123456789eE" ∧ '.' ∉ p2 := by
            constructor
            · rintro ⟨p1, d, p2, h, h4, h5⟩
              cases p1 with
              | nil =>
                simp only [List.nil_append, List.cons.injEq] at h
                obtain ⟨rfl, rfl⟩ := h
                exact absurd h4 hm
              | cons e p1 =>
                simp only [List.cons_append, List.cons.injEq] at h
                exact ⟨p1, d, p2, h.2, h4, h5⟩
            · rintro ⟨p1, d, p2, rfl, h4, h5⟩
              exact ⟨c :: p1, d, p2, rfl, h4, h5⟩
          rw [hr]
          by_cases hp : c = '.'
          · subst hp
            have ha : false = a := ha
            subst ha
            simp
          · have hp' : (c == '.') = false := by simpa using hp
            rw [hp'] at ha
            have ha : allow = a := ha
            subst ha
            simp only [List.mem_cons, not_or]
            constructor
            · rintro (⟨h1, h2⟩ | h)
              · exact .inl ⟨h1, fun h => hp h.symm, h2⟩
              · exact .inr h
            · rintro (⟨h1, -, h2⟩ | h)
              · exact .inl ⟨h1, h2⟩
              · exact .inr h
      rcases ih (i + 1) a with ⟨f, h1, h2, h3⟩ | ⟨j, p, q, h1, h2, h3⟩
      · left
        refine ⟨c :: f, by rw [h1]; rfl, by rw [h2]; simp [plainFloat, hu], ?_⟩
        intro p q e
        cases p with
        | nil =>
          simp only [List.nil_append, List.cons.injEq] at e
          exact absurd e.1 hu
        | cons d p =>
          simp only [List.cons_append, List.cons.injEq] at e
          obtain ⟨rfl, e⟩ := e
          exact (hcond p).mp (h3 p q e)
      · right
        exact ⟨j, c :: p, q, by rw [h1]; rfl, by rw [h2]; rfl, fun h => h3 ((hcond p).mpr h)⟩

theorem UnderscoresOk.head {t r : Text} (hu : UnderscoresOk t) (hne : t ≠ []) : startsWith (t ++ r) ['_'] = false := by
  rw [Bool.eq_false_iff]
  intro hst
  obtain ⟨q, hq⟩ := (startsWith_iff _ _).mp hst
  cases t with
  | nil => exact hne rfl
  | cons c t =>
    simp only [List.cons_append, List.nil_append, List.cons.injEq] at hq
    obtain ⟨p1, _, _, e, -⟩ := hu [] t (by rw [hq.1]; rfl)
    simp at e

theorem floatStrip_ok {t : Text} (h : UnderscoresOk t) (i : Nat) : floatStrip t i false = .ok (plainFloat t) := by
  rcases floatStrip_spec t i false with ⟨f, h1, h2, -⟩ | ⟨j, p, q, h1, h2, h3⟩
  · rw [h1, h2]
  · exact absurd (.inr (h p q h2)) h3

theorem floatStrip_bad {t : Text} (h : ¬ UnderscoresOk t) (i : Nat) : ∃ j, floatStrip t i false = .error j ∧ j < i + t.length := by
  rcases floatStrip_spec t i false with ⟨f, h1, h2, h3⟩ | ⟨j, p, q, h1, h2, h3⟩
  · exfalso
    apply h
    intro p q e
    rcases h3 p q e with ⟨h, -⟩ | h
    · cases h
    · exact h
  · exact ⟨j, h1, floatStrip_lt _ _ _ _ h1⟩

variable [Env]

/-- The text does not begin like `inf` or `NaN`, with or without a sign. -/
def NoSpecial (t : Text) : Prop := ∀ x ∈ floatLiterals, startsWith t x.1 = false

theorem floatSpecial_none (tg : FloatTarget) {s : St} (h : NoSpecial s.rest) :
    floatSpecial tg floatLiterals s = .ok none s := by
  have key : ∀ l : List (Text × F32 × F64), (∀ x ∈ l, startsWith s.rest x.1 = false) → floatSpecial tg l s = .ok none s := by
    intro l
    induction l with
    | nil => intro _; rfl
    | cons x l ih =>
      intro hl
      obtain ⟨lit, v32, v64⟩ := x
      have h0 : startsWith s.rest lit = false := hl (lit, v32, v64) (by simp)
      have ext : ∀ u, startsWith s.rest (lit ++ u) = false := by
        intro u
        rw [Bool.eq_false_iff]
        intro h
        obtain ⟨r, hr⟩ := (startsWith_iff _ _).mp h
        rw [hr, List.append_assoc] at h0
        simp at h0
      rw [floatSpecial, bind_apply, consumeIdent_false (.inl h0)]
      simp only [Bool.false_eq_true, ↓reduceIte, bind_apply, getSt_apply, ext, Bool.false_and]
      exact ih fun x hx => hl x (by simp [hx])
  exact key _ h

omit [Env] in
theorem FloatRun.noSpecial {t r : Text} (h : FloatRun t r) : NoSpecial (t ++ r) := by
  have hi : ∀ c, c ∈ floatAlphabet → c ≠ 'i' ∧ c ≠ 'N' := by
    intro c hc
    constructor <;> (rintro rfl; revert hc; decide)
  obtain ⟨ne, np, nm, hc, -, -⟩ := h
  cases t with
  | nil => exact absurd rfl ne
  | cons a t =>
    have ha := hi a (hc a (by simp))
    intro x hx
    have : x.1 ∈ floatLiterals.map (·.1) := List.mem_map_of_mem hx
    generalize x.1 = lit at this
    simp only [floatLiterals, List.map_cons, List.map_nil, List.mem_cons, List.not_mem_nil, or_false] at this
    rw [Bool.eq_false_iff]
    intro hst
    cases t with
    | nil =>
      rcases this with rfl | rfl | rfl | rfl | rfl | rfl <;>
        simp [startsWith, List.isPrefixOf] at hst
      · exact ha.1 hst.1.symm
      · exact np (by rw [← hst.1])
      · exact nm (by rw [← hst.1])
      · exact ha.2 hst.1.symm
      · exact np (by rw [← hst.1])
      · exact nm (by rw [← hst.1])
    | cons b t =>
      have hb := hi b (hc b (by simp))
      rcases this with rfl | rfl | rfl | rfl | rfl | rfl <;>
        simp [startsWith, List.isPrefixOf] at hst
      · exact ha.1 hst.1.symm
      · exact hb.1 hst.2.1.symm
      · exact hb.1 hst.2.1.symm
      · exact ha.2 hst.1.symm
      · exact hb.2 hst.2.1.symm
      · exact hb.2 hst.2.1.symm

/-- Evaluation of `float` on a literal. -/
theorem float_unfold (tg : FloatTarget) {s : St} {t r : Text} (hs : s.rest = t ++ r) (h : FloatRun t r) :
    float tg s = (if startsWith s.rest ['_'] then fail .underscoreAtBeginning
      else match floatStrip t 0 false with
      | .error i => do
        advance i
        fail .floatUnderscore
      | .ok f => do
        let plain : P Number := do
          let v ← tg.parse f
          advance t.length
          pure v
        if startsWith r ['f'] then
          let backup ← cursor
          advance t.length
          let which ← (do
            if ← consumeIdent c!"f32" then pure (some true)
            else if ← consumeIdent c!"f64" then pure (some false)
            else pure none : P (Option Bool))
          match which with
          | some is32 =>
            let parsed := if is32 then (Env.parse32 f).map Number.f32 else (Env.parse64 f).map Number.f64
            match parsed with
            | none =>
              setCursor backup
              fail .expectedFloat
            | some v =>
              let s' ← getSt
              tg.tryFrom v (backup.rest.take (backup.rest.length - s'.rest.length))
          | none =>
            setCursor backup
            plain
        else plain) s := by
  unfold float
  rw [bind_apply, floatSpecial_none tg (by rw [hs]; exact h.noSpecial)]
  simp only
  rw [getSt_bind]
  have e : (findSub c!".." (s.rest.takeWhile isFloatChar)).getD (s.rest.takeWhile isFloatChar).length = t.length := by
    have := h.len
    rw [← hs] at this
    exact this
  simp only [e]
  have h0 : (t.length == 0) = false := by
    have := h.ne
    cases t with
    | nil => exact absurd rfl this
    | cons => rfl
  simp only [h0, Bool.false_eq_true, ↓reduceIte]
  rw [show s.rest.take t.length = t by rw [hs]; simp, show s.rest.drop t.length = r by rw [hs]; simp]
  rfl

/-- An unsuffixed literal. -/
theorem float_plain (tg : FloatTarget) {s : St} {t r : Text} (hs : s.rest = t ++ r) (h : FloatRun t r) (hu : UnderscoresOk t)
    (hf : ∀ r', r ≠ 'f' :: r') :
    float tg s = match tg.parse (plainFloat t) s with
      | .ok v _ => .ok v { s with prev := s.rest, rest := r }
      | .err e s' => .err e s' := by
  rw [float_unfold tg hs h, floatStrip_ok hu]
  have h1 : startsWith s.rest ['_'] = false := by rw [hs]; exact hu.head h.ne
  have h2 : startsWith r ['f'] = false := by
    rw [Bool.eq_false_iff]
    intro hst
    obtain ⟨q, hq⟩ := (startsWith_iff _ _).mp hst
    exact hf q hq
  simp only [h1, h2, Bool.false_eq_true, ↓reduceIte]
  have hp : ∀ f s, (∃ v, tg.parse f s = .ok v s) ∨ (∃ e, tg.parse f s = .err e s) := by
    intro f s
    unfold FloatTarget.parse
    cases tg with
    | f32 => cases Env.parse32 f with
      | none => exact .inr ⟨_, rfl⟩
      | some => exact .inl ⟨_, rfl⟩
    | f64 => cases Env.parse64 f with
      | none => exact .inr ⟨_, rfl⟩
      | some => exact .inl ⟨_, rfl⟩
    | any => cases Env.parse64 f with
      | none => exact .inr ⟨_, rfl⟩
      | some b =>
        simp only
        split
        · exact .inl ⟨_, rfl⟩
        · exact .inl ⟨_, rfl⟩
  rw [bind_apply]
  rcases hp (plainFloat t) s with ⟨v, hv⟩ | ⟨e, he⟩
  · rw [hv]
    have hb : t.length ≤ s.rest.length := by rw [hs]; simp
    simp only [bind_apply, advance_ok hb, pure_apply]
    rw [show s.rest.drop t.length = r by rw [hs]; simp]
  · rw [he]


/-- The suffix of a float. -/
def floatSuffix (is32 : Bool) : Text := if is32 then c!"f32" else c!"f64"

omit [Env] in
theorem floatSuffix_run {t r : Text} {is32 : Bool} (h1 : t ≠ []) (h2 : t ≠ ['+']) (h3 : t ≠ ['-']) (h4 : ∀ c ∈ t, c ∈ floatAlphabet)
    (h5 : ¬ (c!".." <:+: t)) : FloatRun t (floatSuffix is32 ++ r) :=
  ⟨h1, h2, h3, h4, h5, .inl fun c r' e => by
    unfold floatSuffix at e
    cases is32 <;> simp at e <;> rw [← e.1] <;> decide⟩

/-- A suffixed literal. -/
theorem float_suffixed (tg : FloatTarget) {s : St} {t r : Text} {is32 : Bool} (hs : s.rest = t ++ (floatSuffix is32 ++ r))
    (h : FloatRun t (floatSuffix is32 ++ r)) (hu : UnderscoresOk t) (hr : NoIdentStart r) :
    ∃ s', s'.rest = r ∧ KeepsW s s' ∧
    match (if is32 then (Env.parse32 (plainFloat t)).map Number.f32 else (Env.parse64 (plainFloat t)).map Number.f64) with
    | none => ∃ s'', float tg s = .err .expectedFloat s''
    | some v => float tg s = tg.tryFrom v (t ++ floatSuffix is32) s' := by
  have h1 : startsWith s.rest ['_'] = false := by rw [hs]; exact hu.head h.ne
  have h2 : startsWith (floatSuffix is32 ++ r) ['f'] = true := by cases is32 <;> simp [floatSuffix]
  have hd : s.rest.drop t.length = floatSuffix is32 ++ r := by rw [hs]; simp
  refine ⟨{ s with prev := floatSuffix is32 ++ r, rest := r }, rfl, .step _ _ _, ?_⟩
  have key := float_unfold tg hs h
  rw [floatStrip_ok hu] at key
  simp only [h1, h2, Bool.false_eq_true, ↓reduceIte] at key
  rw [bind_apply, cursor_apply] at key
  simp only at key
  rw [bind_apply, advance_ok (show t.length ≤ s.rest.length by rw [hs]; simp)] at key
  simp only [hd] at key
  have hlen : s.rest.length - r.length = (t ++ floatSuffix is32).length := by rw [hs]; simp; omega
  have htake : s.rest.take (s.rest.length - r.length) = t ++ floatSuffix is32 := by
    rw [hlen, hs, ← List.append_assoc, List.take_left]
  cases is32 with
  | true =>
    have hc := consumeIdent_true (s := { s with prev := s.rest, rest := floatSuffix true ++ r }) (t := c!"f32") (r := r) rfl hr
    simp only [bind_apply, hc, ↓reduceIte, pure_apply] at key
    simp only [↓reduceIte]
    cases hp : Env.parse32 (plainFloat t) with
    | none => rw [hp] at key; simp only [Option.map_none] at key ⊢; exact ⟨_, key⟩
    | some v =>
      rw [hp] at key
      simp only [Option.map_some, bind_apply, getSt_apply, htake] at key ⊢
      exact key
  | false =>
    have hc0 : consumeIdent c!"f32" { s with prev := s.rest, rest := floatSuffix false ++ r } = .ok false _ :=
      consumeIdent_false (.inl (by simp [floatSuffix, startsWith, List.isPrefixOf]))
    have hc := consumeIdent_true (s := { s with prev := s.rest, rest := floatSuffix false ++ r }) (t := c!"f64") (r := r) rfl hr
    simp only [bind_apply, hc0, hc, ↓reduceIte, pure_apply, Bool.false_eq_true] at key
    simp only [↓reduceIte, Bool.false_eq_true]
    cases hp : Env.parse64 (plainFloat t) with
    | none => rw [hp] at key; simp only [Option.map_none] at key ⊢; exact ⟨_, key⟩
    | some v =>
      rw [hp] at key
      simp only [Option.map_some, bind_apply, getSt_apply, htake] at key ⊢
      exact key

/-- A misplaced underscore. -/
theorem float_underscore (tg : FloatTarget) {s : St} {t r : Text} (hs : s.rest = t ++ r) (h : FloatRun t r) (hu : ¬ UnderscoresOk t) :
    ∃ e s', float tg s = .err e s' ∧ (e = .underscoreAtBeginning ∨ e = .floatUnderscore) := by
  rw [float_unfold tg hs h]
  obtain ⟨j, hj, hjl⟩ := floatStrip_bad hu 0
  rw [hj]
  have hb : j ≤ s.rest.length := by rw [hs]; simp; omega
  by_cases h1 : startsWith s.rest ['_'] = true
  · rw [if_pos h1]; exact ⟨_, _, rfl, .inl rfl⟩
  · rw [if_neg h1]
    simp only [bind_apply, advance_ok hb]
    exact ⟨_, _, rfl, .inr rfl⟩

end Ron
