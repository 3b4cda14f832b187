import Verif.Lemmas.Float
import Verif.Lemmas.Digits
/-! Floats as the serializer writes them. -/

set_option linter.unusedSimpArgs false

namespace Ron

/-- Payloads of NaNs are not written, only their sign. -/
def F32.canon (b : F32) : F32 := if b.isNan then (if b.isNeg then F32.negNan else F32.nan) else b
def F64.canon (b : F64) : F64 := if b.isNan then (if b.isNeg then F64.negNan else F64.nan) else b

theorem F32.inf_cases {b : F32} (h : b.isInf = true) : (b = F32.inf ∧ b.isNeg = false) ∨ (b = F32.negInf ∧ b.isNeg = true) := by
  unfold F32.isInf at h
  simp only [beq_iff_eq] at h
  have hb := b.isLt
  have : b.toNat = 0x7F800000 ∨ b.toNat = 0xFF800000 := by omega
  rcases this with e | e
  · left; refine ⟨BitVec.eq_of_toNat_eq e, ?_⟩; simp [F32.isNeg, e]
  · right; refine ⟨BitVec.eq_of_toNat_eq e, ?_⟩; simp [F32.isNeg, e]

theorem F64.inf_cases {b : F64} (h : b.isInf = true) : (b = F64.inf ∧ b.isNeg = false) ∨ (b = F64.negInf ∧ b.isNeg = true) := by
  unfold F64.isInf at h
  simp only [beq_iff_eq] at h
  have hb := b.isLt
  have : b.toNat = 0x7FF0000000000000 ∨ b.toNat = 0xFFF0000000000000 := by omega
  rcases this with e | e
  · left; refine ⟨BitVec.eq_of_toNat_eq e, ?_⟩; simp [F64.isNeg, e]
  · right; refine ⟨BitVec.eq_of_toNat_eq e, ?_⟩; simp [F64.isNeg, e]

theorem F32.nan_integral {b : F32} (h : b.isNan = true) : b.integral = false := by
  unfold F32.isNan at h
  simp only [decide_eq_true_eq] at h
  have hb := b.isLt
  unfold F32.integral
  have : b.toNat / 2 ^ 23 % 2 ^ 8 = 255 := by omega
  simp [this]

theorem F64.nan_integral {b : F64} (h : b.isNan = true) : b.integral = false := by
  unfold F64.isNan at h
  simp only [decide_eq_true_eq] at h
  have hb := b.isLt
  unfold F64.integral
  have : b.toNat / 2 ^ 52 % 2 ^ 11 = 2047 := by omega
  simp [this]

variable [Env]

/-- What the serializer writes for a float, without suffix. -/
def f32Text (b : F32) : Text :=
  (if b.isNan && b.isNeg then ['-'] else []) ++ Env.fmt32 b ++ (if b.integral then c!".0" else [])
def f64Text (b : F64) : Text :=
  (if b.isNan && b.isNeg then ['-'] else []) ++ Env.fmt64 b ++ (if b.integral then c!".0" else [])

theorem serF32_quiet {s : Ser} (h : s.Quiet) (b : F32) :
    serF32 b s = .ok () (s.put (f32Text b ++ (if s.numberSuffixes then floatSuffix true else []))) := by
  unfold serF32 f32Text floatSuffix
  cases (b.isNan && b.isNeg) <;> cases b.integral <;> cases hx : s.numberSuffixes <;>
    simp [wbind_apply, write_quiet h, write_quiet (h.put _), hx]

theorem serF64_quiet {s : Ser} (h : s.Quiet) (b : F64) :
    serF64 b s = .ok () (s.put (f64Text b ++ (if s.numberSuffixes then floatSuffix false else []))) := by
  unfold serF64 f64Text floatSuffix
  cases (b.isNan && b.isNeg) <;> cases b.integral <;> cases hx : s.numberSuffixes <;>
    simp [wbind_apply, write_quiet h, write_quiet (h.put _), hx]

omit [Env] in
/-- A plain decimal literal: optional minus sign, digits, point, digits. -/
def Decimal (t : Text) : Prop := ∃ sg ip fp, (sg = [] ∨ sg = ['-']) ∧ IsDigits ip ∧ IsDigits fp ∧ t = sg ++ ip ++ '.' :: fp

/-- The text of a float and what the standard parser makes of it. -/
theorem f32Text_form (b : F32) :
    (Decimal (f32Text b) ∧ Env.parse32 (f32Text b) = some b ∧ b.isNan = false ∧ b.isInf = false) ∨
    (f32Text b ∈ [c!"inf", c!"-inf", c!"NaN", c!"-NaN"] ∧ Env.parse32 (f32Text b) = some b.canon ∧
      ∃ v64, (f32Text b, b.canon, v64) ∈ floatLiterals ∧ Env.parse64 (f32Text b) = some v64 ∧ Env.narrow v64 = b.canon ∧
        Env.widen b.canon = v64 ∧ (b.isNan || b.isInf) = true) := by
  by_cases hn : b.isNan = true
  · right
    have hi := F32.nan_integral hn
    unfold f32Text F32.canon
    cases hs : b.isNeg <;> simp only [hn, hi, hs, Bool.and_false, Bool.and_true, Bool.false_eq_true, ↓reduceIte, Env.fmt32_nan b hn,
      List.nil_append, List.append_nil, List.cons_append]
    · exact ⟨by simp, Env.parse32_nan.1, F64.nan, by simp [floatLiterals], Env.parse64_nan.1, Env.narrow_special.2.2.1, Env.widen_special.2.2.1, rfl⟩
    · exact ⟨by simp, Env.parse32_nan.2.2, F64.negNan, by simp [floatLiterals], Env.parse64_nan.2.2, Env.narrow_special.2.2.2, Env.widen_special.2.2.2, rfl⟩
  · have hn : b.isNan = false := by simpa using hn
    by_cases hi : b.isInf = true
    · right
      have hc : b.canon = b := by simp [F32.canon, hn]
      rw [hc]
      rcases F32.inf_cases hi with ⟨rfl, -⟩ | ⟨rfl, -⟩
      · have : f32Text F32.inf = c!"inf" := by
          unfold f32Text; rw [Env.fmt32_inf.1]; decide
        rw [this]
        exact ⟨by simp, Env.parse32_inf.1, F64.inf, by simp [floatLiterals], Env.parse64_inf.1, Env.narrow_special.1, Env.widen_special.1, by simp [hi]⟩
      · have : f32Text F32.negInf = c!"-inf" := by
          unfold f32Text; rw [Env.fmt32_inf.2]; decide
        rw [this]
        exact ⟨by simp, Env.parse32_inf.2.2, F64.negInf, by simp [floatLiterals], Env.parse64_inf.2.2, Env.narrow_special.2.1, Env.widen_special.2.1, by simp [hi]⟩
    · have hi : b.isInf = false := by simpa using hi
      left
      have e : f32Text b = Env.fmt32 b ++ (if b.integral then ['.', '0'] else []) := by simp [f32Text, hn]
      refine ⟨?_, by rw [e]; exact Env.parse32_fmt b hn hi, hn, hi⟩
      obtain ⟨ip, fp, h1, h2, h3⟩ := Env.fmt32_finite b hn hi
      refine ⟨if b.isNeg then ['-'] else [], ip, if b.integral then ['0'] else fp, by cases b.isNeg <;> simp, h1, ?_, ?_⟩
      · cases b.integral
        · exact h2
        · exact ⟨by simp, by simp; decide⟩
      · rw [e, h3]
        cases b.integral <;> simp

theorem f64Text_form (b : F64) :
    (Decimal (f64Text b) ∧ Env.parse64 (f64Text b) = some b ∧ b.isNan = false ∧ b.isInf = false) ∨
    (f64Text b ∈ [c!"inf", c!"-inf", c!"NaN", c!"-NaN"] ∧ Env.parse64 (f64Text b) = some b.canon ∧
      ∃ v32, (f64Text b, v32, b.canon) ∈ floatLiterals ∧ Env.narrow b.canon = v32 ∧ Env.widen v32 = b.canon) := by
  by_cases hn : b.isNan = true
  · right
    have hi := F64.nan_integral hn
    unfold f64Text F64.canon
    cases hs : b.isNeg <;> simp only [hn, hi, hs, Bool.and_false, Bool.and_true, Bool.false_eq_true, ↓reduceIte, Env.fmt64_nan b hn,
      List.nil_append, List.append_nil, List.cons_append]
    · exact ⟨by simp, Env.parse64_nan.1, F32.nan, by simp [floatLiterals], Env.narrow_special.2.2.1, Env.widen_special.2.2.1⟩
    · exact ⟨by simp, Env.parse64_nan.2.2, F32.negNan, by simp [floatLiterals], Env.narrow_special.2.2.2, Env.widen_special.2.2.2⟩
  · have hn : b.isNan = false := by simpa using hn
    by_cases hi : b.isInf = true
    · right
      have hc : b.canon = b := by simp [F64.canon, hn]
      rw [hc]
      rcases F64.inf_cases hi with ⟨rfl, -⟩ | ⟨rfl, -⟩
      · have : f64Text F64.inf = c!"inf" := by
          unfold f64Text; rw [Env.fmt64_inf.1]; decide
        rw [this]
        exact ⟨by simp, Env.parse64_inf.1, F32.inf, by simp [floatLiterals], Env.narrow_special.1, Env.widen_special.1⟩
      · have : f64Text F64.negInf = c!"-inf" := by
          unfold f64Text; rw [Env.fmt64_inf.2]; decide
        rw [this]
        exact ⟨by simp, Env.parse64_inf.2.2, F32.negInf, by simp [floatLiterals], Env.narrow_special.2.1, Env.widen_special.2.1⟩
    · have hi : b.isInf = false := by simpa using hi
      left
      have e : f64Text b = Env.fmt64 b ++ (if b.integral then ['.', '0'] else []) := by simp [f64Text, hn]
      refine ⟨?_, by rw [e]; exact Env.parse64_fmt b hn hi, hn, hi⟩
      obtain ⟨ip, fp, h1, h2, h3⟩ := Env.fmt64_finite b hn hi
      refine ⟨if b.isNeg then ['-'] else [], ip, if b.integral then ['0'] else fp, by cases b.isNeg <;> simp, h1, ?_, ?_⟩
      · cases b.integral
        · exact h2
        · exact ⟨by simp, by simp; decide⟩
      · rw [e, h3]
        cases b.integral <;> simp

/-! ### Decimal literals -/

omit [Env] in
theorem digit_alphabet {c : Char} (h : isDigit c = true) : c ∈ floatAlphabet ∧ c ≠ '.' ∧ c ≠ '_' ∧ c ≠ '-' ∧ c ≠ '+' := by
  refine ⟨(floatAlphabet_iff c).mp (digit_float h).1, ?_, ?_, ?_, ?_⟩ <;> (rintro rfl; revert h; decide)

omit [Env] in
theorem Decimal.base {t : Text} (h : Decimal t) : t ≠ [] ∧ t ≠ ['+'] ∧ t ≠ ['-'] ∧ (∀ c ∈ t, c ∈ floatAlphabet) ∧
    ¬ (c!".." <:+: t) ∧ '_' ∉ t ∧ (∀ p, t ≠ p ++ ['.']) := by
  obtain ⟨sg, ip, fp, h1, h2, h3, rfl⟩ := h
  have hdot : ∀ c ∈ fp, c ≠ '.' := fun c hc => (digit_alphabet (h3.2 c hc)).2.1
  have hdot' : ∀ c ∈ sg ++ ip, c ≠ '.' := by
    intro c hc
    rcases List.mem_append.mp hc with hc | hc
    · rcases h1 with rfl | rfl
      · cases hc
      · simp at hc; subst hc; decide
    · exact (digit_alphabet (h2.2 c hc)).2.1
  refine ⟨by simp, ?_, ?_, ?_, ?_, ?_, ?_⟩
  · intro e
    have : '.' ∈ (['+'] : Text) := by rw [← e]; simp
    simp at this
  · intro e
    have : '.' ∈ (['-'] : Text) := by rw [← e]; simp
    simp at this
  · intro c hc
    simp only [List.mem_append, List.mem_cons] at hc
    rcases hc with (hc | hc) | rfl | hc
    · rcases h1 with rfl | rfl
      · cases hc
      · simp at hc; subst hc; decide
    · exact (digit_alphabet (h2.2 c hc)).1
    · decide
    · exact (digit_alphabet (h3.2 c hc)).1
  · rintro ⟨p, q, e⟩
    have hcount : (p ++ c!".." ++ q).count '.' = 1 := by
      rw [e, List.count_append, List.count_cons_self,
        List.count_eq_zero.mpr (fun h => hdot' _ h rfl), List.count_eq_zero.mpr (fun h => hdot _ h rfl)]
    simp [List.count_append, List.count_cons] at hcount
    omega
  · intro hc
    simp only [List.mem_append, List.mem_cons] at hc
    rcases hc with (hc | hc) | hc | hc
    · rcases h1 with rfl | rfl
      · cases hc
      · simp at hc
    · exact (digit_alphabet (h2.2 _ hc)).2.2.1 rfl
    · cases hc
    · exact (digit_alphabet (h3.2 _ hc)).2.2.1 rfl
  · intro p e
    have hl : (sg ++ ip ++ '.' :: fp).getLast? = some '.' := by rw [e]; simp
    cases hf : fp.reverse with
    | nil => simp at hf; exact h3.1 hf
    | cons c u =>
      have : fp = u.reverse ++ [c] := by
        have := congrArg List.reverse hf
        simpa using this
      rw [this] at hl
      have : (sg ++ ip ++ '.' :: (u.reverse ++ [c])).getLast? = some c := by
        rw [show sg ++ ip ++ '.' :: (u.reverse ++ [c]) = (sg ++ ip ++ '.' :: u.reverse) ++ [c] by simp]
        exact List.getLast?_concat
      rw [this] at hl
      exact hdot c (by simp [*]) (by simpa using hl)

theorem NumFollow.alphabet {r : Text} (h : NumFollow r) : (∀ c r', r = c :: r' → c ∉ floatAlphabet) ∨ c!".." <+: r := by
  cases r with
  | nil => left; intro c r' e; cases e
  | cons c r =>
    rcases h.2 c r rfl with ⟨h1, h2, h3⟩ | ⟨r'', hr⟩
    · left
      intro d r' e
      simp only [List.cons.injEq] at e
      obtain ⟨rfl, -⟩ := e
      intro hm
      have hx := h.1 c r rfl
      rcases isFloatChar_cases ((floatAlphabet_iff c).mpr hm) with h | h | h | h | h | h | h
      · rw [digit_cont h] at hx; cases hx
      · subst h; rw [xid_cont_ascii (by decide)] at hx; cases hx
      · subst h; rw [xid_cont_ascii (by decide)] at hx; cases hx
      · exact h1 h
      · exact h2 h
      · exact h3 h
      · subst h; rw [xid_cont_ascii (by decide)] at hx; cases hx
    · right
      rw [hr]; exact ⟨r'', rfl⟩

theorem Decimal.run {t r : Text} (h : Decimal t) (hr : NumFollow r) : FloatRun t r := by
  obtain ⟨h1, h2, h3, h4, h5, h6, h7⟩ := h.base
  refine ⟨h1, h2, h3, h4, h5, ?_⟩
  rcases hr.alphabet with h | h
  · exact .inl h
  · exact .inr ⟨h, h7⟩

omit [Env] in
theorem Decimal.runS {t r : Text} (h : Decimal t) (is32 : Bool) : FloatRun t (floatSuffix is32 ++ r) := by
  obtain ⟨h1, h2, h3, h4, h5, -⟩ := h.base
  exact floatSuffix_run h1 h2 h3 h4 h5

omit [Env] in
theorem Decimal.under {t : Text} (h : Decimal t) : UnderscoresOk t := by
  intro p q e
  exact absurd (by rw [e]; simp) h.base.2.2.2.2.2.1

omit [Env] in
theorem Decimal.plain {t : Text} (h : Decimal t) : plainFloat t = t := by
  unfold plainFloat
  rw [List.filter_eq_self]
  intro c hc
  have := h.base.2.2.2.2.2.1
  simp only [bne_iff_ne, ne_eq]
  rintro rfl; exact this hc

theorem NumFollow.not_f {r : Text} (h : NumFollow r) : ∀ r', r ≠ 'f' :: r' := by
  rintro r' rfl
  have := h.1 _ _ rfl
  rw [xid_cont_ascii (by decide)] at this; cases this

theorem float_decimal32 {s : St} {t r : Text} {b : F32} (hs : s.rest = t ++ r) (h : Decimal t) (hr : NumFollow r)
    (hp : Env.parse32 t = some b) : RunsW (float .f32) s (.f32 b) r := by
  refine ⟨{ s with prev := s.rest, rest := r }, ?_, rfl, .step _ _ _⟩
  rw [float_plain .f32 hs (h.run hr) h.under hr.not_f, h.plain]
  unfold FloatTarget.parse
  rw [hp]; rfl

theorem float_decimal64 {s : St} {t r : Text} {b : F64} (hs : s.rest = t ++ r) (h : Decimal t) (hr : NumFollow r)
    (hp : Env.parse64 t = some b) : RunsW (float .f64) s (.f64 b) r := by
  refine ⟨{ s with prev := s.rest, rest := r }, ?_, rfl, .step _ _ _⟩
  rw [float_plain .f64 hs (h.run hr) h.under hr.not_f, h.plain]
  unfold FloatTarget.parse
  rw [hp]; rfl

/-- The number a double stands for in untyped position. -/
def untypedFloat (b : F64) : Number := if Env.widen (Env.narrow b) = b then .f32 (Env.narrow b) else .f64 b

theorem float_decimalAny {s : St} {t r : Text} {b : F64} (hs : s.rest = t ++ r) (h : Decimal t) (hr : NumFollow r)
    (hp : Env.parse64 t = some b) : RunsW (float .any) s (untypedFloat b) r := by
  refine ⟨{ s with prev := s.rest, rest := r }, ?_, rfl, .step _ _ _⟩
  rw [float_plain .any hs (h.run hr) h.under hr.not_f, h.plain]
  unfold FloatTarget.parse untypedFloat
  simp only [hp]
  by_cases hw : Env.widen (Env.narrow b) = b
  · simp only [if_pos hw]; rfl
  · simp only [if_neg hw]; rfl

theorem float_decimalS32 (tg : FloatTarget) {s : St} {t r : Text} {b : F32} (hs : s.rest = t ++ (floatSuffix true ++ r))
    (h : Decimal t) (hr : NoIdentStart r) (hp : Env.parse32 t = some b) (htg : tg = .f32 ∨ tg = .any) :
    RunsW (float tg) s (.f32 b) r := by
  obtain ⟨s', h1, h2, h3⟩ := float_suffixed tg hs (h.runS true) h.under hr
  rw [h.plain, hp] at h3
  simp only [↓reduceIte, Option.map_some] at h3
  refine ⟨s', ?_, h1, h2⟩
  rw [h3]
  rcases htg with rfl | rfl <;> rfl

theorem float_decimalS64 (tg : FloatTarget) {s : St} {t r : Text} {b : F64} (hs : s.rest = t ++ (floatSuffix false ++ r))
    (h : Decimal t) (hr : NoIdentStart r) (hp : Env.parse64 t = some b) (htg : tg = .f64 ∨ tg = .any) :
    RunsW (float tg) s (.f64 b) r := by
  obtain ⟨s', h1, h2, h3⟩ := float_suffixed tg hs (h.runS false) h.under hr
  rw [h.plain, hp] at h3
  simp only [↓reduceIte, Option.map_some, Bool.false_eq_true] at h3
  refine ⟨s', ?_, h1, h2⟩
  rw [h3]
  rcases htg with rfl | rfl <;> rfl

/-! ### Special literals -/

omit [Env] in
theorem startsWith_append_append (a b c : Text) : startsWith (a ++ b) (a ++ c) = startsWith b c := by
  induction a with
  | nil => rfl
  | cons x a ih => simpa [startsWith, List.isPrefixOf] using ih

/-- The loop over the table finds its entry. -/
theorem floatSpecial_skip (tg : FloatTarget) {s : St} {pre post : List (Text × F32 × F64)}
    (h : ∀ x ∈ pre, startsWith s.rest x.1 = false) : floatSpecial tg (pre ++ post) s = floatSpecial tg post s := by
  induction pre with
  | nil => rfl
  | cons x l ih =>
    obtain ⟨lit, v32, v64⟩ := x
    have h0 : startsWith s.rest lit = false := h (lit, v32, v64) (by simp)
    have ext : ∀ u, startsWith s.rest (lit ++ u) = false := by
      intro u
      rw [Bool.eq_false_iff]
      intro h
      obtain ⟨r, hr⟩ := (startsWith_iff _ _).mp h
      rw [hr, List.append_assoc] at h0
      simp at h0
    rw [List.cons_append, floatSpecial, bind_apply, consumeIdent_false (.inl h0)]
    simp only [Bool.false_eq_true, ↓reduceIte, bind_apply, getSt_apply, ext, Bool.false_and]
    exact ih fun x hx => h x (by simp [hx])

theorem floatSpecial_plain (tg : FloatTarget) {s : St} {lit r : Text} {v32 : F32} {v64 : F64} {v : Number}
    (hm : (lit, v32, v64) ∈ floatLiterals) (hs : s.rest = lit ++ r) (hr : NoIdentStart r)
    (hv : ∀ s, tg.parse lit s = .ok v s) :
    floatSpecial tg floatLiterals s = .ok (some v) { s with prev := s.rest, rest := r } := by
  have key : ∃ pre post, floatLiterals = pre ++ (lit, v32, v64) :: post ∧ ∀ x ∈ pre, startsWith s.rest x.1 = false := by
    rw [hs]
    simp only [floatLiterals, List.mem_cons, List.not_mem_nil, or_false, Prod.mk.injEq] at hm
    rcases hm with ⟨rfl, rfl, rfl⟩ | ⟨rfl, rfl, rfl⟩ | ⟨rfl, rfl, rfl⟩ | ⟨rfl, rfl, rfl⟩ | ⟨rfl, rfl, rfl⟩ | ⟨rfl, rfl, rfl⟩
    · exact ⟨[], _, rfl, by simp⟩
    · exact ⟨floatLiterals.take 1, _, rfl, by simp [floatLiterals]⟩
    · exact ⟨floatLiterals.take 2, _, rfl, by simp [floatLiterals]⟩
    · exact ⟨floatLiterals.take 3, _, rfl, by simp [floatLiterals]⟩
    · exact ⟨floatLiterals.take 4, _, rfl, by simp [floatLiterals]⟩
    · exact ⟨floatLiterals.take 5, _, rfl, by simp [floatLiterals]⟩
  obtain ⟨pre, post, e, hp⟩ := key
  rw [e, floatSpecial_skip tg hp, floatSpecial, bind_apply, consumeIdent_true hs hr]
  simp only [↓reduceIte, bind_apply, hv, pure_apply]

theorem floatSpecial_suffixed (tg : FloatTarget) {s : St} {lit r : Text} {v32 : F32} {v64 : F64} {v : Number} {is32 : Bool}
    (hm : (lit, v32, v64) ∈ floatLiterals) (hs : s.rest = lit ++ (floatSuffix is32 ++ r)) (hr : NoIdentStart r)
    (hv : ∀ s ron, tg.tryFrom (if is32 then .f32 v32 else .f64 v64) ron s = .ok v s) :
    floatSpecial tg floatLiterals s = .ok (some v) { s with prev := s.rest, rest := r } := by
  have key : ∃ pre post, floatLiterals = pre ++ (lit, v32, v64) :: post ∧ ∀ x ∈ pre, startsWith s.rest x.1 = false := by
    rw [hs]
    simp only [floatLiterals, List.mem_cons, List.not_mem_nil, or_false, Prod.mk.injEq] at hm
    rcases hm with ⟨rfl, rfl, rfl⟩ | ⟨rfl, rfl, rfl⟩ | ⟨rfl, rfl, rfl⟩ | ⟨rfl, rfl, rfl⟩ | ⟨rfl, rfl, rfl⟩ | ⟨rfl, rfl, rfl⟩
    · exact ⟨[], _, rfl, by simp⟩
    · exact ⟨floatLiterals.take 1, _, rfl, by simp [floatLiterals]⟩
    · exact ⟨floatLiterals.take 2, _, rfl, by simp [floatLiterals]⟩
    · exact ⟨floatLiterals.take 3, _, rfl, by simp [floatLiterals]⟩
    · exact ⟨floatLiterals.take 4, _, rfl, by simp [floatLiterals]⟩
    · exact ⟨floatLiterals.take 5, _, rfl, by simp [floatLiterals]⟩
  obtain ⟨pre, post, e, hp⟩ := key
  have hx : headXid (s.rest.drop lit.length) = true := by
    rw [hs, List.drop_left]
    cases is32 <;> exact xid_cont_ascii (by decide)
  have hd : s.rest.drop (lit.length + 3) = r := by
    rw [hs, ← List.append_assoc, show lit.length + 3 = (lit ++ floatSuffix is32).length by cases is32 <;> simp [floatSuffix], List.drop_left]
  have hb : lit.length + 3 ≤ s.rest.length := by rw [hs]; cases is32 <;> simp [floatSuffix] <;> omega
  have hr' : headXid r = false := headXid_false.mpr hr
  rw [e, floatSpecial_skip tg hp, floatSpecial, bind_apply, consumeIdent_false (.inr hx)]
  simp only [Bool.false_eq_true, ↓reduceIte, bind_apply, getSt_apply, hd, hr', Bool.not_false, Bool.and_true]
  have h32 : startsWith s.rest (lit ++ c!"f32") = is32 := by
    rw [hs]; rw [startsWith_append_append]; cases is32 <;> rfl
  have h64 : startsWith s.rest (lit ++ c!"f64") = !is32 := by
    rw [hs]; rw [startsWith_append_append]; cases is32 <;> rfl
  cases is32 with
  | true =>
    simp only [h32, ↓reduceIte, bind_apply, advance_ok hb, hd, hv, pure_apply]
    simp only [↓reduceIte] at hv
    simp only [hv]
  | false =>
    simp only [h32, h64, Bool.not_false, Bool.false_eq_true, ↓reduceIte, bind_apply, advance_ok hb, hd, pure_apply]
    simp only [Bool.false_eq_true, ↓reduceIte] at hv
    simp only [hv]

theorem float_special (tg : FloatTarget) {s : St} {v : Number} {r : Text}
    (h : floatSpecial tg floatLiterals s = .ok (some v) { s with prev := s.rest, rest := r }) : RunsW (float tg) s v r := by
  refine ⟨{ s with prev := s.rest, rest := r }, ?_, rfl, .step _ _ _⟩
  unfold float
  rw [bind_apply, h]
  rfl


/-! ### Reading floats back -/

theorem parse_special32 {b : F32} {lit : Text} (h : Env.parse32 lit = some b) (s : St) : FloatTarget.parse .f32 lit s = .ok (.f32 b) s := by
  unfold FloatTarget.parse; rw [h]; rfl
theorem parse_special64 {b : F64} {lit : Text} (h : Env.parse64 lit = some b) (s : St) : FloatTarget.parse .f64 lit s = .ok (.f64 b) s := by
  unfold FloatTarget.parse; rw [h]; rfl
theorem parse_specialAny {b : F64} {lit : Text} (h : Env.parse64 lit = some b) (s : St) :
    FloatTarget.parse .any lit s = .ok (untypedFloat b) s := by
  unfold FloatTarget.parse untypedFloat; simp only [h]; split <;> rfl

/-- A float at its own type. -/
theorem float_read32 (b : F32) (sfx : Bool) {s : St} {r : Text}
    (hs : s.rest = f32Text b ++ ((if sfx then floatSuffix true else []) ++ r)) (hr : NumFollow r) :
    RunsW (float .f32) s (.f32 b.canon) r := by
  rcases f32Text_form b with ⟨h1, h2, h3, h4⟩ | ⟨-, h2, v64, h3, h4, h5, h6, -⟩
  · have : b.canon = b := by simp [F32.canon, h3]
    rw [this]
    cases sfx with
    | true => exact float_decimalS32 .f32 hs h1 hr.1 h2 (.inl rfl)
    | false => exact float_decimal32 hs h1 hr h2
  · cases sfx with
    | true => exact float_special _ (floatSpecial_suffixed (is32 := true) .f32 h3 hs hr.1 (fun _ _ => rfl))
    | false => exact float_special _ (floatSpecial_plain .f32 h3 hs hr.1 (parse_special32 h2))

theorem float_read64 (b : F64) (sfx : Bool) {s : St} {r : Text}
    (hs : s.rest = f64Text b ++ ((if sfx then floatSuffix false else []) ++ r)) (hr : NumFollow r) :
    RunsW (float .f64) s (.f64 b.canon) r := by
  rcases f64Text_form b with ⟨h1, h2, h3, h4⟩ | ⟨-, h2, v64, h3, h4, h5⟩
  · have : b.canon = b := by simp [F64.canon, h3]
    rw [this]
    cases sfx with
    | true => exact float_decimalS64 .f64 hs h1 hr.1 h2 (.inl rfl)
    | false => exact float_decimal64 hs h1 hr h2
  · cases sfx with
    | true => exact float_special _ (floatSpecial_suffixed (is32 := false) .f64 h3 hs hr.1 (fun _ _ => rfl))
    | false => exact float_special _ (floatSpecial_plain .f64 h3 hs hr.1 (parse_special64 h2))

omit [Env] in
theorem nextIsFloat_decimal {t r : Text} (h : Decimal t) (hl : floatLen (t ++ r) = t.length) : nextIsFloat (t ++ r) = true := by
  obtain ⟨sg, ip, fp, h1, h2, h3, rfl⟩ := h
  have hint : ∀ c ∈ ip, isIntChar c = true := by
    intro c hc
    have := h2.2 c hc
    simp only [isDigit, Bool.and_eq_true] at this
    simp [isIntChar, isHexDigit, this.1, this.2]
  have hw : whileLen isIntChar (ip ++ ('.' :: fp ++ r)) = ip.length := by
    rw [whileLen_append _ _ _ hint]
    simp [whileLen, show isIntChar '.' = false by decide]
  rcases h1 with rfl | rfl
  · cases hip : ip with
    | nil => exact absurd hip h2.1
    | cons c ip' =>
      have hc := digit_alphabet (h2.2 c (by rw [hip]; simp))
      rw [hip] at hw hl
      simp only [List.nil_append, List.append_assoc] at hl ⊢
      rw [List.cons_append, nextIsFloat_eq]
      simp only [beq_iff_eq, hc.2.2.2.1, hc.2.2.2.2, Bool.or_eq_true, or_self, ↓reduceIte]
      rw [List.cons_append, List.cons_append] at hw
      rw [List.cons_append, List.cons_append] at hl
      simp only [List.cons_append] at hl hw ⊢
      simp only [hl, hw]
      simp
  · simp only [List.cons_append, List.nil_append, List.append_assoc] at hl ⊢
    rw [floatLen_cons (by decide) (by decide)] at hl
    rw [nextIsFloat_eq]
    simp only [beq_self_eq_true, Bool.or_true, ↓reduceIte]
    rw [List.cons_append] at hw
    rw [hw]
    simp at hl ⊢
    omega

theorem anyNumber_float {s : St} {v : Number} {r : Text} (hi : startsWith s.rest ['i'] = false) (hn : startsWith s.rest ['N'] = false)
    (hf : nextIsFloat s.rest = true) (h : RunsW (float .any) s v r) : RunsW anyNumber s v r := by
  obtain ⟨s', h1, h2, h3⟩ := h
  refine ⟨s', ?_, h2, h3⟩
  rw [anyNumber_notSpecial hi hn]
  simp only [bind_apply, getSt_apply, hf, ↓reduceIte, h1]

omit [Env] in
theorem Decimal.start {t r : Text} (h : Decimal t) : startsWith (t ++ r) ['i'] = false ∧ startsWith (t ++ r) ['N'] = false := by
  obtain ⟨h1, -, -, h4, -⟩ := h.base
  cases t with
  | nil => exact absurd rfl h1
  | cons c t =>
    have := h4 c (by simp)
    constructor
    · rw [Bool.eq_false_iff]; intro hst; simp [startsWith, List.isPrefixOf] at hst; subst hst; revert this; decide
    · rw [Bool.eq_false_iff]; intro hst; simp [startsWith, List.isPrefixOf] at hst; subst hst; revert this; decide


theorem consumeSuffix_none {l : List IntTy} {s : St} (h : ∀ t : IntTy, startsWith s.rest t.suffix = false) :
    consumeSuffix l s = .ok none s := by
  induction l with
  | nil => rfl
  | cons t l ih =>
    unfold consumeSuffix
    rw [bind_apply, consumeIdent_false (.inl (h t))]
    simpa using ih

/-- `-inf` and `-NaN` are not integers. -/
theorem integer_minus_word {s : St} {u : Text} {x y : Char} (hs : s.rest = '-' :: x :: y :: u) (hx : x = 'i' ∧ y = 'n' ∨ x = 'N') :
    ∃ p, integer .any s = .err .expectedInteger { s with prev := p, rest := x :: y :: u } := by
  have hb : basePrefix { s with rest := x :: y :: u } = .ok 10 { s with rest := x :: y :: u } := by
    unfold basePrefix
    rw [bind_apply, consumeStr_false (by rcases hx with ⟨rfl, rfl⟩ | rfl <;> simp)]
    simp only [Bool.false_eq_true, ↓reduceIte]
    rw [bind_apply, consumeStr_false (by rcases hx with ⟨rfl, rfl⟩ | rfl <;> simp)]
    simp only [Bool.false_eq_true, ↓reduceIte]
    rw [bind_apply, consumeStr_false (by rcases hx with ⟨rfl, rfl⟩ | rfl <;> simp)]
    rfl
  have hw : whileLen isIntChar (x :: y :: u) = 0 := by
    rcases hx with ⟨rfl, rfl⟩ | rfl <;> simp [whileLen, show isIntChar 'i' = false by decide, show isIntChar 'N' = false by decide]
  have hp : ∀ p, IntTarget.parse .any true 10 { s with prev := p, rest := x :: y :: u } =
      .err .expectedInteger { s with prev := p, rest := x :: y :: u } := by
    intro p
    simp [IntTarget.parse, parseInteger, hw]
  have h1 : integer .any s = unsignedPart .any true s.rest { s with rest := x :: y :: u } := by
    unfold integer
    simp [peekCharOrEof, hs]
  rw [h1]
  unfold unsignedPart
  rw [bind_apply, hb]
  simp only [bind_apply, getSt_apply, hw, List.drop_zero]
  rcases hx with ⟨rfl, rfl⟩ | rfl
  · refine ⟨'i' :: 'n' :: u, ?_⟩
    simp only [startsWith_cons, beq_self_eq_true, Bool.true_and, startsWith_nil_right, Bool.true_or, ite_P, ↓reduceIte, bind_apply, cursor_apply,
      advance_ok (Nat.zero_le _), List.drop_zero]
    rw [consumeSuffix_none (by intro t; cases t <;> simp [IntTy.suffix])]
    simp only [bind_apply, setCursor_apply, hp]
  · refine ⟨s.prev, ?_⟩
    have := hp s.prev
    simpa using this

omit [Env] in
theorem nextIsFloat_minus_word {u : Text} {x : Char} (hx : x = 'i' ∨ x = 'N') : nextIsFloat ('-' :: x :: u) = false := by
  rw [nextIsFloat_eq]
  simp only [beq_self_eq_true, Bool.or_true, ↓reduceIte]
  have : floatLen (x :: u) = 0 := by
    rcases hx with rfl | rfl <;> exact floatLen_stop (by decide)
  simp [this]

/-- The special literals read without a target type. -/
theorem anyNumber_minus_word {s : St} {v : Number} {x y : Char} {u r : Text} (hs : s.rest = '-' :: x :: y :: u)
    (hx : x = 'i' ∧ y = 'n' ∨ x = 'N') (hl : r.length ≤ u.length)
    (h : ∀ s' : St, s'.rest = s.rest → floatSpecial .any floatLiterals s' = .ok (some v) { s' with prev := s'.rest, rest := r }) :
    RunsW anyNumber s v r := by
  obtain ⟨p, hp⟩ := integer_minus_word hs hx
  refine ⟨{ s with prev := s.rest, rest := r }, ?_, rfl, .step _ _ _⟩
  rw [anyNumber_notSpecial (by rw [hs]; simp) (by rw [hs]; simp)]
  have hnf : nextIsFloat s.rest = false := by
    rw [hs]; exact nextIsFloat_minus_word (by rcases hx with ⟨h, -⟩ | h <;> simp [h])
  simp only [bind_apply, getSt_apply, hnf, Bool.false_eq_true, ite_P, ↓reduceIte, cursor_apply, attempt_apply, hp, setCursor_apply]
  have hf : float .any { s with prev := p, rest := s.rest } = .ok v { s with prev := s.rest, rest := r } := by
    unfold float
    rw [bind_apply, h { s with prev := p, rest := s.rest } rfl]
    rfl
  simp only [hf, bind_apply, getSt_apply, ite_P]
  rw [if_pos (by simp; omega)]
  rfl

theorem anyNumber_consume {s : St} {w : Text} {v : Number} {r : Text}
    (hs : s.rest = w ++ r) (hr : NoIdentStart r)
    (hw : (w, v) ∈ [(c!"inf", Number.f32 F32.inf), (c!"inff32", .f32 F32.inf), (c!"inff64", .f64 F64.inf),
      (c!"NaN", .f32 F32.nan), (c!"NaNf32", .f32 F32.nan), (c!"NaNf64", .f64 F64.nan)]) :
    RunsW anyNumber s v r := by
  have hh : headXid r = false := headXid_false.mpr hr
  refine ⟨{ s with prev := s.rest, rest := r }, ?_, rfl, .step _ _ _⟩
  have key : ∀ (t : Text), startsWith s.rest t = false ∨ headXid (s.rest.drop t.length) = true → consumeIdent t s = .ok false s :=
    fun t h => consumeIdent_false h
  have ok := consumeIdent_true hs hr
  have hx : Env.xidCont 'f' = true := xid_cont_ascii (by decide)
  unfold anyNumber
  simp only [List.mem_cons, List.not_mem_nil, or_false, Prod.mk.injEq] at hw
  rcases hw with ⟨rfl, rfl⟩ | ⟨rfl, rfl⟩ | ⟨rfl, rfl⟩ | ⟨rfl, rfl⟩ | ⟨rfl, rfl⟩ | ⟨rfl, rfl⟩
  · simp [ok]
  · simp only [bind_apply, key c!"inf" (by right; simp [hs, headXid, hx]), Bool.false_eq_true, ↓reduceIte, ok, pure_apply]
  · simp only [bind_apply, key c!"inf" (by right; simp [hs, headXid, hx]), key c!"inff32" (by left; simp [hs]), Bool.false_eq_true, ↓reduceIte, ok, pure_apply]
  · simp only [bind_apply, key c!"inf" (by left; simp [hs]), key c!"inff32" (by left; simp [hs]), key c!"inff64" (by left; simp [hs]), Bool.false_eq_true, ↓reduceIte, ok, pure_apply]
  · simp only [bind_apply, key c!"inf" (by left; simp [hs]), key c!"inff32" (by left; simp [hs]), key c!"inff64" (by left; simp [hs]),
      key c!"NaN" (by right; simp [hs, headXid, hx]), Bool.false_eq_true, ↓reduceIte, ok, pure_apply]
  · simp only [bind_apply, key c!"inf" (by left; simp [hs]), key c!"inff32" (by left; simp [hs]), key c!"inff64" (by left; simp [hs]),
      key c!"NaN" (by right; simp [hs, headXid, hx]), key c!"NaNf32" (by left; simp [hs]), Bool.false_eq_true, ↓reduceIte, ok, pure_apply]


theorem anyNumber_read32 (b : F32) {s : St} {r : Text}
    (hs : s.rest = f32Text b ++ (floatSuffix true ++ r)) (hr : NumFollow r) :
    RunsW anyNumber s (.f32 b.canon) r := by
  rcases f32Text_form b with ⟨h1, h2, h3, h4⟩ | ⟨h1, h2, v64, h3, h4, h5, h6, hsp⟩
  · have : b.canon = b := by simp [F32.canon, h3]
    rw [this]
    have h5 : s.rest = f32Text b ++ (floatSuffix true ++ r) := hs
    obtain ⟨hi, hn⟩ := h1.start (r := floatSuffix true ++ r)
    rw [← hs] at hi hn
    refine anyNumber_float hi hn ?_ (float_decimalS32 .any hs h1 hr.1 h2 (.inr rfl))
    rw [hs]
    exact nextIsFloat_decimal h1 (h1.runS (is32 := true) (r := r)).len
  · simp only [List.mem_cons, List.not_mem_nil, or_false] at h1
    have ok := fun (s' : St) (e : s'.rest = s.rest) =>
      floatSpecial_suffixed (is32 := true) .any h3 (e.trans hs) hr.1 (v := .f32 b.canon) (fun _ _ => rfl)
    rcases h1 with h1 | h1 | h1 | h1 <;> rw [h1] at h3 hs <;> simp only [floatLiterals, List.mem_cons, List.not_mem_nil, or_false, Prod.mk.injEq] at h3
    · refine anyNumber_consume (w := c!"inff32") hs hr.1 ?_
      obtain ⟨h3, -⟩ : b.canon = F32.inf ∧ v64 = F64.inf := by simpa using h3
      simp [h3]
    · exact anyNumber_minus_word (u := 'f' :: (floatSuffix true ++ r)) hs (by simp) (by simp; omega) ok
    · refine anyNumber_consume (w := c!"NaNf32") hs hr.1 ?_
      obtain ⟨h3, -⟩ : b.canon = F32.nan ∧ v64 = F64.nan := by simpa using h3
      simp [h3]
    · exact anyNumber_minus_word (u := 'N' :: (floatSuffix true ++ r)) hs (by simp) (by simp; omega) ok

theorem anyNumber_read64 (b : F64) {s : St} {r : Text}
    (hs : s.rest = f64Text b ++ (floatSuffix false ++ r)) (hr : NumFollow r) :
    RunsW anyNumber s (.f64 b.canon) r := by
  rcases f64Text_form b with ⟨h1, h2, h3, h4⟩ | ⟨h1, h2, v32, h3, h4⟩
  · have : b.canon = b := by simp [F64.canon, h3]
    rw [this]
    obtain ⟨hi, hn⟩ := h1.start (r := floatSuffix false ++ r)
    rw [← hs] at hi hn
    refine anyNumber_float hi hn ?_ (float_decimalS64 .any hs h1 hr.1 h2 (.inr rfl))
    rw [hs]
    exact nextIsFloat_decimal h1 (h1.runS (is32 := false) (r := r)).len
  · simp only [List.mem_cons, List.not_mem_nil, or_false] at h1
    have ok := fun (s' : St) (e : s'.rest = s.rest) =>
      floatSpecial_suffixed (is32 := false) .any h3 (e.trans hs) hr.1 (v := .f64 b.canon) (fun _ _ => rfl)
    rcases h1 with h1 | h1 | h1 | h1 <;> rw [h1] at h3 hs <;> simp only [floatLiterals, List.mem_cons, List.not_mem_nil, or_false, Prod.mk.injEq] at h3
    · refine anyNumber_consume (w := c!"inff64") hs hr.1 ?_
      obtain ⟨-, h3⟩ : v32 = F32.inf ∧ b.canon = F64.inf := by simpa using h3
      simp [h3]
    · exact anyNumber_minus_word (u := 'f' :: (floatSuffix false ++ r)) hs (by simp) (by simp; omega) ok
    · refine anyNumber_consume (w := c!"NaNf64") hs hr.1 ?_
      obtain ⟨-, h3⟩ : v32 = F32.nan ∧ b.canon = F64.nan := by simpa using h3
      simp [h3]
    · exact anyNumber_minus_word (u := 'N' :: (floatSuffix false ++ r)) hs (by simp) (by simp; omega) ok

/-- What a number becomes when it is written without suffix and read back without a target type: the smallest integer type, or
the shortest float type that still holds the value the text denotes as an `f64`. -/
def Number.untyped : Number → Number
  | .int _ v => .int (if v < 0 then smallestS v else smallestU v) v
  | .f32 b => if b.isNan || b.isInf then .f32 b.canon else
      match Env.parse64 (f32Text b) with
      | some v => untypedFloat v
      | none => .f32 b
  | .f64 b => untypedFloat b.canon

/-- The canonical form of a number: every NaN becomes the NaN of its sign. -/
def Number.canon : Number → Number
  | .int t v => .int t v
  | .f32 b => .f32 b.canon
  | .f64 b => .f64 b.canon

/-- What the serializer writes for a number. -/
def Number.text (sfx : Bool) : Number → Text
  | .int t v => (litOf v (if sfx then some t else none)).text
  | .f32 b => f32Text b ++ (if sfx then floatSuffix true else [])
  | .f64 b => f64Text b ++ (if sfx then floatSuffix false else [])

theorem serNumber_quiet {s : Ser} (h : s.Quiet) (n : Number) : serNumber n s = .ok () (s.put (n.text s.numberSuffixes)) := by
  cases n with
  | int t v => exact serInt_quiet h t v
  | f32 b => exact serF32_quiet h b
  | f64 b => exact serF64_quiet h b

theorem untyped_special32 {b : F32} {v64 : F64} (h1 : Env.narrow v64 = b) (h2 : Env.widen b = v64) : untypedFloat v64 = .f32 b := by
  unfold untypedFloat; rw [h1, h2]; simp

theorem anyNumber_read32u (b : F32) {s : St} {r : Text}
    (hs : s.rest = f32Text b ++ r) (hr : NumFollow r) :
    RunsW anyNumber s (Number.untyped (.f32 b)) r := by
  rcases f32Text_form b with ⟨h1, h2, h3, h4⟩ | ⟨h1, h2, v64, h3, h4, h5, h6, hsp⟩
  · obtain ⟨hi, hn⟩ := h1.start (r := r)
    rw [← hs] at hi hn
    obtain ⟨sg, ip, fp, e1, e2, e3, e4⟩ := h1
    have hsome := Env.parse64_decimal sg ip fp e1 e2 e3
    rw [← e4] at hsome
    obtain ⟨v, hv⟩ := Option.isSome_iff_exists.mp hsome
    have h1 : Decimal (f32Text b) := ⟨sg, ip, fp, e1, e2, e3, e4⟩
    simp only [Number.untyped, h3, h4, Bool.or_self, Bool.false_eq_true, ↓reduceIte, hv]
    refine anyNumber_float hi hn ?_ (float_decimalAny hs h1 hr hv)
    rw [hs]
    exact nextIsFloat_decimal h1 (h1.run hr).len
  · simp only [Number.untyped, hsp, ↓reduceIte]
    simp only [List.mem_cons, List.not_mem_nil, or_false] at h1
    have hu := untyped_special32 h5 h6
    have ok := fun (s' : St) (e : s'.rest = s.rest) =>
      floatSpecial_plain .any h3 (e.trans hs) hr.1 (v := .f32 b.canon) (hu ▸ parse_specialAny h4)
    rcases h1 with h1 | h1 | h1 | h1 <;> rw [h1] at h3 hs <;> simp only [floatLiterals, List.mem_cons, List.not_mem_nil, or_false, Prod.mk.injEq] at h3
    · refine anyNumber_consume (w := c!"inf") hs hr.1 ?_
      obtain ⟨h3, -⟩ : b.canon = F32.inf ∧ v64 = F64.inf := by simpa using h3
      simp [h3]
    · exact anyNumber_minus_word (u := 'f' :: r) hs (by simp) (by simp) ok
    · refine anyNumber_consume (w := c!"NaN") hs hr.1 ?_
      obtain ⟨h3, -⟩ : b.canon = F32.nan ∧ v64 = F64.nan := by simpa using h3
      simp [h3]
    · exact anyNumber_minus_word (u := 'N' :: r) hs (by simp) (by simp) ok


theorem anyNumber_read64u (b : F64) {s : St} {r : Text}
    (hs : s.rest = f64Text b ++ r) (hr : NumFollow r) :
    RunsW anyNumber s (Number.untyped (.f64 b)) r := by
  rcases f64Text_form b with ⟨h1, h2, h3, h4⟩ | ⟨h1, h2, v32, h3, h4, h5⟩
  · have hc : b.canon = b := by simp [F64.canon, h3]
    obtain ⟨hi, hn⟩ := h1.start (r := r)
    rw [← hs] at hi hn
    simp only [Number.untyped, hc]
    refine anyNumber_float hi hn ?_ (float_decimalAny hs h1 hr h2)
    rw [hs]
    exact nextIsFloat_decimal h1 (h1.run hr).len
  · have hu : untypedFloat b.canon = .f32 v32 := untyped_special32 h4 h5
    simp only [Number.untyped, hu]
    simp only [List.mem_cons, List.not_mem_nil, or_false] at h1
    have ok := fun (s' : St) (e : s'.rest = s.rest) =>
      floatSpecial_plain .any h3 (e.trans hs) hr.1 (v := .f32 v32) (hu ▸ parse_specialAny h2)
    rcases h1 with h1 | h1 | h1 | h1 <;> rw [h1] at h3 hs <;> simp only [floatLiterals, List.mem_cons, List.not_mem_nil, or_false, Prod.mk.injEq] at h3
    · refine anyNumber_consume (w := c!"inf") hs hr.1 ?_
      obtain ⟨h3, -⟩ : v32 = F32.inf ∧ b.canon = F64.inf := by simpa using h3
      simp [h3]
    · exact anyNumber_minus_word (u := 'f' :: r) hs (by simp) (by simp) ok
    · refine anyNumber_consume (w := c!"NaN") hs hr.1 ?_
      obtain ⟨h3, -⟩ : v32 = F32.nan ∧ b.canon = F64.nan := by simpa using h3
      simp [h3]
    · exact anyNumber_minus_word (u := 'N' :: r) hs (by simp) (by simp) ok

/-- Any number the serializer writes is read back: with suffixes as itself, without as the untyped number of the same text. -/
theorem anyNumber_read (n : Number) (sfx : Bool) (hw : n.WF) {s : St} {r : Text}
    (hs : s.rest = n.text sfx ++ r) (hr : NumFollow r) :
    RunsW anyNumber s (if sfx then n.canon else n.untyped) r := by
  cases n with
  | f32 b =>
    cases sfx with
    | true => exact anyNumber_read32 b (by rw [hs]; simp [Number.text]) hr
    | false => exact anyNumber_read32u b (by rw [hs]; simp [Number.text]) hr
  | f64 b =>
    cases sfx with
    | true => exact anyNumber_read64 b (by rw [hs]; simp [Number.text]) hr
    | false => exact anyNumber_read64u b (by rw [hs]; simp [Number.text]) hr
  | int t v =>
    obtain ⟨ha, hin⟩ := hw
    have key := anyNumber_lit (l := litOf v (if sfx then some t else none)) hs (litOf_valid _ _) hr
    rw [litOf_value] at key
    cases sfx with
    | true =>
      refine key ?_ ?_
      · intro t' ht'; simp [litOf] at ht'; subst ht'; exact ha
      · simpa [litOf, litType] using hin
    | false =>
      have hs' : (litOf v none).suffix = none := rfl
      have hsg : (litOf v none).sign = .minus ↔ v < 0 := by
        unfold litOf; by_cases h : v < 0 <;> simp [h]
      have key' := key (by intro t' ht'; simp [litOf] at ht') ?_
      · simpa [Number.untyped, hs', hsg] using key'
      · simp only [Bool.false_eq_true, ↓reduceIte, litType, hs', Option.getD_none, intTypeOf, hsg]
        have : (if v < 0 then largeS else largeU).InRange v := by
          unfold IntTy.Avail at ha
          unfold IntTy.InRange at hin ⊢
          have h2 : t ≠ .i128 ∧ t ≠ .u128 ∨ Env.int128 = true := by
            cases hi : Env.int128 with
            | true => exact .inr rfl
            | false => left; rw [hi] at ha; constructor <;> (rintro rfl; simp at ha)
          by_cases hv : v < 0
          · simp only [hv, ↓reduceIte, largeS]
            rcases h2 with ⟨h2, h3⟩ | h2
            · cases t <;> simp [IntTy.min, IntTy.max, IntTy.signed, IntTy.bits] at hin h2 h3 <;> split <;>
                simp [IntTy.min, IntTy.max, IntTy.signed, IntTy.bits] <;> omega
            · simp only [h2, ↓reduceIte]
              cases t <;> simp [IntTy.min, IntTy.max, IntTy.signed, IntTy.bits] at hin ⊢ <;> omega
          · simp only [hv, ↓reduceIte, largeU]
            rcases h2 with ⟨h2, h3⟩ | h2
            · cases t <;> simp [IntTy.min, IntTy.max, IntTy.signed, IntTy.bits] at hin h2 h3 <;> split <;>
                simp [IntTy.min, IntTy.max, IntTy.signed, IntTy.bits] <;> omega
            · simp only [h2, ↓reduceIte]
              cases t <;> simp [IntTy.min, IntTy.max, IntTy.signed, IntTy.bits] at hin ⊢ <;> omega
        simpa using this

end Ron
