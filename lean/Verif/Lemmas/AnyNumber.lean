import Verif.Spec.AnyNumber
import Verif.Lemmas.BadNumbers
import Verif.Lemmas.BadFloats
import Verif.Lemmas.OneChar
/-!
# Reading a number of no given type
-/

namespace Ron

variable [Env]

/-! ### Types of integers -/

theorem largest_type {neg : Bool} {T : IntTy} : Largest neg T ↔ T = intTypeOf .any neg := by
  unfold Largest intTypeOf largeS largeU IntTy.Avail
  constructor
  · rintro ⟨h1, h2, h3⟩
    cases hi : Env.int128 with
    | true =>
      have := h3 (if neg then .i128 else .u128) (by cases neg <;> rfl) (fun _ => hi)
      cases neg <;> cases T <;> simp_all [IntTy.signed, IntTy.bits]
    | false =>
      have := h3 (if neg then .i64 else .u64) (by cases neg <;> rfl) (by cases neg <;> simp)
      cases neg <;> cases T <;> simp_all [IntTy.signed, IntTy.bits]
  · rintro rfl
    cases hi : Env.int128 <;> cases neg <;> refine ⟨rfl, by simp, fun S h1 h2 => ?_⟩ <;> cases S <;> simp_all [IntTy.signed, IntTy.bits]

omit [Env] in
theorem IntTy.InRange.widen {S T : IntTy} {v : Int} (h : S.InRange v) (hs : S.signed = T.signed) (hb : S.bits ≤ T.bits) : T.InRange v := by
  obtain ⟨h1, h2⟩ := h
  cases S <;> cases T <;> first
    | (exact absurd hs (by decide))
    | (exact absurd hb (by decide))
    | (refine ⟨Int.le_trans ?_ h1, Int.le_trans h2 ?_⟩ <;> decide)

omit [Env] in
theorem IntTy.same {S T : IntTy} (hs : S.signed = T.signed) (hb : S.bits = T.bits) : S = T := by
  cases S <;> cases T <;> first
    | rfl
    | (exact absurd hs (by decide))
    | (exact absurd hb (by decide))

theorem smallest_has {neg : Bool} {v : Int} (h : (intTypeOf .any neg).InRange v) : Smallest neg v (if neg then smallestS v else smallestU v) := by
  have narrow : ∀ {A T : IntTy}, T.signed = neg → T.Avail → T.InRange v → A.signed = neg → ¬ A.InRange v → (∀ S : IntTy, S.bits ≤ A.bits ∨ T.bits ≤ S.bits) →
      Smallest neg v T := by
    intro A T h1 h2 h3 h4 h5 h6
    refine ⟨h1, h2, h3, fun S k1 k2 k3 => ?_⟩
    rcases h6 S with h | h
    · exact absurd (k3.widen (k1.trans h4.symm) h) h5
    · exact h
  have least : ∀ {T : IntTy}, T.signed = neg → T.Avail → T.InRange v → (∀ S : IntTy, T.bits ≤ S.bits) → Smallest neg v T :=
    fun h1 h2 h3 h4 => ⟨h1, h2, h3, fun S _ _ _ => h4 S⟩
  unfold intTypeOf largeS largeU at h
  unfold smallestS smallestU
  cases neg with
  | true =>
    simp only [↓reduceIte] at h ⊢
    split
    · rename_i g; exact least rfl (by simp [IntTy.Avail]) g (by intro S; cases S <;> decide)
    split
    · rename_i g0 g; exact narrow (A := .i8) rfl (by simp [IntTy.Avail]) g rfl g0 (by intro S; cases S <;> decide)
    split
    · rename_i g0 g; exact narrow (A := .i16) rfl (by simp [IntTy.Avail]) g rfl g0 (by intro S; cases S <;> decide)
    rename_i g0
    split
    · rename_i g
      simp only [Bool.not_eq_true'] at g
      rw [g] at h
      exact narrow (A := .i32) rfl (by simp [IntTy.Avail]) h rfl g0 (by intro S; cases S <;> decide)
    · rename_i g
      simp only [Bool.not_eq_true', Bool.not_eq_false] at g
      rw [g] at h
      split
      · rename_i g1; exact narrow (A := .i32) rfl (by simp [IntTy.Avail]) g1 rfl g0 (by intro S; cases S <;> decide)
      · rename_i g1; exact narrow (A := .i64) rfl (fun _ => g) h rfl g1 (by intro S; cases S <;> decide)
  | false =>
    simp only [Bool.false_eq_true, ↓reduceIte] at h ⊢
    split
    · rename_i g; exact least rfl (by simp [IntTy.Avail]) g (by intro S; cases S <;> decide)
    split
    · rename_i g0 g; exact narrow (A := .u8) rfl (by simp [IntTy.Avail]) g rfl g0 (by intro S; cases S <;> decide)
    split
    · rename_i g0 g; exact narrow (A := .u16) rfl (by simp [IntTy.Avail]) g rfl g0 (by intro S; cases S <;> decide)
    rename_i g0
    split
    · rename_i g
      simp only [Bool.not_eq_true'] at g
      rw [g] at h
      exact narrow (A := .u32) rfl (by simp [IntTy.Avail]) h rfl g0 (by intro S; cases S <;> decide)
    · rename_i g
      simp only [Bool.not_eq_true', Bool.not_eq_false] at g
      rw [g] at h
      split
      · rename_i g1; exact narrow (A := .u32) rfl (by simp [IntTy.Avail]) g1 rfl g0 (by intro S; cases S <;> decide)
      · rename_i g1; exact narrow (A := .u64) rfl (fun _ => g) h rfl g1 (by intro S; cases S <;> decide)

theorem smallest_type {neg : Bool} {v : Int} {T : IntTy} : Smallest neg v T ↔
    (intTypeOf .any neg).InRange v ∧ T = (if neg then smallestS v else smallestU v) := by
  constructor
  · intro h
    obtain ⟨l1, l2, l3⟩ := largest_type.mpr (rfl : intTypeOf .any neg = _)
    have hl : (intTypeOf .any neg).InRange v := h.2.2.1.widen (h.1.trans l1.symm) (l3 T h.1 h.2.1)
    have g := smallest_has hl
    exact ⟨hl, IntTy.same (h.1.trans g.1.symm) (Nat.le_antisymm (h.2.2.2 _ g.1 g.2.1 g.2.2.1) (g.2.2.2 _ h.1 h.2.1 h.2.2.1))⟩
  · rintro ⟨h, rfl⟩
    exact smallest_has h

/-! ### Integers -/

theorem integer_any {T : IntTy} {u r : Text} {v : Int} {s : St} (hs : s.rest = u) (hnb : ∀ r, u ≠ 'b' :: '\'' :: r) (h : AnyInt u T v r) :
    RunsW (integer .any) s (T, v) r := by
  cases h with
  | @plain body _ sg b _ hsp hn hv hin =>
    obtain ⟨h1, h2⟩ := smallest_type.mp hin
    obtain ⟨p, hp⟩ := integer_split (tg := .any) hs hsp hnb
    obtain ⟨p', hp'⟩ := unsigned_plain (tg := .any) (neg := decide (sg = .minus)) (bk := u) (s := { s with prev := p, rest := b.pre ++ (body ++ r) }) rfl
      hsp.decimal hsp.run hsp.stop hn
    rw [hp', IntTarget.parse_valid b.one_le rfl hv (stop_intChar hsp.stop), runValue_accum, if_pos (by exact h1)] at hp
    subst h2
    exact ⟨_, hp, rfl, ⟨⟨rfl, rfl, rfl, rfl, rfl⟩, rfl, rfl⟩⟩
  | @suffix body _ _ sg b _ hsp hS hv hin =>
    obtain ⟨ha, rfl, hr⟩ := hS
    obtain ⟨p, hp⟩ := integer_split (tg := .any) hs hsp hnb
    obtain ⟨p', hp'⟩ := unsignedPart_lit (tg := .any) (neg := decide (sg = .minus)) (backup := u) (sfx := some T)
      (s := { s with prev := p, rest := b.pre ++ (body ++ (T.suffix ++ r)) }) rfl hv hr (by intro t h; cases h; exact ha)
    rw [hp', runValue_accum, if_pos (by exact hin)] at hp
    simp only [IntTarget.tryFrom] at hp
    exact ⟨_, hp, rfl, ⟨⟨rfl, rfl, rfl, rfl, rfl⟩, rfl, rfl⟩⟩

theorem integer_badAny {u r : Text} {e : Err} {s : St} (hs : s.rest = u) (hnb : ∀ r, u ≠ 'b' :: '\'' :: r) (h : BadAnyInt u e r) :
    Errs (integer .any) s e r := by
  cases h with
  | eof => exact ⟨s, by simp [integer, peekCharOrEof, hs], hs, KeepsW.refl s⟩
  | @plain _ body after l sg b _ T hsp hn hT hb =>
    obtain ⟨p, hp⟩ := integer_split (tg := .any) hs hsp hnb
    obtain ⟨p', hp'⟩ := unsigned_plain (tg := .any) (neg := decide (sg = .minus)) (bk := u) (s := { s with prev := p, rest := b.pre ++ (body ++ after) }) rfl
      hsp.decimal hsp.run hsp.stop hn
    obtain ⟨p2, hp2⟩ := parseInteger_bad b.one_le (s := { s with prev := p', rest := body ++ after }) rfl hsp.run hsp.stop hb
    refine ⟨{ s with prev := p2, rest := l ++ after }, ?_, rfl, ⟨⟨rfl, rfl, rfl, rfl, rfl⟩, rfl, rfl⟩⟩
    rw [hp, hp']
    rw [largest_type.mp hT] at hp2
    cases hd : decide (sg = .minus) <;> rw [hd] at hp2 <;>
      simp only [intTypeOf, Bool.false_eq_true, ↓reduceIte] at hp2 <;>
      simp only [IntTarget.parse, Bool.false_eq_true, ↓reduceIte, bind_apply, hp2]
  | @here _ body after l r sg b S _ hsp hS hb h1 h2 =>
    obtain ⟨p, hp⟩ := integer_split (tg := .any) hs hsp hnb
    have := unsigned_suffix (tg := .any) (bk := u) (s := { s with prev := p, rest := b.pre ++ (body ++ after) }) rfl hsp.decimal hsp.run hsp.stop hS hb
    simp only [h1, h2, or_self, ↓reduceIte] at this
    unfold Errs at *
    rw [hp]
    obtain ⟨s', a1, a2, a3⟩ := this
    exact ⟨s', a1, a2, (KeepsW.step s p _).trans a3⟩
  | @past _ body after l _ sg b S _ hsp hS hb h1 =>
    obtain ⟨p, hp⟩ := integer_split (tg := .any) hs hsp hnb
    have := unsigned_suffix (tg := .any) (bk := u) (s := { s with prev := p, rest := b.pre ++ (body ++ after) }) rfl hsp.decimal hsp.run hsp.stop hS hb
    simp only [h1, ↓reduceIte] at this
    unfold Errs at *
    rw [hp]
    obtain ⟨s', a1, a2, a3⟩ := this
    exact ⟨s', a1, a2, (KeepsW.step s p _).trans a3⟩

theorem anyInt_total (u : Text) : (∃ T v r, AnyInt u T v r) ∨ ∃ e r, BadAnyInt u e r := by
  by_cases hu : u = []
  · subst hu; exact .inr ⟨_, _, .eof⟩
  obtain ⟨sg, b, body, after, hsp⟩ := numSplit_total hu
  by_cases hS : ∃ S r, SuffixAt after S r
  · obtain ⟨S, r, hS⟩ := hS
    rcases digits_total S sg b.base hsp.run with ⟨hv, hin⟩ | ⟨e, l, hb⟩
    · exact .inl ⟨_, _, _, .suffix hsp hS hv hin⟩
    · by_cases h : e = .expectedInteger ∨ e = .integerOutOfBounds
      · exact .inr ⟨_, _, .past hsp hS hb h⟩
      · exact .inr ⟨_, _, .here hsp hS hb (fun h' => h (.inl h')) (fun h' => h (.inr h'))⟩
  · have hS : ∀ S r, ¬ SuffixAt after S r := fun S r h => hS ⟨S, r, h⟩
    rcases digits_total (intTypeOf .any (decide (sg = .minus))) sg b.base hsp.run with ⟨hv, hin⟩ | ⟨e, l, hb⟩
    · exact .inl ⟨_, _, _, .plain hsp hS hv (smallest_type.mpr ⟨hin, rfl⟩)⟩
    · exact .inr ⟨_, _, .plain hsp hS (largest_type.mpr rfl) hb⟩

/-! ### Floats -/

theorem narrowest_iff {y : F64} {v : Number} : Narrowest y v ↔ v = (if Env.widen (Env.narrow y) = y then .f32 (Env.narrow y) else .f64 y) := by
  constructor
  · rintro (⟨rfl, h⟩ | h)
    · rw [if_pos h]
    · rw [if_neg h]
  · rintro rfl
    split
    · rename_i h; exact .f32 rfl h
    · rename_i h; exact .f64 h

theorem any_parse (t : Text) (s : St) : FloatTarget.any.parse t s = match Env.parse64 t with
    | some y => .ok (if Env.widen (Env.narrow y) = y then .f32 (Env.narrow y) else .f64 y) s
    | none => .err .expectedFloat s := by
  simp only [FloatTarget.parse]
  cases Env.parse64 t with
  | none => rfl
  | some y =>
    simp only
    split <;> rfl

theorem word_narrow {w : Text} {x : F32} {y : F64} (h : FloatWord w x y) : Env.narrow y = x ∧ Env.widen x = y := by
  obtain ⟨a1, a2, a3, a4⟩ := Env.narrow_special
  obtain ⟨b1, b2, b3, b4⟩ := Env.widen_special
  cases h <;> exact ⟨by assumption, by assumption⟩

theorem float_run_any {s : St} {u t r : Text} (hu : s.rest = u) (h : FloatSplit u t r) (hne : t ≠ []) (hok : UnderscoresOk t)
    (hn : ∀ b' r', ¬ TagAt r b' r') :
    match Env.parse64 (plainFloat t) with
    | some y => RunsW (float .any) s (if Env.widen (Env.narrow y) = y then .f32 (Env.narrow y) else .f64 y) r
    | none => Errs (float .any) s .expectedFloat u := by
  have hs := hu.trans h.text
  have hw : t.length ≤ s.rest.length := by rw [hs]; simp
  have hd : s.rest.drop t.length = r := by rw [hs, List.drop_left]
  obtain ⟨p, hp⟩ := float_run .any hu h hne hok hn
  simp only [bind_apply, any_parse] at hp
  cases hv : Env.parse64 (plainFloat t) with
  | none =>
    simp only [hv] at hp ⊢
    exact ⟨_, hp, hu, ⟨⟨rfl, rfl, rfl, rfl, rfl⟩, rfl, rfl⟩⟩
  | some v =>
    simp only [hv, advance_apply, hw, ↓reduceIte, pure_apply] at hp ⊢
    exact ⟨_, hp, hd, ⟨⟨rfl, rfl, rfl, rfl, rfl⟩, rfl, rfl⟩⟩

theorem float_any {u r : Text} {v : Number} {s : St} (hu : s.rest = u) (h : AnyFloat u v r) : RunsW (float .any) s v r := by
  cases h with
  | @word w _ x y tag hw =>
    have hsp := floatSpecial_found .any hu hw
    unfold RunsW float
    rw [bind_apply, hsp]
    have hp := (word_parse hw.1).2
    obtain ⟨h1, h2⟩ := word_narrow hw.1
    cases tag with
    | none =>
      simp only [bind_apply, any_parse, hp, h1, h2, ↓reduceIte, pure_apply]
      exact ⟨_, rfl, rfl, ⟨⟨rfl, rfl, rfl, rfl, rfl⟩, rfl, rfl⟩⟩
    | some b =>
      cases b <;> simp only [bind_apply, FloatTarget.tryFrom, pure_apply] <;>
        exact ⟨_, rfl, rfl, ⟨⟨rfl, rfl, rfl, rfl, rfl⟩, rfl, rfl⟩⟩
  | plain hsp hne hok hn hv hy =>
    have := float_run_any hu hsp hne hok hn
    rw [hv] at this
    rw [narrowest_iff.mp hy]
    exact this
  | suffix hsp hne hok ht hv =>
    have := float_run_tag .any hu hsp hne hok ht
    rw [hv] at this
    obtain ⟨p, hp⟩ := this
    exact ⟨_, hp, rfl, ⟨⟨rfl, rfl, rfl, rfl, rfl⟩, rfl, rfl⟩⟩

theorem float_badAny {u r : Text} {e : Err} {s : St} (hu : s.rest = u) (h : BadAnyFloat u e r) : Errs (float .any) s e r := by
  cases h with
  | none hsp =>
    refine ⟨s, ?_, hu, KeepsW.refl s⟩
    rw [float_split _ hu hsp]
    rfl
  | @underscore t r hsp hh =>
    have hne : t ≠ [] := by rintro rfl; cases hh
    have h0 : (t.length == 0) = false := by
      cases t with
      | nil => exact absurd rfl hne
      | cons => rfl
    refine ⟨s, ?_, hu, KeepsW.refl s⟩
    rw [float_split _ hu hsp]
    have : startsWith s.rest ['_'] = true := by rw [hu, hsp.text]; exact (head_startsWith hne).mpr hh
    simp only [h0, this, Bool.false_eq_true, ↓reduceIte, fail_apply]
  | @misplaced t r p q hsp hh ht hok hn =>
    have hne : t ≠ [] := by rintro rfl; simp at ht
    have h0 : (t.length == 0) = false := by
      cases t with
      | nil => exact absurd rfl hne
      | cons => rfl
    have h1 : startsWith s.rest ['_'] = false := by
      rw [hu, hsp.text, Bool.eq_false_iff]; exact fun h => hh ((head_startsWith hne).mp h)
    have hs : s.rest = p ++ ('_' :: q ++ r) := by rw [hu, hsp.text, ht]; simp
    have hw : p.length ≤ s.rest.length := by rw [hs]; simp
    unfold Errs
    rw [float_split _ hu hsp, ht, floatStrip_first hok hn]
    rw [ht] at h0
    simp only [h0, h1, Bool.false_eq_true, ↓reduceIte, bind_apply, advance_ok hw, fail_apply]
    exact ⟨_, rfl, by rw [hs, List.drop_left], ⟨⟨rfl, rfl, rfl, rfl, rfl⟩, rfl, rfl⟩⟩
  | plain hsp hne hok hn hv =>
    have := float_run_any hu hsp hne hok hn
    rw [hv] at this
    exact this
  | suffix hsp hne hok ht hv =>
    have := float_run_tag .any hu hsp hne hok ht
    rw [hv] at this
    exact this

theorem anyFloat_total (u : Text) : (∃ v r, AnyFloat u v r) ∨ ∃ e r, BadAnyFloat u e r := by
  by_cases hw : ∃ w x y tag r, WordAt u w x y tag r
  · obtain ⟨w, x, y, tag, r, hw⟩ := hw
    exact .inl ⟨_, _, .word hw⟩
  · obtain ⟨t, r, e, h1, h2, h3⟩ := floatRun_total u
    have hsp : FloatSplit u t r := ⟨fun w x y tag r h => hw ⟨w, x, y, tag, r, h⟩, e, h1, h2, h3⟩
    by_cases hne : t = []
    · subst hne; exact .inr ⟨_, _, .none hsp⟩
    by_cases hu : t.head? = some '_'
    · exact .inr ⟨_, _, .underscore hsp hu⟩
    by_cases hok : UnderscoresOk t
    · by_cases ht : ∃ b' r', TagAt r b' r'
      · obtain ⟨b', r', ht⟩ := ht
        cases hv : stdNumber b' (plainFloat t) with
        | none => exact .inr ⟨_, _, .suffix hsp hne hok ht hv⟩
        | some v => exact .inl ⟨_, _, .suffix hsp hne hok ht hv⟩
      · have ht : ∀ b' r', ¬ TagAt r b' r' := fun b' r' h => ht ⟨b', r', h⟩
        cases hv : Env.parse64 (plainFloat t) with
        | none => exact .inr ⟨_, _, .plain hsp hne hok ht hv⟩
        | some v => exact .inl ⟨_, _, .plain hsp hne hok ht hv (narrowest_iff.mpr rfl)⟩
    · obtain ⟨p, q, e', hp, hn⟩ := first_misplaced hok
      exact .inr ⟨_, _, .misplaced hsp hu e' hp hn⟩

/-! ### Which of the two -/

omit [Env] in
theorem floatLike_iff {u : Text} : FloatLike u ↔ nextIsFloat u = true := by
  cases u with
  | nil =>
    constructor
    · rintro ⟨sg, v, t, r, body, after, h1, -, ⟨h2, -⟩, -, h3⟩
      have : v = [] := by
        have := congrArg List.length h1
        simp at this
        exact List.length_eq_zero_iff.mp (by omega)
      subst this
      have := congrArg List.length h2
      simp at this
      omega
    · intro h; cases h
  | cons c u =>
    have hsg : ∃ (sg : LitSign), c :: u = sg.text ++ (if c == '+' || c == '-' then u else c :: u) ∧
        (sg = .none → (c :: u).head? ≠ some '+' ∧ (c :: u).head? ≠ some '-') := by
      by_cases h1 : c = '+'
      · exact ⟨.plus, by simp [LitSign.text, h1], by simp⟩
      · by_cases h2 : c = '-'
        · exact ⟨.minus, by simp [LitSign.text, h2], by simp⟩
        · exact ⟨.none, by simp [LitSign.text, h1, h2], by simp [h1, h2]⟩
    have key : ∀ {v t r body after : Text}, (v = t ++ r ∧ (∀ c ∈ t, c ∈ floatAlphabet) ∧ ¬ (c!".." <:+: t) ∧
        ((∀ c r', r = c :: r' → c ∉ floatAlphabet) ∨ (c!".." <+: r ∧ ∀ p, t ≠ p ++ ['.']))) →
        (v = body ++ after ∧ (∀ c ∈ body, c = '_' ∨ ∃ d, hexVal c = some d) ∧ ∀ c r', after = c :: r' → c ≠ '_' ∧ hexVal c = none) →
        floatLen v = t.length ∧ whileLen isIntChar v = body.length := by
      rintro v t r body after ⟨e1, a1, a2, a3⟩ ⟨e2, b1, b2⟩
      refine ⟨?_, ?_⟩
      · rw [e1]; exact floatLen_of_run a1 a2 a3
      · rw [e2]; exact run_whileLen b1 b2
    have hn : nextIsFloat (c :: u) = decide (floatLen (if c == '+' || c == '-' then u else c :: u) >
        whileLen isIntChar (if c == '+' || c == '-' then u else c :: u)) := rfl
    rw [hn, decide_eq_true_iff]
    constructor
    · rintro ⟨sg, v, t, r, body, after, h1, h0, h2, h3, h4⟩
      obtain ⟨k1, k2⟩ := key h2 h3
      have : (if c == '+' || c == '-' then u else c :: u) = v := by
        cases sg with
        | plus => injection h1 with h5 h6; subst h5; subst h6; rfl
        | minus => injection h1 with h5 h6; subst h5; subst h6; rfl
        | none =>
          obtain ⟨g1, g2⟩ := h0 rfl
          simp only [List.head?_cons, ne_eq, Option.some.injEq] at g1 g2
          rw [if_neg (by simp [g1, g2])]
          exact h1
      rw [this, k1, k2]
      exact h4
    · intro h
      obtain ⟨sg, hsg, hsg'⟩ := hsg
      generalize (if c == '+' || c == '-' then u else c :: u) = v at *
      obtain ⟨t, r, e, a1, a2, a3⟩ := floatRun_total v
      obtain ⟨body, after, e', b1, -, b2⟩ := whileLen_split isIntChar v
      have hb : v = body ++ after ∧ (∀ c ∈ body, c = '_' ∨ ∃ d, hexVal c = some d) ∧ ∀ c r', after = c :: r' → c ≠ '_' ∧ hexVal c = none := by
        refine ⟨e', fun c hc => ?_, fun c r e => isIntChar_spec.mp (b2 c r e)⟩
        by_cases h : c = '_'
        · exact .inl h
        · right
          have hi := b1 c hc
          cases hx : hexVal c with
          | none => rw [isIntChar_spec.mpr ⟨h, hx⟩] at hi; cases hi
          | some d => exact ⟨d, rfl⟩
      obtain ⟨k1, k2⟩ := key ⟨e, a1, a2, a3⟩ hb
      rw [k1, k2] at h
      exact ⟨sg, v, t, r, body, after, hsg, hsg', ⟨e, a1, a2, a3⟩, hb, h⟩

/-! ### Numbers -/

/-- `any_number` without the words. -/
def numberBody : P Number := do
  let s ← getSt
  if nextIsFloat s.rest then float .any
  else
    let backup ← cursor
    match ← attempt (integer .any) with
    | .ok (t, v) => pure (.int t v)
    | .error e =>
      let intCursor ← cursor
      setCursor backup
      match ← attempt (float .any) with
      | .ok v =>
        let s' ← getSt
        if s'.rest.length ≤ intCursor.rest.length then pure v
        else
          setCursor intCursor
          fail e
      | .error _ =>
        setCursor intCursor
        fail e

theorem numberBody_ok {u r : Text} {n : Number} {s : St} (hs : s.rest = u) (hnb : ∀ r, u ≠ 'b' :: '\'' :: r) (h : NumberAt u n r) :
    RunsW numberBody s n r := by
  unfold RunsW numberBody
  cases h with
  | byte e hb => obtain ⟨w, rfl⟩ := hb.form; exact absurd e (hnb _)
  | float hf h =>
    rw [← hs] at hf
    simp only [bind_apply, getSt_apply, floatLike_iff.mp hf, ↓reduceIte]
    exact float_any hs h
  | int hf h =>
    rw [← hs, floatLike_iff] at hf
    obtain ⟨s', h1, h2, h3⟩ := integer_any hs hnb h
    simp only [bind_apply, getSt_apply, hf, Bool.false_eq_true, ↓reduceIte, cursor_apply, attempt_apply, h1]
    exact ⟨s', rfl, h2, h3⟩
  | other hf h hfl hle =>
    rw [← hs, floatLike_iff] at hf
    obtain ⟨s', h1, h2, h3⟩ := integer_badAny hs hnb h
    simp only [bind_apply, getSt_apply, hf, Bool.false_eq_true, ↓reduceIte, cursor_apply, attempt_apply, h1, setCursor_apply]
    obtain ⟨s2, g1, g2, g3⟩ := float_any (s := { s' with rest := s.rest, preWs := s.preWs, lastWs := s.lastWs }) hs hfl
    simp only [g1, bind_apply, getSt_apply, g2, h2, hle, ↓reduceIte]
    exact ⟨s2, rfl, g2, ⟨⟨g3.src.trans h3.src, g3.exts.trans h3.exts, g3.nv.trans h3.nv, g3.lastIdent.trans h3.lastIdent, g3.limit.trans h3.limit⟩,
      g3.preWs, g3.lastWs⟩⟩

theorem numberBody_bad {u r : Text} {e : Err} {s : St} (hs : s.rest = u) (hnb : ∀ r, u ≠ 'b' :: '\'' :: r) (h : BadNumberAt u e r) :
    Errs numberBody s e r := by
  unfold Errs numberBody
  cases h with
  | float hf h =>
    rw [← hs] at hf
    simp only [bind_apply, getSt_apply, floatLike_iff.mp hf, ↓reduceIte]
    exact float_badAny hs h
  | int hf h hfl =>
    rw [← hs, floatLike_iff] at hf
    obtain ⟨s', h1, h2, h3⟩ := integer_badAny hs hnb h
    simp only [bind_apply, getSt_apply, hf, Bool.false_eq_true, ↓reduceIte, cursor_apply, attempt_apply, h1, setCursor_apply]
    obtain ⟨s2, g1, g2, g3⟩ := float_badAny (s := { s' with rest := s.rest, preWs := s.preWs, lastWs := s.lastWs }) hs hfl
    simp only [g1, bind_apply, setCursor_apply, fail_apply]
    exact ⟨_, rfl, h2, ⟨⟨g3.src.trans h3.src, g3.exts.trans h3.exts, g3.nv.trans h3.nv, g3.lastIdent.trans h3.lastIdent, g3.limit.trans h3.limit⟩,
      h3.preWs, h3.lastWs⟩⟩
  | short hf h hfl hlt =>
    rw [← hs, floatLike_iff] at hf
    obtain ⟨s', h1, h2, h3⟩ := integer_badAny hs hnb h
    simp only [bind_apply, getSt_apply, hf, Bool.false_eq_true, ↓reduceIte, cursor_apply, attempt_apply, h1, setCursor_apply]
    obtain ⟨s2, g1, g2, g3⟩ := float_any (s := { s' with rest := s.rest, preWs := s.preWs, lastWs := s.lastWs }) hs hfl
    simp only [g1, bind_apply, getSt_apply, g2, h2, Nat.not_le.mpr hlt, ↓reduceIte, setCursor_apply, fail_apply]
    exact ⟨_, rfl, rfl, ⟨⟨g3.src.trans h3.src, g3.exts.trans h3.exts, g3.nv.trans h3.nv, g3.lastIdent.trans h3.lastIdent, g3.limit.trans h3.limit⟩,
      h3.preWs, h3.lastWs⟩⟩

/-- The words at the beginning. -/
theorem anyNumber_cases (s : St) : anyNumber s = numberBody s ∨ ∃ w x y tag r, WordAt s.rest w x y tag r ∧ (w = c!"inf" ∨ w = c!"NaN") ∧
    anyNumber s = .ok (if tag = some false then .f64 y else .f32 x) { s with prev := s.rest, rest := r } := by
  unfold anyNumber
  simp only [bind_apply]
  rcases consumeIdent_cases c!"inf" s with ⟨r, h1, h2, h3⟩ | ⟨-, h3⟩
  · exact .inr ⟨_, _, _, none, r, ⟨.inf, h1, h2⟩, .inl rfl, by simp [h3]⟩
  simp only [h3, Bool.false_eq_true, ↓reduceIte, bind_apply]
  rcases consumeIdent_cases c!"inff32" s with ⟨r, h1, h2, h3⟩ | ⟨-, h3⟩
  · exact .inr ⟨_, _, _, some true, r, ⟨.inf, h1, h2⟩, .inl rfl, by simp [h3]⟩
  simp only [h3, Bool.false_eq_true, ↓reduceIte, bind_apply]
  rcases consumeIdent_cases c!"inff64" s with ⟨r, h1, h2, h3⟩ | ⟨-, h3⟩
  · exact .inr ⟨_, _, _, some false, r, ⟨.inf, h1, h2⟩, .inl rfl, by simp [h3]⟩
  simp only [h3, Bool.false_eq_true, ↓reduceIte, bind_apply]
  rcases consumeIdent_cases c!"NaN" s with ⟨r, h1, h2, h3⟩ | ⟨-, h3⟩
  · exact .inr ⟨_, _, _, none, r, ⟨.nan, h1, h2⟩, .inr rfl, by simp [h3]⟩
  simp only [h3, Bool.false_eq_true, ↓reduceIte, bind_apply]
  rcases consumeIdent_cases c!"NaNf32" s with ⟨r, h1, h2, h3⟩ | ⟨-, h3⟩
  · exact .inr ⟨_, _, _, some true, r, ⟨.nan, h1, h2⟩, .inr rfl, by simp [h3]⟩
  simp only [h3, Bool.false_eq_true, ↓reduceIte, bind_apply]
  rcases consumeIdent_cases c!"NaNf64" s with ⟨r, h1, h2, h3⟩ | ⟨-, h3⟩
  · exact .inr ⟨_, _, _, some false, r, ⟨.nan, h1, h2⟩, .inr rfl, by simp [h3]⟩
  simp only [h3, Bool.false_eq_true, ↓reduceIte]
  exact .inl rfl

/-- A word is no integer. -/
theorem word_number {u w r : Text} {x : F32} {y : F64} {tag : Option Bool} (h : WordAt u w x y tag r) (hw : w = c!"inf" ∨ w = c!"NaN") :
    NumberAt u (if tag = some false then .f64 y else .f32 x) r := by
  obtain ⟨v, c, d, hu, hc, hd⟩ : ∃ v c d, u = c :: d :: v ∧ (c = 'i' ∧ d = 'n' ∨ c = 'N' ∧ d = 'a') ∧ True := by
    rcases hw with rfl | rfl
    · exact ⟨_, _, _, h.2.1, .inl ⟨rfl, rfl⟩, trivial⟩
    · exact ⟨_, _, _, h.2.1, .inr ⟨rfl, rfl⟩, trivial⟩
  have hh : hexVal c = none ∧ c ≠ '_' ∧ c ≠ '+' ∧ c ≠ '-' ∧ c ≠ '0' := by
    rcases hc with ⟨rfl, -⟩ | ⟨rfl, -⟩ <;> decide
  have hl : r.length ≤ u.length := by rw [h.2.1]; simp; omega
  refine .other (e := .expectedInteger) (l := u) ?_ ?_ (.word h) hl
  · rw [floatLike_iff, hu]
    rcases hc with ⟨rfl, rfl⟩ | ⟨rfl, rfl⟩ <;> simp [nextIsFloat, isFloatChar, isDigit, findSub]
  · have hsp : NumSplit u .none .dec [] u := by
      refine ⟨by rw [hu]; simp, rfl, fun _ => ?_, fun _ b' r hb' e => ?_, by simp, ?_⟩
      · rw [hu]; simp [hh.2.2]
      · rw [hu] at e
        cases b' with
        | dec => exact hb' rfl
        | bin => injection e with e; exact hh.2.2.2.2 e
        | oct => injection e with e; exact hh.2.2.2.2 e
        | hex => injection e with e; exact hh.2.2.2.2 e
      · rintro c' r' e
        rw [hu] at e
        injection e with e
        rw [← e]; exact ⟨hh.2.1, hh.1⟩
    refine .plain (l := []) hsp (fun S r hS => ?_) (largest_type.mpr rfl) (.none rfl)
    have := hS.2.1
    rw [hu] at this
    rcases hc with ⟨rfl, rfl⟩ | ⟨rfl, rfl⟩ <;> cases S <;> simp [IntTy.suffix] at this

theorem number_ok {u r : Text} {n : Number} {s : St} (hs : s.rest = u) (h : NumberAt u n r) : RunsW anyNumber s n r := by
  by_cases hb : ∃ r, u = 'b' :: '\'' :: r
  · obtain ⟨q, hq⟩ := hb
    have hf : ¬ FloatLike u := by rw [floatLike_iff, hq, nextIsFloat_b]; simp
    have noF : ∀ {v r}, ¬ AnyFloat u v r := by
      intro v r h
      obtain ⟨s', g1, -⟩ := float_any (s := St.init u) rfl h
      rw [float_b (s := St.init u) hq .any] at g1
      cases g1
    cases h with
    | byte e hb => exact anyNumber_byte_ok (hs.trans e) hb
    | float h => exact absurd h hf
    | other _ _ h => exact absurd h noF
    | int _ h =>
      exfalso
      have bad : ∀ {sg b body after}, NumSplit u sg b body after → ValidBody b.base body → False := by
        intro sg b body after hsp hv
        have ht := hsp.text
        rw [hq] at ht
        cases sg with
        | plus => injection ht with e; revert e; decide
        | minus => injection ht with e; revert e; decide
        | none =>
          cases b with
          | bin => injection ht with e; revert e; decide
          | oct => injection ht with e; revert e; decide
          | hex => injection ht with e; revert e; decide
          | dec =>
            cases body with
            | nil => exact hv.1 rfl
            | cons c body =>
              injection ht with e
              subst e
              rcases hv.2.2 'b' (by simp) with e | ⟨d, e, hd⟩
              · revert e; decide
              · rw [show hexVal 'b' = some 11 by decide] at e
                cases e
                revert hd; decide
      cases h with
      | plain hsp _ hv => exact bad hsp hv
      | suffix hsp _ hv => exact bad hsp hv
  · have hnb : ∀ r, u ≠ 'b' :: '\'' :: r := fun r e => hb ⟨r, e⟩
    have hg := numberBody_ok hs hnb h
    rcases anyNumber_cases s with e | ⟨w, x, y, tag, r', hw, hw', e⟩
    · unfold RunsW; rw [e]; exact hg
    · have hg' := numberBody_ok hs hnb (hs ▸ word_number hw hw')
      obtain ⟨s1, a1, a2, a3⟩ := hg
      obtain ⟨s2, b1, b2, b3⟩ := hg'
      rw [a1] at b1
      cases b1
      exact ⟨_, e, b2.symm.trans a2, ⟨⟨rfl, rfl, rfl, rfl, rfl⟩, rfl, rfl⟩⟩

theorem number_bad {u r : Text} {e : Err} {s : St} (hs : s.rest = u) (hnb : ∀ r, u ≠ 'b' :: '\'' :: r) (h : BadNumberAt u e r) :
    Errs anyNumber s e r := by
  have hg := numberBody_bad hs hnb h
  rcases anyNumber_cases s with e | ⟨w, x, y, tag, r', hw, hw', -⟩
  · unfold Errs; rw [e]; exact hg
  · obtain ⟨s2, b1, -⟩ := numberBody_ok hs hnb (hs ▸ word_number hw hw')
    obtain ⟨s1, a1, -⟩ := hg
    rw [a1] at b1
    cases b1

theorem number_total (u : Text) : (∃ n r, NumberAt u n r) ∨ ∃ e r, BadNumberAt u e r := by
  by_cases hf : FloatLike u
  · rcases anyFloat_total u with ⟨v, r, h⟩ | ⟨e, r, h⟩
    · exact .inl ⟨_, _, .float hf h⟩
    · exact .inr ⟨_, _, .float hf h⟩
  · rcases anyInt_total u with ⟨T, v, r, h⟩ | ⟨e, l, h⟩
    · exact .inl ⟨_, _, .int hf h⟩
    · rcases anyFloat_total u with ⟨v, r, h'⟩ | ⟨e', r, h'⟩
      · by_cases hle : r.length ≤ l.length
        · exact .inl ⟨_, _, .other hf h h' hle⟩
        · exact .inr ⟨_, _, .short hf h h' (by omega)⟩
      · exact .inr ⟨_, _, .int hf h h'⟩

theorem number_iff {s : St} {n : Number} {r : Text} : (∃ s', anyNumber s = .ok n s' ∧ s'.rest = r) ↔ NumberAt s.rest n r := by
  constructor
  · rintro ⟨s', h, rfl⟩
    by_cases hb : ∃ r, s.rest = 'b' :: '\'' :: r
    · obtain ⟨q, hq⟩ := hb
      obtain ⟨t, k, h1, h2, rfl, -⟩ := anyNumber_byte_sound (by rw [hq]; rfl) h
      exact .byte h1 h2
    · have hnb : ∀ r, s.rest ≠ 'b' :: '\'' :: r := fun r e => hb ⟨r, e⟩
      rcases number_total s.rest with ⟨n', r', hg⟩ | ⟨e, r', hg⟩
      · obtain ⟨_, h3, rfl, -⟩ := number_ok rfl hg
        rw [h3] at h; cases h; exact hg
      · obtain ⟨_, h3, -⟩ := number_bad rfl hnb hg
        rw [h3] at h; cases h
  · intro h
    obtain ⟨s', h1, h2, -⟩ := number_ok rfl h
    exact ⟨s', h1, h2⟩

end Ron
