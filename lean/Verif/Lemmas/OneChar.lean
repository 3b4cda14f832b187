import Verif.Spec.OneChar
import Verif.Lemmas.StringsSound
import Verif.Lemmas.Number
/-! Character and byte literals: the readers accept exactly the literals of the specification. -/

set_option linter.unusedSimpArgs false

namespace Ron

/-- An escape in a literal of one character, with what `parse_escape` makes of it. -/
inductive One (enc : EscEnc) : Text → EscChar → Prop
  | simple {c : Char} {n : Nat} : simpleEsc c = some n → One enc [c] (.ascii (UInt8.ofNat n))
  | bin {c1 c2 : Char} {d1 d2 : Nat} : enc = .binary → hexVal c1 = some d1 → hexVal c2 = some d2 →
      One enc ['x', c1, c2] (.ascii (UInt8.ofNat (d1 * 16 + d2)))
  | hex {c1 c2 : Char} {d1 d2 : Nat} : enc = .utf8 → hexVal c1 = some d1 → hexVal c2 = some d2 → d1 * 16 + d2 < 128 →
      One enc ['x', c1, c2] (.utf8 (Char.ofNat (d1 * 16 + d2)))
  | uni {ds : Text} {ch : Char} : ds ≠ [] → ds.length ≤ 6 → (∀ c ∈ ds, ∃ d, hexVal c = some d) →
      ch.toNat = posValue 16 (litDigits ds) → One enc ('u' :: '{' :: ds ++ ['}']) (.utf8 ch)

theorem byte_ascii {n : Nat} (hn : n < 256) {ch : Char} (h : utf8One [UInt8.ofNat n] = some ch) : n < 128 ∧ ch = Char.ofNat n := by
  have hE := utf8One_first h (by
    intro p q e hq
    cases p with
    | nil => rfl
    | cons y p =>
      simp at e
      exact absurd e.2.2 hq)
  have hl : (utf8Enc ch).length = 1 := by rw [← hE]; rfl
  have hlt : ch.toNat < 128 := by
    unfold utf8Enc at hl
    grind
  rw [utf8Enc_ascii hlt] at hE
  simp only [List.cons.injEq, and_true] at hE
  have : n = ch.toNat := by
    have := congrArg UInt8.toNat hE
    rw [UInt8.toNat_ofNat', UInt8.toNat_ofNat'] at this
    omega
  subst this
  exact ⟨hlt, (Char.ofNat_toNat ch).symm⟩

theorem one_sound {enc : EscEnc} {s s' : St} {x : EscChar} (h : parseEscape enc true s = .ok x s') :
    ∃ e, s.rest = e ++ s'.rest ∧ One enc e x ∧ KeepsW s s' := by
  unfold parseEscape at h
  replace h := bind_ok h; obtain ⟨c, s1, h1, h⟩ := h
  obtain ⟨hr, he⟩ := nextChar_inv h1
  have hk : KeepsW s s1 := by rw [he]; exact KeepsW.rest _ _
  have simp_case : ∀ (n : Nat), simpleEsc c = some n → (pure (EscChar.ascii (UInt8.ofNat n)) : P EscChar) s1 = .ok x s' →
      ∃ e, s.rest = e ++ s'.rest ∧ One enc e x ∧ KeepsW s s' := by
    intro n hn hp
    simp only [pure_apply, Res.ok.injEq] at hp
    obtain ⟨rfl, rfl⟩ := hp
    exact ⟨[c], by rw [hr]; rfl, .simple hn, hk⟩
  replace h := ite_inv h; rcases h with ⟨hc, h⟩ | ⟨-, h⟩
  · rw [beq_iff_eq] at hc; subst hc; exact simp_case 39 (by decide) h
  replace h := ite_inv h; rcases h with ⟨hc, h⟩ | ⟨-, h⟩
  · rw [beq_iff_eq] at hc; subst hc; exact simp_case 34 (by decide) h
  replace h := ite_inv h; rcases h with ⟨hc, h⟩ | ⟨-, h⟩
  · rw [beq_iff_eq] at hc; subst hc; exact simp_case 92 (by decide) h
  replace h := ite_inv h; rcases h with ⟨hc, h⟩ | ⟨-, h⟩
  · rw [beq_iff_eq] at hc; subst hc; exact simp_case 10 (by decide) h
  replace h := ite_inv h; rcases h with ⟨hc, h⟩ | ⟨-, h⟩
  · rw [beq_iff_eq] at hc; subst hc; exact simp_case 13 (by decide) h
  replace h := ite_inv h; rcases h with ⟨hc, h⟩ | ⟨-, h⟩
  · rw [beq_iff_eq] at hc; subst hc; exact simp_case 9 (by decide) h
  replace h := ite_inv h; rcases h with ⟨hc, h⟩ | ⟨-, h⟩
  · rw [beq_iff_eq] at hc; subst hc; exact simp_case 0 (by decide) h
  replace h := ite_inv h; rcases h with ⟨hc, h⟩ | ⟨-, h⟩
  · rw [beq_iff_eq] at hc; subst hc
    replace h := bind_ok h; obtain ⟨b, s2, h2, h⟩ := h
    obtain ⟨c1, c2, d1, d2, hr2, v1, v2, rfl, he2⟩ := decodeAsciiEscape_inv h2
    have hk2 : KeepsW s s2 := by rw [he2]; exact hk.trans (KeepsW.rest _ _)
    have hrr : s.rest = 'x' :: c1 :: c2 :: s2.rest := by rw [hr, hr2]
    rw [ite_P] at h
    split at h
    · next hb =>
      simp only [pure_apply, Res.ok.injEq] at h
      obtain ⟨rfl, rfl⟩ := h
      exact ⟨['x', c1, c2], by rw [hrr]; rfl, .bin hb v1 v2, hk2⟩
    · next hb =>
      have henc : enc = .utf8 := by
        cases enc with
        | binary => exact absurd rfl hb
        | utf8 => rfl
      cases h3 : utf8One [UInt8.ofNat (d1 * 16 + d2)] with
      | some ch =>
        rw [h3] at h
        simp only [pure_apply, Res.ok.injEq] at h
        obtain ⟨rfl, rfl⟩ := h
        obtain ⟨g1, rfl⟩ := byte_ascii (hexVal_byte v1 v2) h3
        exact ⟨['x', c1, c2], by rw [hrr]; rfl, .hex henc v1 v2 g1, hk2⟩
      | none =>
        rw [h3] at h
        simp only [↓reduceIte] at h
        cases h
  replace h := ite_inv h; rcases h with ⟨hc, h⟩ | ⟨-, h⟩
  · rw [beq_iff_eq] at hc; subst hc
    replace h := bind_ok h; obtain ⟨u, s2, h2, h⟩ := h
    obtain ⟨hr2, he2⟩ := expectChar_inv h2
    replace h := bind_ok h; obtain ⟨⟨v, k⟩, s3, h3, h⟩ := h
    obtain ⟨ds, g1, g2, g3, g4, g5, g6⟩ := uniDigits_sound _ _ _ _ _ _ _ h3
    simp only [Nat.zero_mul, Nat.zero_add] at g4 g5
    subst g4 g5
    dsimp only at h
    rw [ite_P] at h
    split at h
    · cases h
    · next hk0 =>
      replace h := bind_ok h; obtain ⟨u, s4, h4, h⟩ := h
      obtain ⟨hr4, he4⟩ := expectChar_inv h4
      cases hch : charOf? (posValue 16 (litDigits ds)) with
      | some ch =>
        rw [hch] at h
        simp only [pure_apply, Res.ok.injEq] at h
        obtain ⟨rfl, rfl⟩ := h
        refine ⟨'u' :: '{' :: ds ++ ['}'], by rw [hr, hr2, g1, hr4]; simp,
          .uni (by rintro rfl; simp at hk0) g2 g3 (charOf_inv hch), ?_⟩
        rw [he4, g6, he2]
        exact hk.trans ((KeepsW.step _ _ _).trans ((KeepsW.rest _ _).trans (KeepsW.step _ _ _)))
      | none => rw [hch] at h; cases h
  · cases h

theorem one_ok {enc : EscEnc} {e r : Text} {x : EscChar} {s : St} (hs : s.rest = e ++ r) (h : One enc e x) :
    RunsW (parseEscape enc true) s x r := by
  cases h with
  | @simple c n h =>
    exact ⟨_, parseEscape_simple (by simpa using hs) h, rfl, KeepsW.of' (KeepsW.refl _)⟩
  | @bin c1 c2 d1 d2 hb h1 h2 =>
    have hs' : s.rest = 'x' :: (c1 :: c2 :: r) := by simpa using hs
    have hdec := decodeAsciiEscape_ok (s := { s with rest := c1 :: c2 :: r }) rfl h1 h2
    refine ⟨{ s with rest := r }, ?_, rfl, KeepsW.of' (KeepsW.refl _)⟩
    subst hb
    unfold parseEscape
    simp only [bind_apply, nextChar_cons hs']
    simp [hdec]
  | @hex c1 c2 d1 d2 hb h1 h2 h3 =>
    have hs' : s.rest = 'x' :: (c1 :: c2 :: r) := by simpa using hs
    have hdec := decodeAsciiEscape_ok (s := { s with rest := c1 :: c2 :: r }) rfl h1 h2
    have hc := ascii_char h3
    have henc : utf8Enc (Char.ofNat (d1 * 16 + d2)) = [UInt8.ofNat (d1 * 16 + d2)] := by
      rw [utf8Enc_ascii (by omega), hc]
    have hone := utf8One_enc (Char.ofNat (d1 * 16 + d2))
    rw [henc] at hone
    subst hb
    refine ⟨{ s with rest := r }, ?_, rfl, KeepsW.of' (KeepsW.refl _)⟩
    unfold parseEscape
    simp only [bind_apply, nextChar_cons hs']
    simp only [↓Char.reduceBEq, Bool.false_eq_true, ↓reduceIte, ite_P, bind_apply, hdec, reduceCtorEq, hone]
    rfl
  | @uni ds ch h1 h2 h3 h4 =>
    have hs' : s.rest = 'u' :: ('{' :: (ds ++ '}' :: r)) := by simpa using hs
    refine ⟨{ s with prev := '}' :: r, rest := r }, ?_, rfl, KeepsW.step _ _ _⟩
    unfold parseEscape
    simp only [bind_apply, nextChar_cons hs']
    have g1 := expectChar_ok (s := { s with rest := '{' :: (ds ++ '}' :: r) }) (.invalidEscape c!"Missing { in Unicode escape") rfl
    have g2 := uniDigits_ok 6 0 0 ds r { s with prev := '{' :: (ds ++ '}' :: r), rest := ds ++ '}' :: r } rfl h2 h3
    have g3 := expectChar_ok (s := { s with prev := '{' :: (ds ++ '}' :: r), rest := '}' :: r }) (.invalidEscape c!"No } at the end of Unicode escape") rfl
    simp only [Nat.zero_mul, Nat.zero_add] at g2
    have hl : (ds.length == 0) = false := by cases ds <;> simp_all
    simp [g1, g2, g3, hl, charOf_eq h4, h1]

/-! ### Characters -/

theorem charLit_sound {s s' : St} {c : Char} (h : charLit s = .ok c s') :
    ∃ t, s.rest = t ++ s'.rest ∧ CharLit t c ∧ KeepsW s s' := by
  unfold charLit at h
  obtain ⟨_, s1, h1, h⟩ := bind_ok h
  obtain ⟨r1, e1⟩ := expectChar_inv h1
  obtain ⟨d, s2, h2, h⟩ := bind_ok h
  obtain ⟨r2, e2⟩ := nextChar_inv h2
  obtain ⟨c', s3, h3, h⟩ := bind_ok h
  obtain ⟨_, s4, h4, h⟩ := bind_ok h
  obtain ⟨r4, e4⟩ := expectChar_inv h4
  cases h
  have k2 : KeepsW s s2 := by rw [e2, e1]; exact (KeepsW.step s s.rest s1.rest).trans (KeepsW.rest _ _)
  have k4 : KeepsW s3 s' := by rw [e4]; exact KeepsW.step _ _ _
  rcases ite_inv h3 with ⟨hd, h3⟩ | ⟨hd, h3⟩
  · rw [beq_iff_eq] at hd; subst hd
    obtain ⟨x, s5, h5, h3⟩ := bind_ok h3
    obtain ⟨e, g1, g2, g3⟩ := one_sound h5
    have fin : s3 = s5 → CharEsc e c → ∃ t, s.rest = t ++ s'.rest ∧ CharLit t c ∧ KeepsW s s' := by
      rintro rfl hc
      exact ⟨_, by rw [r1, r2, g1, r4]; simp, .esc hc, k2.trans (g3.trans k4)⟩
    cases g2 with
    | @simple d n hn =>
      cases h3
      have := simpleEsc_lt hn
      have e0 : (UInt8.ofNat n).toNat = n := by rw [UInt8.toNat_ofNat']; omega
      rw [e0] at fin ⊢
      exact fin rfl (.simple hn)
    | bin hb => cases hb
    | hex _ v1 v2 hlt => cases h3; exact fin rfl (.hex v1 v2 hlt)
    | uni u1 u2 u3 u4 => cases h3; exact fin rfl (.uni u1 u2 u3 u4)
  · cases h3
    rw [beq_iff_eq] at hd
    exact ⟨['\'', c, '\''], by rw [r1, r2, r4]; rfl, .plain hd, k2.trans k4⟩

theorem charLit_ok' {s : St} {t : Text} {c : Char} {r : Text} (hs : s.rest = t ++ r) (h : CharLit t c) : RunsW charLit s c r := by
  unfold charLit
  cases h with
  | plain hc =>
    have g1 := expectChar_ok (s := s) .expectedChar (c := '\'') (r := c :: '\'' :: r) (by simpa using hs)
    refine ⟨_, ?_, rfl, KeepsW.step s ('\'' :: r) r⟩
    have g2 := nextChar_cons (s := { s with prev := s.rest, rest := c :: '\'' :: r }) (c := c) (r := '\'' :: r) rfl
    have g3 := expectChar_ok (s := { s with prev := s.rest, rest := '\'' :: r }) .expectedChar (c := '\'') (r := r) rfl
    have hb : (c == '\\') = false := by simpa using hc
    simp only [bind_apply, g1, g2, hb, Bool.false_eq_true, ↓reduceIte, pure_apply, g3]
  | @esc e c hc =>
    have g1 := expectChar_ok (s := s) .expectedChar (c := '\'') (r := '\\' :: (e ++ '\'' :: r)) (by simpa using hs)
    have g2 := nextChar_cons (s := { s with prev := s.rest, rest := '\\' :: (e ++ '\'' :: r) }) (c := '\\') (r := e ++ '\'' :: r) rfl
    have key : ∃ x, One .utf8 e x ∧ (match x with | .ascii b => Char.ofNat b.toNat | .utf8 c => c) = c := by
      cases hc with
      | simple hn =>
        have := simpleEsc_lt hn
        exact ⟨_, .simple hn, by dsimp only; rw [UInt8.toNat_ofNat', Nat.mod_eq_of_lt (by omega)]⟩
      | hex v1 v2 hlt => exact ⟨_, .hex rfl v1 v2 hlt, rfl⟩
      | uni u1 u2 u3 u4 => exact ⟨_, .uni u1 u2 u3 u4, rfl⟩
    obtain ⟨x, hx, rfl⟩ := key
    obtain ⟨s3, k1, k2, k3⟩ := one_ok (s := { s with prev := s.rest, rest := e ++ '\'' :: r }) (r := '\'' :: r) rfl hx
    have g3 := expectChar_ok (s := s3) .expectedChar (c := '\'') (r := r) k2
    refine ⟨_, ?_, rfl, (KeepsW.of k3).trans (KeepsW.step s3 s3.rest r)⟩
    simp only [bind_apply, g1, g2, beq_self_eq_true, ↓reduceIte, k1]
    cases x <;> simp only [pure_apply, g3]

/-! ### Bytes -/

theorem byteLiteral_sound {b : Text} {s s' : St} {x : IntTy × Int} (h : byteLiteral .any b s = .ok x s') :
    ∃ t n, s.rest = t ++ s'.rest ∧ ByteLit ('b' :: '\'' :: t) n ∧ x = (.u8, (n : Int)) ∧ KeepsW s s' := by
  unfold byteLiteral at h
  obtain ⟨d, s2, h2, h⟩ := bind_ok h
  obtain ⟨r2, e2⟩ := nextChar_inv h2
  obtain ⟨n, s3, h3, h⟩ := bind_ok h
  obtain ⟨q, s4, h4, h⟩ := bind_ok h
  have k2 : KeepsW s s2 := by rw [e2]; exact KeepsW.rest _ _
  rcases consumeChar_inv h4 with ⟨rfl, r4, e4⟩ | ⟨rfl, -⟩
  · cases h
    have k4 : KeepsW s3 s' := by rw [e4]; exact KeepsW.step _ _ _
    rcases ite_inv h3 with ⟨hd, h3⟩ | ⟨hd, h3⟩
    · rw [beq_iff_eq] at hd; subst hd
      obtain ⟨x, s5, h5, h3⟩ := bind_ok h3
      obtain ⟨e, g1, g2, g3⟩ := one_sound h5
      cases g2 with
      | @simple d m hn =>
        cases h3
        have := simpleEsc_lt hn
        have e0 : (UInt8.ofNat m).toNat = m := by rw [UInt8.toNat_ofNat']; omega
        rw [e0]
        exact ⟨_, m, by rw [r2, g1, r4]; simp, .esc (.simple hn), rfl, k2.trans (g3.trans k4)⟩
      | @bin c1 c2 d1 d2 _ v1 v2 =>
        cases h3
        have := hexVal_byte v1 v2
        have e0 : (UInt8.ofNat (d1 * 16 + d2)).toNat = d1 * 16 + d2 := by rw [UInt8.toNat_ofNat']; omega
        rw [e0]
        exact ⟨_, d1 * 16 + d2, by rw [r2, g1, r4]; simp, .esc (.hex v1 v2), rfl, k2.trans (g3.trans k4)⟩
      | hex hb => cases hb
      | uni => cases h3
    · rw [beq_iff_eq] at hd
      rcases ite_inv h3 with ⟨hlt, h3⟩ | ⟨-, h3⟩
      · cases h3
        exact ⟨[d, '\''], d.toNat, by rw [r2, r4]; rfl, .plain hd hlt, rfl, k2.trans k4⟩
      · cases h3
  · cases h

theorem byteLiteral_ok {b : Text} {s : St} {t r : Text} {n : Nat} (hs : s.rest = t ++ r) (h : ByteLit ('b' :: '\'' :: t) n) :
    RunsW (byteLiteral .any b) s (.u8, (n : Int)) r := by
  have fin : ∀ s3 : St, s3.rest = '\'' :: r → KeepsW s s3 → (∃ g : P Nat, byteLiteral .any b s = (do
      let n ← g
      if ← consumeChar '\'' then
        let s ← getSt
        IntTarget.any.tryFrom .u8 n (b.take (b.length - s.rest.length))
      else fail .expectedByteLiteral : P (IntTy × Int)) { s with rest := s.rest.drop 1 } ∧ g { s with rest := s.rest.drop 1 } = .ok n s3) →
      RunsW (byteLiteral .any b) s (.u8, (n : Int)) r := by
    rintro s3 r3 k3 ⟨g, hg, h3⟩
    have g4 : consumeChar '\'' s3 = .ok true { s3 with prev := s3.rest, rest := r } := by
      have := consumeStr_true (s := s3) (t := ['\'']) (by rw [r3]; simp)
      rw [r3] at this
      rw [r3]
      exact this
    refine ⟨_, ?_, rfl, k3.trans (KeepsW.step s3 s3.rest r)⟩
    rw [hg]
    simp only [bind_apply, h3, g4, ↓reduceIte, getSt_apply]
    rfl
  cases h with
  | @plain c hc hlt =>
    have g1 := nextChar_cons (s := s) (c := c) (r := '\'' :: r) (by simpa using hs)
    have e : { s with rest := s.rest.drop 1 } = { s with rest := '\'' :: r } := by rw [hs]; rfl
    refine fin { s with rest := '\'' :: r } rfl (KeepsW.rest _ _) ⟨pure c.toNat, ?_, by rw [e]; rfl⟩
    unfold byteLiteral
    have hb : (c == '\\') = false := by simpa using hc
    rw [e]
    simp only [bind_apply, g1, hb, Bool.false_eq_true, ↓reduceIte, hlt, pure_apply]
  | @esc e n he =>
    have g1 := nextChar_cons (s := s) (c := '\\') (r := e ++ '\'' :: r) (by simpa using hs)
    have e0 : { s with rest := s.rest.drop 1 } = { s with rest := e ++ '\'' :: r } := by rw [hs]; simp
    have key : ∃ m : UInt8, One .binary e (.ascii m) ∧ m.toNat = n := by
      cases he with
      | simple hn =>
        have := simpleEsc_lt hn
        exact ⟨_, .simple hn, by rw [UInt8.toNat_ofNat']; omega⟩
      | hex v1 v2 =>
        have := hexVal_byte v1 v2
        exact ⟨_, .bin rfl v1 v2, by rw [UInt8.toNat_ofNat']; omega⟩
    obtain ⟨m, hm, rfl⟩ := key
    obtain ⟨s3, k1, k2, k3⟩ := one_ok (s := { s with rest := e ++ '\'' :: r }) (r := '\'' :: r) rfl hm
    refine fin s3 k2 ((KeepsW.rest _ _).trans k3) ⟨fun _ => .ok m.toNat s3, ?_, rfl⟩
    unfold byteLiteral
    rw [e0]
    simp only [bind_apply, g1, beq_self_eq_true, ↓reduceIte, k1, pure_apply]
    rfl

variable [Env]

theorem float_b {s : St} {r : Text} (hs : s.rest = 'b' :: r) (tg : FloatTarget) : float tg s = .err .expectedFloat s := by
  have hs' : floatSpecial tg floatLiterals s = .ok none s := by
    have gen : ∀ ls : List (Text × F32 × F64), (∀ e ∈ ls, ∃ d t, e.1 = d :: t ∧ d ≠ 'b') → floatSpecial tg ls s = .ok none s := by
      intro ls
      induction ls with
      | nil => exact fun _ => rfl
      | cons e ls ih =>
        intro he
        obtain ⟨lit, v32, v64⟩ := e
        obtain ⟨d, t, hd, hd'⟩ := he _ (.head _)
        dsimp only at hd
        subst hd
        have hb : ∀ u : Text, startsWith s.rest (d :: u) = false := by intro u; rw [hs]; simp [hd']
        have h1 : consumeIdent (d :: t) s = .ok false s := consumeIdent_false (.inl (hb t))
        unfold floatSpecial
        simp only [bind_apply, h1, Bool.false_eq_true, ↓reduceIte, getSt_apply, List.cons_append, hb, Bool.false_and]
        exact ih fun e he' => he e (.tail _ he')
    exact gen _ (by
      intro e he
      simp only [floatLiterals, List.mem_cons, List.not_mem_nil, or_false] at he
      rcases he with rfl | rfl | rfl | rfl | rfl | rfl <;> exact ⟨_, _, rfl, by decide⟩)
  unfold float
  have ht : s.rest.takeWhile isFloatChar = [] := by rw [hs]; rfl
  have hn : (findSub c!".." (s.rest.takeWhile isFloatChar)).getD (s.rest.takeWhile isFloatChar).length = 0 := by rw [ht]; rfl
  simp only [bind_apply, hs', getSt_apply, hn, beq_self_eq_true, ↓reduceIte]
  rfl

omit [Env] in
theorem nextIsFloat_b (r : Text) : nextIsFloat ('b' :: r) = false := by
  unfold nextIsFloat
  have ht : ('b' :: r).takeWhile isFloatChar = [] := rfl
  have : findSub c!".." [] = none := rfl
  simp [ht, this]

theorem integer_byte {s : St} {r : Text} (hs : s.rest = 'b' :: '\'' :: r) (tg : IntTarget) :
    integer tg s = byteLiteral tg s.rest { s with prev := s.rest, rest := r } := by
  unfold integer
  have g1 : peekCharOrEof s = .ok 'b' s := by simp only [peekCharOrEof, hs]
  have g2 : consumeStr c!"b'" s = .ok true { s with prev := s.rest, rest := r } := by
    have := consumeStr_true (s := s) (t := c!"b'") (by rw [hs]; simp)
    rw [hs] at this
    rw [hs]
    exact this
  simp only [bind_apply, getSt_apply, g1, beq_self_eq_true, ↓reduceIte, Char.reduceBEq, Bool.false_eq_true, g2]

theorem anyNumber_byte {s : St} {r : Text} (hs : s.rest = 'b' :: '\'' :: r) :
    (∃ x s', byteLiteral .any s.rest { s with prev := s.rest, rest := r } = .ok x s' ∧ anyNumber s = .ok (.int x.1 x.2) s') ∨
    (∃ e s', byteLiteral .any s.rest { s with prev := s.rest, rest := r } = .err e s' ∧ ∃ e s', anyNumber s = .err e s') := by
  have hi : startsWith s.rest ['i'] = false := by rw [hs]; rfl
  have hN : startsWith s.rest ['N'] = false := by rw [hs]; rfl
  have hf : nextIsFloat s.rest = false := by rw [hs]; exact nextIsFloat_b _
  have hint := integer_byte hs .any
  cases hb : byteLiteral .any s.rest { s with prev := s.rest, rest := r } with
  | ok x s' =>
    refine .inl ⟨x, s', rfl, ?_⟩
    rw [anyNumber_notSpecial hi hN]
    simp only [bind_apply, getSt_apply, hf, Bool.false_eq_true, ↓reduceIte, cursor_apply, attempt_apply, hint, hb]
    rfl
  | err e s' =>
    refine .inr ⟨e, s', rfl, ?_⟩
    rw [anyNumber_notSpecial hi hN]
    have hfl := float_b (s := { s' with rest := s.rest, preWs := s.preWs, lastWs := s.lastWs }) hs .any
    simp only [bind_apply, getSt_apply, hf, Bool.false_eq_true, ↓reduceIte, cursor_apply, attempt_apply, hint, hb, setCursor_apply, hfl]
    exact ⟨_, _, rfl⟩

theorem anyNumber_byte_sound {s s' : St} {n : Number} (hb : startsWith s.rest c!"b'" = true) (h : anyNumber s = .ok n s') :
    ∃ t k, s.rest = t ++ s'.rest ∧ ByteLit t k ∧ n = .int .u8 (k : Int) ∧ KeepsW s s' := by
  obtain ⟨r, hr⟩ := (startsWith_iff _ _).mp hb
  have hr' : s.rest = 'b' :: '\'' :: r := hr
  rcases anyNumber_byte hr' with ⟨x, u, h1, h2⟩ | ⟨_, _, _, e, u, h2⟩
  · rw [h] at h2
    cases h2
    obtain ⟨t, k, g1, g2, rfl, g4⟩ := byteLiteral_sound h1
    exact ⟨_, k, by rw [hr']; exact congrArg (fun z => 'b' :: '\'' :: z) g1, g2, rfl, KeepsW.of g4⟩
  · rw [h] at h2; cases h2

omit [Env] in
theorem ByteLit.form {t : Text} {k : Nat} (h : ByteLit t k) : ∃ u, t = 'b' :: '\'' :: u := by cases h <;> exact ⟨_, rfl⟩

theorem anyNumber_byte_ok {s : St} {t r : Text} {k : Nat} (hs : s.rest = t ++ r) (h : ByteLit t k) :
    RunsW anyNumber s (.int .u8 (k : Int)) r := by
  obtain ⟨u, rfl⟩ := h.form
  have hs' : s.rest = 'b' :: '\'' :: (u ++ r) := by simpa using hs
  obtain ⟨s3, k1, k2, k3⟩ := byteLiteral_ok (b := s.rest) (s := { s with prev := s.rest, rest := u ++ r }) (r := r) rfl h
  rcases anyNumber_byte hs' with ⟨x, v, h1, h2⟩ | ⟨_, _, h1, -⟩
  · rw [k1] at h1
    cases h1
    exact ⟨s3, h2, k2, KeepsW.of k3⟩
  · rw [k1] at h1; cases h1

end Ron
