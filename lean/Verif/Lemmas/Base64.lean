import Verif.Spec.Base64
import Verif.Lemmas.Strings
/-! The base64 recogniser. -/

set_option linter.unusedSimpArgs false

namespace Ron

theorem base64Index_spec : ∀ c n, B64Char c n → base64Index c = some n ∧ n < 64 ∧ c.toNat < 128 ∧ c ≠ '=' := by
  have key : ∀ n, n < 64 → base64Index (b64Char n) = some n ∧ n < 64 ∧ (b64Char n).toNat < 128 ∧ b64Char n ≠ '=' := by decide
  intro c n h
  have hn : n < 64 := by
    have := (List.getElem?_eq_some_iff.mp h).1
    exact this
  have : c = b64Char n := by
    unfold b64Char; unfold B64Char at h; rw [List.getD_eq_getElem?_getD, h]; rfl
  subst this
  exact key n hn

theorem b64Char_spec {n : Nat} (h : n < 64) : B64Char (b64Char n) n := by
  have key : ∀ n, n < 64 → b64Chars[n]? = some (b64Char n) := by decide
  exact key n h

theorem base64Index_char : ∀ c n, base64Index c = some n → B64Char c n := by
  intro c n h
  have e : ∀ m : Nat, m < 128 → base64Index (Char.ofNat m) = some n → B64Char (Char.ofNat m) n := by
    intro m hm hh
    have key : ∀ m, m < 128 → ∀ k, base64Index (Char.ofNat m) = some k → b64Chars[k]? = some (Char.ofNat m) := by
      have : ∀ m, m < 128 → (base64Index (Char.ofNat m)).all (fun k => decide (b64Chars[k]? = some (Char.ofNat m))) = true := by
        decide
      intro m hm k hk
      have := this m hm
      rw [hk] at this; simpa using this
    exact key m hm n hh
  have hc : c.toNat < 128 := by
    unfold base64Index at h
    simp only [Bool.and_eq_true, decide_eq_true_eq, char_le_iff, beq_iff_eq] at h
    split at h
    · next h1 => have h2 : ('Z' : Char).toNat = 90 := by decide
                 omega
    · split at h
      · next h1 => have h2 : ('z' : Char).toNat = 122 := by decide
                   omega
      · split at h
        · next h1 => have h2 : ('9' : Char).toNat = 57 := by decide
                     omega
        · split at h
          · next h1 => subst h1; decide
          · split at h
            · next h1 => subst h1; decide
            · cases h
  have := e c.toNat hc
  rw [Char.ofNat_toNat] at this
  exact this h

theorem or_shift (a b i : Nat) (h : b < 2 ^ i) : (a * 2 ^ i) ||| b = a * 2 ^ i + b := by
  rw [Nat.mul_comm, ← Nat.two_pow_add_eq_or_of_lt h]

/-- Two characters: one byte, four bits left. -/
theorem loop_two {c1 c2 : Char} {a b : Nat} {t : Text} {out : List UInt8} (h1 : base64Index c1 = some a)
    (h2 : base64Index c2 = some b) (hb : b < 64) :
    base64Loop (c1 :: c2 :: t) 0 0 out =
      base64Loop t 4 (b % 16 * 4096) (out ++ [byteOf ((a * 2^18 + b * 2^12) / 2^16)]) := by
  have e : (0 ||| a <<< 10 ||| b <<< 4) = a * 1024 + b * 16 := by
    rw [Nat.zero_or, Nat.shiftLeft_eq, Nat.shiftLeft_eq]
    exact or_shift a (b * 2 ^ 4) 10 (by omega)
  rw [base64Loop, h1]
  simp only [Nat.zero_add, show ¬ (6 ≥ 8) by omega, ↓reduceIte, Nat.sub_zero]
  rw [base64Loop, h2]
  simp only [show (6 + 6 ≥ 8) by omega, ↓reduceIte, show 10 - 6 = 4 by omega, e]
  rw [show (a * 1024 + b * 16) % 256 * 256 = b % 16 * 4096 by omega,
    show (a * 1024 + b * 16) / 256 = (a * 2 ^ 18 + b * 2 ^ 12) / 2 ^ 16 by omega]
  rfl

/-- A third character: a second byte, two bits left. -/
theorem loop_three {c3 : Char} {b c : Nat} {t : Text} {out : List UInt8} (h3 : base64Index c3 = some c) (hc : c < 64) :
    base64Loop (c3 :: t) 4 (b % 16 * 4096) out =
      base64Loop t 2 (c % 4 * 16384) (out ++ [byteOf (b % 16 * 16 + c / 4)]) := by
  have e : (b % 16 * 4096 ||| c <<< 6) = b % 16 * 4096 + c * 64 := by
    rw [Nat.shiftLeft_eq]
    exact or_shift (b % 16) (c * 2 ^ 6) 12 (by omega)
  rw [base64Loop, h3]
  simp only [show (4 + 6 ≥ 8) by omega, ↓reduceIte, show 10 - 4 = 6 by omega, e]
  rw [show (b % 16 * 4096 + c * 64) % 256 * 256 = c % 4 * 16384 by omega,
    show (b % 16 * 4096 + c * 64) / 256 = b % 16 * 16 + c / 4 by omega]
  rfl

/-- The fourth character: a third byte, nothing left. -/
theorem loop_four {c4 : Char} {c d : Nat} {t : Text} {out : List UInt8} (h4 : base64Index c4 = some d) (hd : d < 64) :
    base64Loop (c4 :: t) 2 (c % 4 * 16384) out = base64Loop t 0 0 (out ++ [byteOf (c % 4 * 64 + d)]) := by
  have e : (c % 4 * 16384 ||| d <<< 8) = c % 4 * 16384 + d * 256 := by
    rw [Nat.shiftLeft_eq]
    exact or_shift (c % 4) (d * 2 ^ 8) 14 (by omega)
  rw [base64Loop, h4]
  simp only [show (2 + 6 ≥ 8) by omega, ↓reduceIte, show 10 - 2 = 8 by omega, e]
  rw [show (c % 4 * 16384 + d * 256) % 256 * 256 = 0 by omega,
    show (c % 4 * 16384 + d * 256) / 256 = c % 4 * 64 + d by omega]
  rfl

/-- The three bytes of a full group. -/
theorem group4 {a b c d : Nat} (hc : c < 64) (hd : d < 64) :
    [byteOf ((a * 2^18 + b * 2^12) / 2^16), byteOf (b % 16 * 16 + c / 4), byteOf (c % 4 * 64 + d)] =
    [byteOf ((a * 2^18 + b * 2^12 + c * 2^6 + d) / 2^16), byteOf ((a * 2^18 + b * 2^12 + c * 2^6 + d) / 2^8 % 2^8),
      byteOf ((a * 2^18 + b * 2^12 + c * 2^6 + d) % 2^8)] := by
  rw [show (a * 2^18 + b * 2^12) / 2^16 = (a * 2^18 + b * 2^12 + c * 2^6 + d) / 2^16 by omega,
    show b % 16 * 16 + c / 4 = (a * 2^18 + b * 2^12 + c * 2^6 + d) / 2^8 % 2^8 by omega,
    show c % 4 * 64 + d = (a * 2^18 + b * 2^12 + c * 2^6 + d) % 2^8 by omega]

/-- The two bytes of a group with one padding character. -/
theorem group3 {a b c : Nat} (hc : c < 64) :
    [byteOf ((a * 2^18 + b * 2^12) / 2^16), byteOf (b % 16 * 16 + c / 4)] =
    [byteOf ((a * 2^18 + b * 2^12 + c * 2^6) / 2^16), byteOf ((a * 2^18 + b * 2^12 + c * 2^6) / 2^8 % 2^8)] := by
  rw [show (a * 2^18 + b * 2^12) / 2^16 = (a * 2^18 + b * 2^12 + c * 2^6) / 2^16 by omega,
    show b % 16 * 16 + c / 4 = (a * 2^18 + b * 2^12 + c * 2^6) / 2^8 % 2^8 by omega]

/-- The loop on a complete text. -/
theorem B64.loop {t : Text} {bs : List UInt8} (h : B64 t bs) : ∃ np pad, t = np ++ List.replicate pad '=' ∧ pad ≤ 2 ∧
    (∀ c ∈ np, c ≠ '=' ∧ c.toNat < 128) ∧ (np.length + pad) % 4 = 0 ∧
    ∀ out, base64Loop np 0 0 out = some (2 * pad, out ++ bs) := by
  induction h with
  | nil => exact ⟨[], 0, rfl, by omega, by simp, rfl, fun out => by simp [base64Loop]⟩
  | @full c1 c2 c3 c4 a b c d t bs h1 h2 h3 h4 _ ih =>
    obtain ⟨np, pad, rfl, hp, hnp, hl, ih⟩ := ih
    obtain ⟨i1, l1, a1, n1⟩ := base64Index_spec _ _ h1
    obtain ⟨i2, l2, a2, n2⟩ := base64Index_spec _ _ h2
    obtain ⟨i3, l3, a3, n3⟩ := base64Index_spec _ _ h3
    obtain ⟨i4, l4, a4, n4⟩ := base64Index_spec _ _ h4
    refine ⟨c1 :: c2 :: c3 :: c4 :: np, pad, rfl, hp, ?_, by simp; omega, fun out => ?_⟩
    · intro x hx
      simp only [List.mem_cons] at hx
      rcases hx with rfl | rfl | rfl | rfl | hx
      · exact ⟨n1, a1⟩
      · exact ⟨n2, a2⟩
      · exact ⟨n3, a3⟩
      · exact ⟨n4, a4⟩
      · exact hnp x hx
    · rw [loop_two i1 i2 l2, loop_three i3 l3, loop_four i4 l4, ih]
      have g := group4 (a := a) (b := b) l3 l4
      simp only [List.cons.injEq, and_true] at g
      obtain ⟨g1, g2, g3⟩ := g
      simp only [List.append_assoc, List.cons_append, List.nil_append, g1, g2, g3]
  | @pad1 c1 c2 c3 a b c h1 h2 h3 =>
    obtain ⟨i1, l1, a1, n1⟩ := base64Index_spec _ _ h1
    obtain ⟨i2, l2, a2, n2⟩ := base64Index_spec _ _ h2
    obtain ⟨i3, l3, a3, n3⟩ := base64Index_spec _ _ h3
    refine ⟨[c1, c2, c3], 1, rfl, by omega, ?_, by simp, fun out => ?_⟩
    · intro x hx
      simp only [List.mem_cons, List.not_mem_nil, or_false] at hx
      rcases hx with rfl | rfl | rfl
      · exact ⟨n1, a1⟩
      · exact ⟨n2, a2⟩
      · exact ⟨n3, a3⟩
    · rw [loop_two i1 i2 l2, loop_three i3 l3, base64Loop]
      have g := group3 (a := a) (b := b) l3
      simp only [List.cons.injEq, and_true] at g
      obtain ⟨g1, g2⟩ := g
      simp only [List.append_assoc, List.cons_append, List.nil_append, g1, g2]
  | @pad2 c1 c2 a b h1 h2 =>
    obtain ⟨i1, l1, a1, n1⟩ := base64Index_spec _ _ h1
    obtain ⟨i2, l2, a2, n2⟩ := base64Index_spec _ _ h2
    refine ⟨[c1, c2], 2, rfl, by omega, ?_, by simp, fun out => ?_⟩
    · intro x hx
      simp only [List.mem_cons, List.not_mem_nil, or_false] at hx
      rcases hx with rfl | rfl
      · exact ⟨n1, a1⟩
      · exact ⟨n2, a2⟩
    · rw [loop_two i1 i2 l2, base64Loop]

/-- Conversely, whatever the loop accepts is base64. -/
theorem loop_sound : ∀ (np : Text) (pad : Nat) (out res : List UInt8), pad ≤ 2 → base64Loop np 0 0 out = some (2 * pad, res) →
    ∃ bs, res = out ++ bs ∧ B64 (np ++ List.replicate pad '=') bs
  | [], pad, out, res, hp, h => by
    simp only [base64Loop, Option.some.injEq, Prod.mk.injEq] at h
    obtain rfl : pad = 0 := by omega
    exact ⟨[], by simp [h.2], .nil⟩
  | [c1], pad, out, res, hp, h => by
    rw [base64Loop] at h
    split at h
    · cases h
    · simp [base64Loop] at h; omega
  | [c1, c2], pad, out, res, hp, h => by
    cases h1 : base64Index c1 with
    | none => rw [base64Loop, h1] at h; cases h
    | some a =>
      cases h2 : base64Index c2 with
      | none => rw [base64Loop, h1] at h; simp only [Nat.zero_add, show ¬ (6 ≥ 8) by omega, ↓reduceIte] at h; rw [base64Loop, h2] at h; cases h
      | some b =>
        have s1 := base64Index_char _ _ h1
        have s2 := base64Index_char _ _ h2
        rw [loop_two h1 h2 (base64Index_spec _ _ s2).2.1, base64Loop] at h
        simp only [Option.some.injEq, Prod.mk.injEq] at h
        obtain rfl : pad = 2 := by omega
        exact ⟨_, h.2.symm, .pad2 s1 s2⟩
  | c1 :: c2 :: c3 :: t, pad, out, res, hp, h => by
    cases h1 : base64Index c1 with
    | none => rw [base64Loop, h1] at h; cases h
    | some a =>
      cases h2 : base64Index c2 with
      | none => rw [base64Loop, h1] at h; simp only [Nat.zero_add, show ¬ (6 ≥ 8) by omega, ↓reduceIte] at h; rw [base64Loop, h2] at h; cases h
      | some b =>
        have s1 := base64Index_char _ _ h1
        have s2 := base64Index_char _ _ h2
        have la := (base64Index_spec _ _ s1).2.1
        have lb := (base64Index_spec _ _ s2).2.1
        rw [loop_two h1 h2 lb] at h
        cases h3 : base64Index c3 with
        | none => rw [base64Loop, h3] at h; cases h
        | some c =>
          have s3 := base64Index_char _ _ h3
          have lc := (base64Index_spec _ _ s3).2.1
          rw [loop_three h3 lc] at h
          match t, h with
          | [], h =>
            rw [base64Loop] at h
            simp only [Option.some.injEq, Prod.mk.injEq] at h
            obtain rfl : pad = 1 := by omega
            refine ⟨_, ?_, .pad1 s1 s2 s3⟩
            rw [← h.2]
            rw [← group3 lc]; simp
          | c4 :: t, h =>
            cases h4 : base64Index c4 with
            | none => rw [base64Loop, h4] at h; cases h
            | some d =>
              have s4 := base64Index_char _ _ h4
              have ld := (base64Index_spec _ _ s4).2.1
              rw [loop_four h4 ld] at h
              obtain ⟨bs, rfl, hb⟩ := loop_sound t pad _ res hp h
              refine ⟨_, ?_, .full s1 s2 s3 s4 hb⟩
              have g := group4 (a := a) (b := b) lc ld
              simp only [List.cons.injEq, and_true] at g
              obtain ⟨g1, g2, g3⟩ := g
              simp only [List.append_assoc, List.cons_append, List.nil_append, g1, g2, g3]

theorem utf8EncAll_ascii_len {t : Text} (h : ∀ c ∈ t, c.toNat < 128) : (utf8EncAll t).length = t.length := by
  induction t with
  | nil => rfl
  | cons c t ih =>
    rw [utf8EncAll_cons, utf8Enc_ascii (h c (by simp))]
    simp [ih fun d hd => h d (by simp [hd])]

theorem strip_pad {np : Text} (pad : Nat) (h : ∀ c ∈ np, c ≠ '=') :
    ((np ++ List.replicate pad '=').reverse.dropWhile (· == '=')).reverse = np := by
  rw [List.reverse_append, List.reverse_replicate, List.dropWhile_append_of_pos (by simp)]
  have : np.reverse.dropWhile (· == '=') = np.reverse := by
    cases hr : np.reverse with
    | nil => rfl
    | cons c l =>
      have : c ∈ np := by rw [← List.mem_reverse, hr]; simp
      simp [h c this]
  rw [this, List.reverse_reverse]

theorem tryDecodeBase64_of {t : Text} {bs : List UInt8} (h : B64 t bs) : tryDecodeBase64 t = some bs := by
  obtain ⟨np, pad, rfl, hp, hnp, hl, hloop⟩ := h.loop
  have hasc : ∀ c ∈ np ++ List.replicate pad '=', c.toNat < 128 := by
    intro c hc
    rcases List.mem_append.mp hc with hc | hc
    · exact (hnp c hc).2
    · rw [(List.mem_replicate.mp hc).2]; decide
  unfold tryDecodeBase64
  rw [utf8EncAll_ascii_len hasc, strip_pad pad fun c hc => (hnp c hc).1]
  simp only [hloop]
  have h2 : (np ++ List.replicate pad '=').length - np.length = pad := by simp
  have h1 : (np ++ List.replicate pad '=').length % 4 = 0 := by simpa using hl
  have h3 : np.contains '=' = false := by
    apply Bool.eq_false_iff.mpr; intro hh
    exact (hnp '=' (by simpa using hh)).1 rfl
  have h4 : (np ++ List.replicate pad '=').all (fun c => decide (c.toNat < 128)) = true := by
    rw [List.all_eq_true]; intro c hc; exact decide_eq_true (hasc c hc)
  simp only [h1, h2, h3, h4, ne_eq, not_true_eq_false, ↓reduceIte, Bool.false_eq_true, Bool.not_true, List.nil_append]
  rw [if_neg (by omega), if_neg (by omega)]

theorem tryDecodeBase64_sound {t : Text} {bs : List UInt8} (h : tryDecodeBase64 t = some bs) : B64 t bs := by
  unfold tryDecodeBase64 at h
  simp only at h
  generalize hnp : (t.reverse.dropWhile (· == '=')).reverse = np at h
  have ht : t = np ++ List.replicate (t.length - np.length) '=' := by
    have h0 : t.reverse = t.reverse.takeWhile (· == '=') ++ t.reverse.dropWhile (· == '=') :=
      List.takeWhile_append_dropWhile.symm
    have h1 : t = np ++ (t.reverse.takeWhile (· == '=')).reverse := by
      rw [← hnp, ← List.reverse_append, ← h0, List.reverse_reverse]
    have h2 : (t.reverse.takeWhile (· == '=')).reverse = List.replicate (t.length - np.length) '=' := by
      rw [List.eq_replicate_iff]
      refine ⟨?_, ?_⟩
      · have := congrArg List.length h1
        simp only [List.length_append, List.length_reverse] at this ⊢; omega
      · intro c hc
        rw [List.mem_reverse] at hc
        have := List.all_eq_true.mp (List.all_takeWhile (p := (· == '=')) (l := t.reverse)) c hc
        simpa using this
    rw [← h2]; exact h1
  split at h
  · cases h
  · split at h
    · cases h
    · next hp =>
      split at h
      · cases h
      · split at h
        · cases h
        · split at h
          · cases h
          · next bits out hl =>
            split at h
            · cases h
            · next hb =>
              cases h
              obtain rfl : bits = (t.length - np.length) * 2 := by simpa using hb
              obtain ⟨bs', rfl, hB⟩ := loop_sound np (t.length - np.length) [] bs (by omega) (by rw [hl, Nat.mul_comm])
              rw [← ht] at hB
              simpa using hB

theorem b64Enc_spec : ∀ bs : List UInt8, B64 (b64Enc bs) bs
  | [] => .nil
  | [x] => by
    have hx := x.toNat_lt
    have := B64.pad2 (b64Char_spec (n := x.toNat / 4) (by omega)) (b64Char_spec (n := x.toNat % 4 * 16) (by omega))
    rw [show (x.toNat / 4 * 2 ^ 18 + x.toNat % 4 * 16 * 2 ^ 12) / 2 ^ 16 = x.toNat by omega] at this
    simpa [byteOf, b64Enc] using this
  | [x, y] => by
    have hx := x.toNat_lt
    have hy := y.toNat_lt
    have := B64.pad1 (b64Char_spec (n := x.toNat / 4) (by omega)) (b64Char_spec (n := x.toNat % 4 * 16 + y.toNat / 16) (by omega))
      (b64Char_spec (n := y.toNat % 16 * 4) (by omega))
    rw [show (x.toNat / 4 * 2 ^ 18 + (x.toNat % 4 * 16 + y.toNat / 16) * 2 ^ 12 + y.toNat % 16 * 4 * 2 ^ 6) / 2 ^ 16 = x.toNat by omega,
      show (x.toNat / 4 * 2 ^ 18 + (x.toNat % 4 * 16 + y.toNat / 16) * 2 ^ 12 + y.toNat % 16 * 4 * 2 ^ 6) / 2 ^ 8 % 2 ^ 8 = y.toNat by omega] at this
    simpa [byteOf, b64Enc] using this
  | x :: y :: z :: bs => by
    have hx := x.toNat_lt
    have hy := y.toNat_lt
    have hz := z.toNat_lt
    have := B64.full (b64Char_spec (n := x.toNat / 4) (by omega)) (b64Char_spec (n := x.toNat % 4 * 16 + y.toNat / 16) (by omega))
      (b64Char_spec (n := y.toNat % 16 * 4 + z.toNat / 64) (by omega)) (b64Char_spec (n := z.toNat % 64) (by omega)) (b64Enc_spec bs)
    generalize hN : x.toNat / 4 * 2 ^ 18 + (x.toNat % 4 * 16 + y.toNat / 16) * 2 ^ 12 + (y.toNat % 16 * 4 + z.toNat / 64) * 2 ^ 6 + z.toNat % 64 = N at this
    have h1 : N / 2 ^ 16 = x.toNat := by omega
    have h2 : N / 2 ^ 8 % 2 ^ 8 = y.toNat := by omega
    have h3 : N % 2 ^ 8 = z.toNat := by omega
    rw [h1, h2, h3] at this
    simpa [byteOf, b64Enc] using this

end Ron
