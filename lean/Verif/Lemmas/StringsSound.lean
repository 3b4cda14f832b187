import Verif.Lemmas.Strings
/-! What the string readers accept is a literal of the specification. -/

set_option linter.unusedSimpArgs false

namespace Ron

theorem bind_ok {α β : Type} {f : P α} {g : α → P β} {s s' : St} {b : β} (h : (f >>= g) s = .ok b s') :
    ∃ a s1, f s = .ok a s1 ∧ g a s1 = .ok b s' := by
  rw [bind_apply] at h
  cases hf : f s with
  | ok a s1 => rw [hf] at h; exact ⟨a, s1, rfl, h⟩
  | err e s1 => rw [hf] at h; cases h

theorem advance_bind {β : Type} {n : Nat} {s : St} (h : n ≤ s.rest.length) (g : Unit → P β) :
    (advance n >>= g) s = g () { s with prev := s.rest, rest := s.rest.drop n } := by rw [bind_apply, advance_ok h]
theorem advance_inv {β : Type} {n : Nat} {s s' : St} {b : β} {g : Unit → P β} (h : (advance n >>= g) s = .ok b s') :
    n ≤ s.rest.length ∧ g () { s with prev := s.rest, rest := s.rest.drop n } = .ok b s' := by
  by_cases hn : n ≤ s.rest.length
  · rw [advance_bind hn] at h
    exact ⟨hn, h⟩
  · rw [bind_apply] at h
    unfold advance at h
    rw [if_neg hn] at h
    cases h
theorem getSt_bind {β : Type} (g : St → P β) (s : St) : (getSt >>= g) s = g s s := rfl
theorem skipNextChar_bind {β : Type} (g : Unit → P β) (s : St) :
    (skipNextChar >>= g) s = g () { s with rest := s.rest.drop 1 } := rfl

theorem ite_inv {α : Type} {c : Prop} [Decidable c] {f g : P α} {s : St} {r : Res α} (h : (if c then f else g) s = r) :
    (c ∧ f s = r) ∨ (¬ c ∧ g s = r) := by
  by_cases hc : c
  · rw [if_pos hc] at h; exact .inl ⟨hc, h⟩
  · rw [if_neg hc] at h; exact .inr ⟨hc, h⟩

theorem nextChar_inv {s s' : St} {c : Char} (h : nextChar s = .ok c s') : s.rest = c :: s'.rest ∧ s' = { s with rest := s'.rest } := by
  unfold nextChar at h
  split at h
  · cases h
  · next hr => cases h; exact ⟨hr, rfl⟩

theorem consumeStr_inv {t : Text} {s s' : St} {b : Bool} (h : consumeStr t s = .ok b s') :
    (b = true ∧ s.rest = t ++ s'.rest ∧ s' = { s with prev := s.rest, rest := s'.rest }) ∨
    (b = false ∧ s' = s ∧ startsWith s.rest t = false) := by
  rw [consumeStr_apply] at h
  split at h
  · next hs =>
    cases h
    obtain ⟨r, hr⟩ := (startsWith_iff _ _).mp hs
    left
    refine ⟨rfl, ?_, rfl⟩
    simp [hr]
  · next hs => cases h; exact .inr ⟨rfl, rfl, by simpa using hs⟩

theorem consumeChar_inv {c : Char} {s s' : St} {b : Bool} (h : consumeChar c s = .ok b s') :
    (b = true ∧ s.rest = c :: s'.rest ∧ s' = { s with prev := s.rest, rest := s'.rest }) ∨
    (b = false ∧ s' = s ∧ startsWith s.rest [c] = false) := by
  have := consumeStr_inv (t := [c]) h
  simpa using this

theorem expectChar_inv {c : Char} {e : Err} {s s' : St} (h : expectChar c e s = .ok () s') :
    s.rest = c :: s'.rest ∧ s' = { s with prev := s.rest, rest := s'.rest } := by
  unfold expectChar at h
  obtain ⟨b, s1, h1, h2⟩ := bind_ok h
  rcases consumeChar_inv h1 with ⟨rfl, hr, he⟩ | ⟨rfl, rfl, hr⟩
  · simp only [↓reduceIte, pure_apply] at h2
    cases h2; exact ⟨hr, he⟩
  · simp at h2

theorem decodeHexP_inv {c : Char} {d : Nat} {s s' : St} (h : decodeHexP c s = .ok d s') : hexVal c = some d ∧ s' = s := by
  unfold decodeHexP at h
  rw [decodeHex_eq] at h
  cases hd : hexVal c with
  | some n => rw [hd] at h; cases h; exact ⟨rfl, rfl⟩
  | none => rw [hd] at h; cases h

theorem decodeAsciiEscape_inv {s s' : St} {b : Nat} (h : decodeAsciiEscape s = .ok b s') :
    ∃ c1 c2 d1 d2, s.rest = c1 :: c2 :: s'.rest ∧ hexVal c1 = some d1 ∧ hexVal c2 = some d2 ∧ b = d1 * 16 + d2 ∧
      s' = { s with rest := s'.rest } := by
  unfold decodeAsciiEscape at h
  replace h := bind_ok h; obtain ⟨c1, s1, h1, h⟩ := h
  replace h := bind_ok h; obtain ⟨d1, s2, h2, h⟩ := h
  replace h := bind_ok h; obtain ⟨c2, s3, h3, h⟩ := h
  replace h := bind_ok h; obtain ⟨d2, s4, h4, h⟩ := h
  obtain ⟨r1, e1⟩ := nextChar_inv h1
  obtain ⟨v1, rfl⟩ := decodeHexP_inv h2
  obtain ⟨r3, e3⟩ := nextChar_inv h3
  obtain ⟨v2, rfl⟩ := decodeHexP_inv h4
  cases h
  refine ⟨c1, c2, d1, d2, by rw [r1, r3], v1, v2, rfl, ?_⟩
  rw [e3, e1]

theorem KeepsW.rest (s : St) (r : Text) : KeepsW s { s with rest := r } := ⟨⟨rfl, rfl, rfl, rfl, rfl⟩, rfl, rfl⟩

theorem hexVal_byte {d1 d2 : Nat} {c1 c2 : Char} (h1 : hexVal c1 = some d1) (h2 : hexVal c2 = some d2) : d1 * 16 + d2 < 256 := by
  have := hexVal_lt h1; have := hexVal_lt h2; omega

/-- If no beginning of `acc` decodes but `acc` does, it is the encoding of one character. -/
theorem utf8One_first {acc : List UInt8} {c : Char} (h : utf8One acc = some c)
    (hp : ∀ p q, acc = p ++ q → q ≠ [] → utf8One p = none) : acc = utf8Enc c := by
  unfold utf8One at h
  cases hd : utf8Dec acc with
  | none => rw [hd] at h; cases h
  | some t =>
    rw [hd] at h
    cases t with
    | nil => cases h
    | cons c' cs =>
      obtain rfl : c' = c := by simpa using h
      have ha := utf8Dec_some hd
      rw [utf8EncAll_cons] at ha
      cases cs with
      | nil => simpa using ha
      | cons x xs =>
        have hne : utf8EncAll (x :: xs) ≠ [] := by
          rw [utf8EncAll_cons]
          have := utf8Enc_ne_nil x
          simp [this]
        have := hp _ _ ha hne
        rw [utf8One_enc] at this
        cases this

theorem moreBytes_sound (n : Nat) : ∀ (acc : List UInt8) (s s' : St) (ch : Char), moreBytes n acc s = .ok ch s' →
    (∀ p q, acc = p ++ q → utf8One p = none) →
    ∃ e bs, s.rest = '\\' :: (e ++ s'.rest) ∧ HexSeq e bs ∧ acc ++ bs = utf8Enc ch ∧ KeepsW s s' := by
  induction n with
  | zero => intro acc s s' ch h; cases h
  | succ n ih =>
    intro acc s s' ch h hacc
    rw [moreBytes] at h
    replace h := bind_ok h; obtain ⟨b, s1, h1, h⟩ := h
    rcases consumeStr_inv h1 with ⟨rfl, hr1, he1⟩ | ⟨rfl, rfl, -⟩
    · simp only [↓reduceIte] at h
      replace h := bind_ok h; obtain ⟨b, s2, h2, h⟩ := h
      obtain ⟨c1, c2, d1, d2, hr2, v1, v2, rfl, he2⟩ := decodeAsciiEscape_inv h2
      have hk : KeepsW s s2 := by
        rw [he2, he1]; exact (KeepsW.step s _ _).trans (KeepsW.rest _ _)
      have hr : s.rest = '\\' :: 'x' :: c1 :: c2 :: s2.rest := by rw [hr1, hr2]; rfl
      have hpre : ∀ p q, acc ++ [UInt8.ofNat (d1 * 16 + d2)] = p ++ q → q ≠ [] → utf8One p = none := by
        intro p q e hq
        rcases List.append_eq_append_iff.mp e with ⟨a, ha, hb⟩ | ⟨a, ha, hb⟩
        · cases a with
          | nil => simp only [List.append_nil] at ha; rw [ha]; exact hacc acc [] (by simp)
          | cons x a =>
            have := congrArg List.length hb
            simp at this
            exact absurd this.2 hq
        · exact hacc p a ha
      cases h3 : utf8One (acc ++ [UInt8.ofNat (d1 * 16 + d2)]) with
      | some c =>
        rw [h3] at h
        obtain ⟨rfl, rfl⟩ : c = ch ∧ s2 = s' := by simpa using h
        exact ⟨['x', c1, c2], [UInt8.ofNat (d1 * 16 + d2)], by rw [hr]; rfl, .one v1 v2, utf8One_first h3 hpre, hk⟩
      | none =>
        rw [h3] at h
        obtain ⟨e, bs, g1, g2, g3, g4⟩ := ih _ _ _ _ h (by
          intro p q e
          by_cases hq : q = []
          · subst hq; simp only [List.append_nil] at e; rw [← e]; exact h3
          · exact hpre p q e hq)
        exact ⟨'x' :: c1 :: c2 :: '\\' :: e, _, by rw [hr, g1]; rfl, .more v1 v2 g2, by rw [← g3]; simp, hk.trans g4⟩
    · simp at h

theorem peekCharOrEof_inv {s s' : St} {c : Char} (h : peekCharOrEof s = .ok c s') : s' = s ∧ ∃ r, s.rest = c :: r := by
  unfold peekCharOrEof at h
  split at h
  · cases h
  · next hr => cases h; exact ⟨rfl, _, hr⟩

theorem uniDigits_sound (n : Nat) : ∀ (acc k : Nat) (s s' : St) (v k' : Nat), uniDigits n acc k s = .ok (v, k') s' →
    ∃ ds, s.rest = ds ++ s'.rest ∧ ds.length ≤ n ∧ (∀ c ∈ ds, ∃ d, hexVal c = some d) ∧
      v = acc * 16 ^ ds.length + posValue 16 (litDigits ds) ∧ k' = k + ds.length ∧ s' = { s with rest := s'.rest } := by
  induction n with
  | zero =>
    intro acc k s s' v k' h
    simp only [uniDigits, pure_apply, Res.ok.injEq, Prod.mk.injEq] at h
    obtain ⟨⟨rfl, rfl⟩, rfl⟩ := h
    exact ⟨[], by simp, by simp, by simp, by simp [litDigits, posValue], by simp, rfl⟩
  | succ n ih =>
    intro acc k s s' v k' h
    rw [uniDigits] at h
    replace h := bind_ok h; obtain ⟨c, s1, h1, h⟩ := h
    obtain ⟨rfl, r, hr⟩ := peekCharOrEof_inv h1
    rw [ite_P] at h
    split at h
    · simp only [pure_apply, Res.ok.injEq, Prod.mk.injEq] at h
      obtain ⟨⟨rfl, rfl⟩, rfl⟩ := h
      exact ⟨[], by simp, by simp, by simp, by simp [litDigits, posValue], by simp, rfl⟩
    · rw [skipNextChar_bind] at h
      replace h := bind_ok h; obtain ⟨d, s2, h2, h⟩ := h
      obtain ⟨hd, rfl⟩ := decodeHexP_inv h2
      obtain ⟨ds, g1, g2, g3, g4, g5, g6⟩ := ih _ _ _ _ _ _ h
      refine ⟨c :: ds, ?_, by simp; omega, ?_, ?_, by simp; omega, ?_⟩
      · simp only [hr, List.drop_succ_cons, List.drop_zero] at g1
        rw [hr, g1]; rfl
      · intro x hx
        rcases List.mem_cons.mp hx with rfl | hx
        · exact ⟨d, hd⟩
        · exact g3 x hx
      · rw [g4, litDigits_cons ds hd, posValue, litDigits_hex g3, List.length_cons, Nat.pow_succ]; grind
      · rw [g6]

theorem charOf_inv {n : Nat} {c : Char} (h : charOf? n = some c) : c.toNat = n := by
  unfold charOf? at h
  split at h
  · next hv => cases h; rfl
  · cases h

theorem parseEscape_sound {enc : EscEnc} {s s' : St} {x : EscChar} (h : parseEscape enc false s = .ok x s') :
    ∃ e, s.rest = e ++ s'.rest ∧ Esc enc.isBin e x.bytes ∧ KeepsW s s' := by
  unfold parseEscape at h
  replace h := bind_ok h; obtain ⟨c, s1, h1, h⟩ := h
  obtain ⟨hr, he⟩ := nextChar_inv h1
  have hk : KeepsW s s1 := by rw [he]; exact KeepsW.rest _ _
  have simp_case : ∀ (n : Nat), simpleEsc c = some n → (pure (EscChar.ascii (UInt8.ofNat n)) : P EscChar) s1 = .ok x s' →
      ∃ e, s.rest = e ++ s'.rest ∧ Esc enc.isBin e x.bytes ∧ KeepsW s s' := by
    intro n hn hp
    simp only [pure_apply, Res.ok.injEq] at hp
    obtain ⟨rfl, rfl⟩ := hp
    exact ⟨[c], by rw [hr]; rfl, .simple hn, hk⟩
  replace h := ite_inv h; rcases h with ⟨hc, h⟩ | ⟨-, h⟩
  · rw [beq_iff_eq] at hc; subst hc; exact simp_case 39 (by decide) h
  replace h := ite_inv h; rcases h with ⟨hc, h⟩ | ⟨-, h⟩
  · rw [beq_iff_eq] at hc; subst hc; exact simp_case 34 (by decide) h
  replace h := ite_inv h; rcases h with ⟨hc, h⟩ | ⟨-, h⟩
  · rw [beq_iff_eq] at hc; subst hc; exact simp_case 92 (by decide) h
  replace h := ite_inv h; rcases h with ⟨hc, h⟩ | ⟨-, h⟩
  · rw [beq_iff_eq] at hc; subst hc; exact simp_case 10 (by decide) h
  replace h := ite_inv h; rcases h with ⟨hc, h⟩ | ⟨-, h⟩
  · rw [beq_iff_eq] at hc; subst hc; exact simp_case 13 (by decide) h
  replace h := ite_inv h; rcases h with ⟨hc, h⟩ | ⟨-, h⟩
  · rw [beq_iff_eq] at hc; subst hc; exact simp_case 9 (by decide) h
  replace h := ite_inv h; rcases h with ⟨hc, h⟩ | ⟨-, h⟩
  · rw [beq_iff_eq] at hc; subst hc; exact simp_case 0 (by decide) h
  replace h := ite_inv h; rcases h with ⟨hc, h⟩ | ⟨-, h⟩
  · rw [beq_iff_eq] at hc; subst hc
    replace h := bind_ok h; obtain ⟨b, s2, h2, h⟩ := h
    obtain ⟨c1, c2, d1, d2, hr2, v1, v2, rfl, he2⟩ := decodeAsciiEscape_inv h2
    have hk2 : KeepsW s s2 := by rw [he2]; exact hk.trans (KeepsW.rest _ _)
    have hrr : s.rest = 'x' :: c1 :: c2 :: s2.rest := by rw [hr, hr2]
    rw [ite_P] at h
    split at h
    · next hb =>
      subst hb
      simp only [pure_apply, Res.ok.injEq] at h
      obtain ⟨rfl, rfl⟩ := h
      exact ⟨['x', c1, c2], by rw [hrr]; rfl, .hex v1 v2 (.inl rfl), hk2⟩
    · next hb =>
      have henc : enc = .utf8 := by
        cases enc with
        | binary => exact absurd rfl hb
        | utf8 => rfl
      subst henc
      cases h3 : utf8One [UInt8.ofNat (d1 * 16 + d2)] with
      | some ch =>
        rw [h3] at h
        simp only [pure_apply, Res.ok.injEq] at h
        obtain ⟨rfl, rfl⟩ := h
        have hE := utf8One_first h3 (by
          intro p q e hq
          cases p with
          | nil => rfl
          | cons y p =>
            simp at e
            exact absurd e.2.2 hq)
        refine ⟨['x', c1, c2], by rw [hrr]; rfl, .multi rfl ?_, hk2⟩
        rw [← hE]; exact .one v1 v2
      | none =>
        rw [h3] at h
        simp only [Bool.false_eq_true, ↓reduceIte] at h
        replace h := bind_ok h; obtain ⟨ch, s3, h4, h⟩ := h
        simp only [pure_apply, Res.ok.injEq] at h
        obtain ⟨rfl, rfl⟩ := h
        obtain ⟨e, bs, g1, g2, g3, g4⟩ := moreBytes_sound _ _ _ _ _ h4 (by
          intro p q e
          cases p with
          | nil => rfl
          | cons y p =>
            obtain ⟨e1, e2⟩ := List.cons.inj e
            obtain ⟨rfl, -⟩ := List.append_eq_nil_iff.mp e2.symm
            rw [← e1]; exact h3)
        refine ⟨'x' :: c1 :: c2 :: '\\' :: e, by rw [hrr, g1]; rfl, .multi rfl ?_, hk2.trans g4⟩
        rw [← g3]; exact .more v1 v2 g2
  replace h := ite_inv h; rcases h with ⟨hc, h⟩ | ⟨-, h⟩
  · rw [beq_iff_eq] at hc; subst hc
    replace h := bind_ok h; obtain ⟨u, s2, h2, h⟩ := h
    obtain ⟨hr2, he2⟩ := expectChar_inv h2
    replace h := bind_ok h; obtain ⟨⟨v, k⟩, s3, h3, h⟩ := h
    obtain ⟨ds, g1, g2, g3, g4, g5, g6⟩ := uniDigits_sound _ _ _ _ _ _ _ h3
    simp only [Nat.zero_mul, Nat.zero_add] at g4 g5
    subst g4 g5
    dsimp only at h
    rw [ite_P] at h
    split at h
    · cases h
    · next hk0 =>
      replace h := bind_ok h; obtain ⟨u, s4, h4, h⟩ := h
      obtain ⟨hr4, he4⟩ := expectChar_inv h4
      cases hch : charOf? (posValue 16 (litDigits ds)) with
      | some ch =>
        rw [hch] at h
        simp only [pure_apply, Res.ok.injEq] at h
        obtain ⟨rfl, rfl⟩ := h
        refine ⟨'u' :: '{' :: ds ++ ['}'], by rw [hr, hr2, g1, hr4]; simp,
          .uni (by rintro rfl; simp at hk0) g2 g3 (charOf_inv hch), ?_⟩
        rw [he4, g6, he2]
        exact hk.trans ((KeepsW.step _ _ _).trans ((KeepsW.rest _ _).trans (KeepsW.step _ _ _)))
      | none => rw [hch] at h; cases h
  · cases h

/-! ### Bodies -/

theorem plain_of_run {t : Text} : ∀ c ∈ t.takeWhile (fun c => !(c == '"' || c == '\\')), c ≠ '"' ∧ c ≠ '\\' := by
  intro c hc
  have := List.all_eq_true.mp (List.all_takeWhile (l := t)) c hc
  simpa using this

theorem StrBody.prepend {bin : Bool} {p t : Text} {bs : List UInt8} (hp : Plain p) (h : StrBody bin t bs) :
    StrBody bin (p ++ t) (utf8EncAll p ++ bs) := by
  induction p with
  | nil => exact h
  | cons c p ih =>
    have := hp c (by simp)
    have h2 := StrBody.plain this.1 this.2 (ih fun d hd => hp d (by simp [hd]))
    simpa using h2

theorem StrBody.append {bin : Bool} {t u : Text} {bs cs : List UInt8} (h : StrBody bin t bs) (h' : StrBody bin u cs) :
    StrBody bin (t ++ u) (bs ++ cs) := by
  induction h with
  | nil => exact h'
  | plain h1 h2 _ ih => simpa using StrBody.plain h1 h2 ih
  | esc h1 _ ih => simpa using StrBody.esc h1 ih

theorem escLoop_sound {enc : EscEnc} (f : Nat) : ∀ (i : Nat) (acc res : List UInt8) (n : Nat) (s s' : St) (q u : Text),
    escLoop enc f i acc s = .ok (res, n) s' → s.rest = q ++ '\\' :: u → q.length = i →
    ∃ t bs, s.rest = q ++ t ++ '"' :: s'.rest.drop n ∧ StrBody enc.isBin t bs ∧ res = acc ++ bs ∧ KeepsW s s' := by
  induction f with
  | zero => intro i acc res n s s' q u h; cases h
  | succ f ih =>
    intro i acc res n s s' q u h hq hi
    have hd : s.rest.drop (i + 1) = u := by
      rw [hq, ← hi, show q ++ '\\' :: u = (q ++ ['\\']) ++ u by simp, List.drop_left' (by simp)]
    rw [escLoop] at h
    replace h := (advance_inv h).2
    replace h := bind_ok h; obtain ⟨x, s1, h1, h⟩ := h
    obtain ⟨e, g1, g2, g3⟩ := parseEscape_sound h1
    have hu : u = e ++ s1.rest := by rw [← hd]; exact g1
    rw [getSt_bind] at h
    dsimp only at h
    have hk : KeepsW s s1 := g3.of
    generalize hw : whileLen (fun c => !(c == '"' || c == '\\')) s1.rest = w at h
    have htake : s1.rest.take w = s1.rest.takeWhile (fun c => !(c == '"' || c == '\\')) := by rw [← hw, take_whileLen]
    have hplain : Plain (s1.rest.take w) := by rw [htake]; exact plain_of_run
    have hsplit : s1.rest = s1.rest.take w ++ s1.rest.drop w := (List.take_append_drop w s1.rest).symm
    cases hdr : s1.rest.drop w with
    | nil => rw [hdr] at h; cases h
    | cons c rr =>
      rw [hdr] at h
      dsimp only at h
      have hlen : (s1.rest.take w).length = w := by rw [htake, ← hw]; rfl
      have hstop : c = '"' ∨ c = '\\' := by
        have h0 := drop_whileLen (fun c => !(c == '"' || c == '\\')) s1.rest
        rw [hw, hdr] at h0
        have := List.head?_dropWhile_not (fun c => !(c == '"' || c == '\\')) s1.rest
        rw [← h0] at this
        simp only [List.head?_cons, Bool.not_not] at this
        simp at this
        by_cases hc : c = '"'
        · exact .inl hc
        · exact .inr (this hc)
      rw [ite_P] at h
      split at h
      · next hc =>
        rw [beq_iff_eq] at hc; subst hc
        obtain ⟨t, bs, k1, k2, k3, k4⟩ := ih _ _ _ _ _ _ (s1.rest.take w) rr h (by rw [← hdr]; exact hsplit) hlen
        refine ⟨'\\' :: (e ++ (s1.rest.take w ++ t)), x.bytes ++ (utf8EncAll (s1.rest.take w) ++ bs), ?_, .esc g2 (k2.prepend hplain), ?_, hk.trans k4⟩
        · rw [hq, hu]
          conv => lhs; rw [k1]
          simp
        · rw [k3]; simp
      · next hc =>
        have hc : c = '"' := by
          rcases hstop with rfl | rfl
          · rfl
          · simp at hc
        subst hc
        simp only [pure_apply, Res.ok.injEq, Prod.mk.injEq] at h
        obtain ⟨⟨rfl, rfl⟩, rfl⟩ := h
        have hb := StrBody.esc g2 ((StrBody.nil (bin := enc.isBin)).prepend hplain)
        refine ⟨'\\' :: (e ++ s1.rest.take w), x.bytes ++ utf8EncAll (s1.rest.take w), ?_, by simpa using hb, by simp, hk⟩
        have : s1.rest.drop (w + 1) = rr := by
          rw [← List.drop_drop, hdr]; rfl
        rw [this, hq, hu]
        conv => lhs; rw [hsplit, hdr]
        simp

theorem escapedByteBuf_sound {enc : EscEnc} {s s' : St} {bs : List UInt8} {n : Nat} (h : escapedByteBuf enc s = .ok (bs, n) s') :
    ∃ t, s.rest = t ++ '"' :: s'.rest.drop n ∧ StrBody enc.isBin t bs ∧ KeepsW s s' := by
  unfold escapedByteBuf at h
  simp only [bind_apply, getSt_apply, ite_P] at h
  split at h
  · cases h
  · next hne =>
    generalize hw : whileLen (fun c => c != '"') s.rest = w at *
    have htake : s.rest.take w = s.rest.takeWhile (fun c => c != '"') := by rw [← hw, take_whileLen]
    have hnq : ∀ c ∈ s.rest.take w, c ≠ '"' := by
      rw [htake]
      intro c hc
      have := List.all_eq_true.mp (List.all_takeWhile (l := s.rest)) c hc
      simpa using this
    have hlen : (s.rest.take w).length = w := by rw [htake, ← hw]; rfl
    have hdr : ∃ rr, s.rest.drop w = '"' :: rr := by
      cases hd : s.rest.drop w with
      | nil =>
        exfalso
        have h1 := congrArg List.length hd
        have h2 := whileLen_le (fun c => c != '"') s.rest
        simp at h1 hne; omega
      | cons c rr =>
        have h0 := drop_whileLen (fun c => c != '"') s.rest
        rw [hw, hd] at h0
        have := List.head?_dropWhile_not (fun c => c != '"') s.rest
        rw [← h0] at this
        simp at this
        exact ⟨rr, by rw [this]⟩
    obtain ⟨rr, hdr⟩ := hdr
    have hsplit : s.rest = s.rest.take w ++ '"' :: rr := by rw [← hdr]; exact (List.take_append_drop w s.rest).symm
    generalize hb : s.rest.take w = body at *
    obtain ⟨a, u, e1, e2, e3, e4⟩ := whileLen_split (fun c => c != '\\') body
    have hpl : Plain a := fun c hc => ⟨hnq c (by rw [e1]; simp [hc]), by have := e2 c hc; simpa using this⟩
    split at h
    · next hlt =>
      cases u with
      | nil => rw [e3, e1] at hlt; simp at hlt
      | cons c u =>
        have := e4 c u rfl
        simp at this
        subst this
        have hta : body.take (whileLen (fun c => c != '\\') body) = a := by rw [e3, e1]; simp
        rw [hta, e3] at h
        obtain ⟨t, bs', k1, k2, k3, k4⟩ := escLoop_sound _ _ _ _ _ _ _ a (u ++ '"' :: rr) h (by rw [hsplit, e1]; simp) rfl
        exact ⟨a ++ t, k1, by rw [k3]; exact k2.prepend hpl, k4⟩
    · next hlt =>
      have hu : u = [] := by
        cases u with
        | nil => rfl
        | cons c u => exfalso; apply hlt; rw [e3, e1]; simp
      subst hu
      simp only [List.append_nil] at e1
      subst e1
      simp only [pure_apply, Res.ok.injEq, Prod.mk.injEq] at h
      obtain ⟨⟨rfl, rfl⟩, rfl⟩ := h
      refine ⟨body, ?_, plain_body _ _ hpl, KeepsW.refl _⟩
      rw [← List.drop_drop, hdr]
      exact hsplit

theorem findSub_inv {pat : Text} (hne : pat ≠ []) : ∀ (t : Text) (i : Nat), findSub pat t = some i →
    t = t.take i ++ pat ++ t.drop (i + pat.length) ∧ ∀ p q, t.take i ++ pat = p ++ pat ++ q → q = []
  | [], i, h => by
    rw [findSub] at h
    cases pat <;> simp_all
  | c :: r, i, h => by
    rw [findSub] at h
    split at h
    · next hs =>
      cases h
      obtain ⟨u, hu⟩ := (startsWith_iff _ _).mp hs
      refine ⟨by simp [hu], ?_⟩
      intro p q e
      have := congrArg List.length e
      simp at this
      exact List.length_eq_zero_iff.mp (by omega)
    · next hs =>
      cases hf : findSub pat r with
      | none => rw [hf] at h; cases h
      | some j =>
        rw [hf] at h
        obtain rfl : j + 1 = i := by simpa using h
        obtain ⟨h1, h2⟩ := findSub_inv hne r j hf
        refine ⟨?_, ?_⟩
        · have : (c :: r).drop (j + 1 + pat.length) = r.drop (j + pat.length) := by
            rw [show j + 1 + pat.length = (j + pat.length) + 1 by omega]; rfl
          rw [this]
          simp only [List.take_succ_cons, List.cons_append]
          congr 1
        · intro p q e
          cases p with
          | nil =>
            exfalso
            apply hs
            rw [startsWith_iff]
            have h3 : c :: r = (c :: r).take (j + 1) ++ pat ++ r.drop (j + pat.length) := by
              simp only [List.take_succ_cons, List.cons_append]; congr 1
            refine ⟨q ++ r.drop (j + pat.length), ?_⟩
            rw [h3, e]; simp
          | cons x p =>
            simp only [List.take_succ_cons, List.cons_append, List.cons.injEq] at e
            exact h2 p q e.2

theorem rawByteBuf_sound {s s' : St} {bs : List UInt8} {k : Nat} (h : rawByteBuf s = .ok (bs, k) s') :
    ∃ n body, s.rest = List.replicate n '#' ++ '"' :: (body ++ rawClose n ++ s'.rest.drop k) ∧ RawBody n body ∧
      bs = utf8EncAll body ∧ KeepsW s s' := by
  unfold rawByteBuf at h
  rw [getSt_bind] at h
  replace h := (advance_inv h).2
  replace h := bind_ok h; obtain ⟨u, s1, h1, h⟩ := h
  obtain ⟨hr1, he1⟩ := expectChar_inv h1
  rw [getSt_bind] at h
  generalize hn : whileLen (fun c => c == '#') s.rest = n at *
  have hh : s.rest.take n = List.replicate n '#' := by
    have h0 : s.rest.take n = s.rest.takeWhile (fun c => c == '#') := by rw [← hn, take_whileLen]
    rw [List.eq_replicate_iff]
    refine ⟨by rw [h0, ← hn]; rfl, ?_⟩
    intro c hc
    rw [h0] at hc
    have := List.all_eq_true.mp (List.all_takeWhile (l := s.rest)) c hc
    simpa using this
  rw [hh] at h
  cases hi : findSub ('"' :: List.replicate n '#') s1.rest with
  | none => rw [hi] at h; cases h
  | some i =>
    rw [hi] at h
    simp only [pure_apply, Res.ok.injEq, Prod.mk.injEq] at h
    obtain ⟨⟨rfl, rfl⟩, rfl⟩ := h
    obtain ⟨g1, g2⟩ := findSub_inv (by simp) _ _ hi
    refine ⟨n, s1.rest.take i, ?_, g2, rfl, by rw [he1]; exact (KeepsW.step s _ _).trans (KeepsW.step _ _ _)⟩
    have h3 : s.rest = s.rest.take n ++ s.rest.drop n := (List.take_append_drop n s.rest).symm
    have h4 : s.rest.drop n = '"' :: s1.rest := hr1
    rw [h4, hh] at h3
    rw [h3]
    congr 2
    conv => lhs; rw [g1]
    simp [rawClose, Nat.add_assoc]

theorem finishStr_inv {r : List UInt8 × Nat} {s s' : St} {v : Text} (h : finishStr r s = .ok v s') :
    r.1 = utf8EncAll v ∧ s' = { s with prev := s.rest, rest := s.rest.drop r.2 } := by
  unfold finishStr at h
  cases ht : utf8Dec r.1 with
  | some t =>
    rw [ht] at h
    replace h := (advance_inv h).2
    simp only [pure_apply, Res.ok.injEq] at h
    obtain ⟨rfl, rfl⟩ := h
    exact ⟨utf8Dec_some ht, rfl⟩
  | none => rw [ht] at h; cases h

/-- `string` accepts only literals. -/
theorem string_sound {s s' : St} {v : Text} (h : string s = .ok v s') :
    ∃ t, s.rest = t ++ s'.rest ∧ StrLit t v ∧ KeepsW s s' := by
  unfold string at h
  replace h := bind_ok h; obtain ⟨b, s1, h1, h⟩ := h
  rcases consumeChar_inv h1 with ⟨rfl, hr, he⟩ | ⟨rfl, rfl, hr⟩
  · simp only [↓reduceIte] at h
    unfold escapedString at h
    replace h := bind_ok h; obtain ⟨⟨bs, n⟩, s2, h2, h⟩ := h
    obtain ⟨t, g1, g2, g3⟩ := escapedByteBuf_sound h2
    obtain ⟨hv, hs'⟩ := finishStr_inv h
    simp only at hv
    subst hv
    refine ⟨'"' :: (t ++ ['"']), ?_, .esc g2, ?_⟩
    · rw [hs', hr, g1]; simp
    · rw [hs']; rw [he] at g3; exact ((KeepsW.step s _ _).trans g3).trans (KeepsW.step _ _ _)
  · simp only [Bool.false_eq_true, ↓reduceIte] at h
    replace h := bind_ok h; obtain ⟨b, s2, h2, h⟩ := h
    rcases consumeChar_inv h2 with ⟨rfl, hr, he⟩ | ⟨rfl, rfl, hr⟩
    · simp only [↓reduceIte] at h
      unfold rawString at h
      replace h := bind_ok h; obtain ⟨⟨bs, n⟩, s3, h3, h⟩ := h
      obtain ⟨k, body, g1, g2, g3, g4⟩ := rawByteBuf_sound h3
      obtain ⟨hv, hs'⟩ := finishStr_inv h
      simp only at hv
      subst hv
      obtain rfl := utf8Enc_inj g3
      refine ⟨'r' :: (List.replicate k '#' ++ '"' :: (v ++ rawClose k)), ?_, .raw g2, ?_⟩
      · rw [hs', hr, g1]; simp
      · rw [hs']; rw [he] at g4; exact ((KeepsW.step s1 _ _).trans g4).trans (KeepsW.step _ _ _)
    · simp at h

/-- `byte_string` accepts only literals. -/
theorem byteStringNoBase64_sound {s s' : St} {v : List UInt8} (h : byteStringNoBase64 s = .ok v s') :
    ∃ t, s.rest = t ++ s'.rest ∧ BytesLit t v ∧ KeepsW s s' := by
  unfold byteStringNoBase64 at h
  replace h := bind_ok h; obtain ⟨b, s1, h1, h⟩ := h
  rcases consumeStr_inv h1 with ⟨rfl, hr, he⟩ | ⟨rfl, rfl, hr⟩
  · simp only [↓reduceIte] at h
    unfold escapedByteString at h
    replace h := bind_ok h; obtain ⟨⟨bs, n⟩, s2, h2, h⟩ := h
    obtain ⟨t, g1, g2, g3⟩ := escapedByteBuf_sound h2
    replace h := (advance_inv h).2
    simp only [pure_apply, Res.ok.injEq] at h
    obtain ⟨rfl, rfl⟩ := h
    refine ⟨'b' :: '"' :: (t ++ ['"']), ?_, .esc g2, ?_⟩
    · rw [hr, g1]; simp
    · rw [he] at g3; exact ((KeepsW.step s _ _).trans g3).trans (KeepsW.step _ _ _)
  · simp only [Bool.false_eq_true, ↓reduceIte] at h
    replace h := bind_ok h; obtain ⟨b, s2, h2, h⟩ := h
    rcases consumeStr_inv h2 with ⟨rfl, hr, he⟩ | ⟨rfl, rfl, hr⟩
    · simp only [↓reduceIte] at h
      unfold rawByteString at h
      replace h := bind_ok h; obtain ⟨⟨bs, n⟩, s3, h3, h⟩ := h
      rw [mapErr_apply] at h3
      cases h4 : rawByteBuf s2 with
      | err e s4 => rw [h4] at h3; cases h3
      | ok x s4 =>
        rw [h4] at h3
        simp only [Res.ok.injEq] at h3
        obtain ⟨rfl, rfl⟩ := h3
        obtain ⟨k, body, g1, g2, g3, g4⟩ := rawByteBuf_sound h4
        replace h := (advance_inv h).2
        simp only [pure_apply, Res.ok.injEq] at h
        obtain ⟨rfl, rfl⟩ := h
        subst g3
        refine ⟨'b' :: 'r' :: (List.replicate k '#' ++ '"' :: (body ++ rawClose k)), ?_, .raw g2, ?_⟩
        · rw [hr, g1]; simp
        · rw [he] at g4; exact ((KeepsW.step s1 _ _).trans g4).trans (KeepsW.step _ _ _)
    · simp at h

theorem byteString_sound {s s' : St} {v : List UInt8} (h : byteString s = .ok v s') :
    ∃ t, s.rest = t ++ s'.rest ∧ BytesLit t v ∧ KeepsW s s' := by
  unfold byteString at h
  replace h := bind_ok h; obtain ⟨b, s1, h1, h⟩ := h
  rcases consumeChar_inv h1 with ⟨rfl, hr, he⟩ | ⟨rfl, rfl, hr⟩
  · simp only [↓reduceIte] at h
    replace h := bind_ok h; obtain ⟨t, s2, h2, h⟩ := h
    cases h
  · simp only [Bool.false_eq_true, ↓reduceIte] at h
    replace h := bind_ok h; obtain ⟨b, s2, h2, h⟩ := h
    rcases consumeChar_inv h2 with ⟨rfl, hr, he⟩ | ⟨rfl, rfl, hr⟩
    · simp only [↓reduceIte] at h
      replace h := bind_ok h; obtain ⟨t, s2, h2, h⟩ := h
      cases h
    · simp only [Bool.false_eq_true, ↓reduceIte] at h
      exact byteStringNoBase64_sound h

end Ron
