import Verif.Spec.B64Found
import Verif.Spec.BadStrings
import Verif.Lemmas.OneChar
import Verif.Lemmas.Base64
/-! Malformed literals: the error, and that every text is either a literal or malformed. -/

namespace Ron

/-- Fails with the error, with the text left. -/
def Errs {α : Type} (f : P α) (s : St) (e : Err) (r : Text) : Prop := ∃ s', f s = .err e s' ∧ s'.rest = r ∧ KeepsW s s'

theorem Errs.of {α : Type} {f : P α} {s : St} {p q : Text} {e : Err} {r : Text} (h : Errs f { s with prev := p, rest := q } e r) :
    ∃ s', f { s with prev := p, rest := q } = .err e s' ∧ s'.rest = r ∧ KeepsW s s' := by
  obtain ⟨s', h1, h2, h3⟩ := h
  exact ⟨s', h1, h2, h3.of⟩

theorem decodeHexP_none {c : Char} (s : St) (h : hexVal c = none) : decodeHexP c s = .err (.invalidEscape c!"Non-hex digit found") s := by
  unfold decodeHexP; rw [decodeHex_eq, h]; rfl

theorem decodeAsciiEscape_bad {s : St} {u r : Text} {e : Err} (hs : s.rest = u) (h : BadByte u e r) : Errs decodeAsciiEscape s e r := by
  unfold Errs decodeAsciiEscape
  cases h with
  | none =>
    refine ⟨s, ?_, hs, KeepsW.refl _⟩
    simp only [bind_apply, nextChar, hs]
  | @one c d h =>
    refine ⟨{ s with rest := [] }, ?_, rfl, KeepsW.rest _ _⟩
    simp only [bind_apply, nextChar_cons hs, decodeHexP_some _ h]
    rfl
  | @first c r h =>
    refine ⟨{ s with rest := r }, ?_, rfl, KeepsW.rest _ _⟩
    simp only [bind_apply, nextChar_cons hs, decodeHexP_none _ h]
  | @second c1 c2 d r h1 h2 =>
    refine ⟨{ s with rest := r }, ?_, rfl, KeepsW.rest _ _⟩
    simp only [bind_apply, nextChar_cons hs, decodeHexP_some _ h1]
    rw [nextChar_cons (s := { s with rest := c2 :: r }) rfl]
    simp only [decodeHexP_none _ h2]

/-- No character is at the start of the bytes. -/
def NoChar (acc : List UInt8) : Prop := ∀ ch q, acc ≠ utf8Enc ch ++ q

theorem utf8One_noChar {acc : List UInt8} (h : NoChar acc) : utf8One acc = none := by
  unfold utf8One
  cases hd : utf8Dec acc with
  | none => rfl
  | some t =>
    cases t with
    | nil => rfl
    | cons c t => exact absurd (utf8Dec_some hd) (h c (utf8EncAll t))

theorem NoChar.snoc {acc : List UInt8} (h : NoChar acc) {b : UInt8} (hb : ∀ ch, utf8Enc ch ≠ acc ++ [b]) : NoChar (acc ++ [b]) := by
  intro ch q e
  rcases List.eq_nil_or_concat q with rfl | ⟨q', b', rfl⟩
  · exact hb ch (by simpa using e.symm)
  · rw [List.concat_eq_append, ← List.append_assoc] at e
    exact h ch q' (List.append_inj' e rfl).1

theorem noChar_one {n : Nat} (h : 128 ≤ n) (h' : n < 256) : NoChar [UInt8.ofNat n] := by
  intro ch q e
  have hl := utf8Enc_len ch
  have hle := congrArg List.length e
  simp at hle
  have hq : q = [] := List.length_eq_zero_iff.mp (by omega)
  subst hq
  rw [List.append_nil] at e
  unfold utf8Enc at e
  simp only at e
  split at e
  · next hc =>
    simp at e
    have := congrArg UInt8.toNat e
    rw [u8_toNat h', u8_toNat (by omega)] at this
    omega
  · split at e
    · simp at e
    · split at e <;> simp at e

theorem moreBytes_bad {n : Nat} {acc : List UInt8} {u r : Text} {e : Err} (h : BadBytes n acc u e r) :
    ∀ (s : St), NoChar acc → s.rest = u → Errs (moreBytes n acc) s e r := by
  induction h with
  | @stop n acc r h =>
    intro s ha hs
    refine ⟨s, ?_, hs, KeepsW.refl _⟩
    cases n with
    | zero => rfl
    | succ n =>
      have : startsWith s.rest c!"\\x" = false := by
        rw [← Bool.not_eq_true, hs]
        intro h'
        obtain ⟨v, hv⟩ := (startsWith_iff _ _).mp h'
        rcases h with h | h
        · cases h
        · exact h ⟨v, hv.symm⟩
      rw [moreBytes]
      simp only [bind_apply, consumeStr_false this, Bool.false_eq_true, ↓reduceIte]
      rfl
  | @byte n acc u r e h =>
    intro s ha hs
    obtain ⟨s', h1, h2, h3⟩ := (decodeAsciiEscape_bad (s := { s with prev := s.rest, rest := s.rest.drop c!"\\x".length }) (by simp [hs]) h).of
    refine ⟨s', ?_, h2, h3⟩
    rw [moreBytes]
    simp only [bind_apply, consumeStr_true (show startsWith s.rest c!"\\x" = true by rw [hs]; simp), ↓reduceIte]
    rw [h1]
  | @more n acc c1 c2 d1 d2 u r e h1 h2 h3 h4 ih =>
    intro s ha hs
    obtain ⟨s', g1, g2, g3⟩ := (ih { s with prev := s.rest, rest := u } (ha.snoc h3) rfl).of
    refine ⟨s', ?_, g2, g3⟩
    rw [moreBytes]
    simp only [bind_apply, consumeStr_true (show startsWith s.rest c!"\\x" = true by rw [hs]; simp), ↓reduceIte]
    rw [decodeAsciiEscape_ok (s := { s with prev := s.rest, rest := s.rest.drop c!"\\x".length }) (c1 := c1) (c2 := c2) (r := u)
      (by simp [hs]) h1 h2]
    simp only [utf8One_noChar (ha.snoc h3)]
    exact g1

theorem notChar_brace {c : Char} {d : Nat} (h : hexVal c = some d) : c ≠ '}' := by
  rintro rfl
  exact absurd h (by simp [show hexVal '}' = none from by decide])

/-- Reading the digits before anything. -/
theorem uniDigits_run : ∀ (n acc k : Nat) (ds u : Text) (s : St), s.rest = ds ++ u → ds.length ≤ n → (∀ c ∈ ds, ∃ d, hexVal c = some d) →
    ∃ v, (v = acc * 16 ^ ds.length + posValue 16 (litDigits ds)) ∧
      uniDigits n acc k s = uniDigits (n - ds.length) v (k + ds.length) { s with rest := u }
  | n, acc, k, [], u, s, hs, _, _ => by
    refine ⟨acc, by simp [litDigits, posValue], ?_⟩
    simp only [List.nil_append] at hs
    rw [← hs]
    rfl
  | 0, acc, k, c :: ds, u, s, hs, hn, _ => by simp at hn
  | n + 1, acc, k, c :: ds, u, s, hs, hn, hd => by
    obtain ⟨d, hc⟩ := hd c (by simp)
    have hne := notChar_brace hc
    have hus : c ≠ '_' := by rintro rfl; exact absurd hc (by simp [show hexVal '_' = none from by decide])
    obtain ⟨v, hv, ih⟩ := uniDigits_run n (acc * 16 + d) (k + 1) ds u { s with rest := ds ++ u } rfl (by simpa using hn) (fun c h => hd c (by simp [h]))
    refine ⟨v, ?_, ?_⟩
    · have hl := litDigits_hex (fun c h => hd c (List.mem_cons_of_mem _ h))
      have : litDigits (c :: ds) = d :: litDigits ds := by simp [litDigits, hus, hc]
      rw [hv, this, posValue, hl, List.length_cons, Nat.pow_succ, Nat.add_mul]
      simp only [Nat.mul_assoc, Nat.mul_comm 16, Nat.add_assoc]
    · rw [uniDigits]
      have hp : peekCharOrEof s = .ok c s := by simp [peekCharOrEof, hs]
      have hd1 : s.rest.drop 1 = ds ++ u := by rw [hs]; rfl
      simp only [bind_apply, hp, skipNextChar, modSt_apply, hd1, beq_iff_eq, hne, if_false, decodeHexP_some _ hc, ih, ite_P]
      simp only [List.length_cons, Nat.succ_sub_succ, Nat.add_assoc, Nat.add_comm 1]

theorem head_ne {c : Char} {r : Text} (h : r.head? ≠ some c) : startsWith r [c] = false := by
  cases r with
  | nil => rfl
  | cons d r =>
    have : d ≠ c := by simpa using h
    simp [startsWith, List.isPrefixOf, Ne.symm this]

theorem parseEscape_bad {enc : EscEnc} {single : Bool} {s : St} {u r : Text} {e : Err} (hs : s.rest = u) (h : BadEsc enc.isBin single u e r) :
    Errs (parseEscape enc single) s e r := by
  unfold Errs
  cases h with
  | eof =>
    refine ⟨s, ?_, hs, KeepsW.refl _⟩
    unfold parseEscape
    simp only [bind_apply, nextChar, hs]
  | @unknown c r h1 h2 h3 =>
    refine ⟨{ s with rest := r }, ?_, rfl, KeepsW.rest _ _⟩
    unfold parseEscape
    unfold simpleEsc at h1
    have g1 : c ≠ '\'' := by rintro rfl; simp at h1
    have g2 : c ≠ '"' := by rintro rfl; simp at h1
    have g3 : c ≠ '\\' := by rintro rfl; simp at h1
    have g4 : c ≠ 'n' := by rintro rfl; simp at h1
    have g5 : c ≠ 'r' := by rintro rfl; simp at h1
    have g6 : c ≠ 't' := by rintro rfl; simp at h1
    have g7 : c ≠ '0' := by rintro rfl; simp at h1
    simp only [bind_apply, nextChar_cons hs, beq_iff_eq, g1, g2, g3, g4, g5, g6, g7, h2, h3, if_false]
    rfl
  | @byte u _ _ h =>
    obtain ⟨s', h1, h2, h3⟩ := decodeAsciiEscape_bad (s := { s with rest := u }) rfl h
    refine ⟨s', ?_, h2, (KeepsW.rest s u).trans h3⟩
    unfold parseEscape
    simp only [bind_apply, nextChar_cons hs]
    simp only [↓Char.reduceBEq, Bool.false_eq_true, ↓reduceIte, ite_P, bind_apply, h1]
  | @single c1 c2 d1 d2 r hb hsi h1 h2 h3 =>
    have henc : enc = .utf8 := by cases enc <;> simp_all [EscEnc.isBin]
    subst henc hsi
    have hlt1 := hexVal_lt h1
    have hlt2 := hexVal_lt h2
    have hdec := decodeAsciiEscape_ok (s := { s with rest := c1 :: c2 :: r }) rfl h1 h2
    refine ⟨{ s with rest := r }, ?_, rfl, KeepsW.rest _ _⟩
    unfold parseEscape
    simp only [bind_apply, nextChar_cons hs]
    simp only [↓Char.reduceBEq, Bool.false_eq_true, ↓reduceIte, ite_P, bind_apply, hdec, reduceCtorEq, utf8One_noChar (noChar_one h3 (by omega))]
    rfl
  | @bytes c1 c2 d1 d2 u r e hb hsi h1 h2 h3 h4 =>
    have henc : enc = .utf8 := by cases enc <;> simp_all [EscEnc.isBin]
    subst henc hsi
    have hlt1 := hexVal_lt h1
    have hlt2 := hexVal_lt h2
    have hno := noChar_one h3 (by omega)
    have hdec := decodeAsciiEscape_ok (s := { s with rest := c1 :: c2 :: u }) rfl h1 h2
    obtain ⟨s', g1, g2, g3⟩ := moreBytes_bad h4 { s with rest := u } hno rfl
    refine ⟨s', ?_, g2, (KeepsW.rest s u).trans g3⟩
    unfold parseEscape
    simp only [bind_apply, nextChar_cons hs]
    simp only [↓Char.reduceBEq, Bool.false_eq_true, ↓reduceIte, ite_P, bind_apply, hdec, reduceCtorEq, utf8One_noChar hno, g1]
  | @brace r h =>
    refine ⟨{ s with rest := r }, ?_, rfl, KeepsW.rest _ _⟩
    unfold parseEscape
    simp only [bind_apply, nextChar_cons hs]
    simp only [↓Char.reduceBEq, Bool.false_eq_true, ↓reduceIte, ite_P, bind_apply,
      expectChar_err (s := { s with rest := r }) (.invalidEscape c!"Missing { in Unicode escape") (head_ne h)]
  | @uni ds u r e h1 h2 h3 =>
    obtain ⟨v, hv, hrun⟩ := uniDigits_run 6 0 0 ds u { s with prev := '{' :: (ds ++ u), rest := ds ++ u } rfl h1 h2
    simp only [Nat.zero_mul, Nat.zero_add] at hv hrun
    subst hv
    have hu := expectChar_ok (s := { s with rest := '{' :: (ds ++ u) }) (.invalidEscape c!"Missing { in Unicode escape") rfl
    have hk : ∀ p q, KeepsW s { s with prev := p, rest := q } := fun p q => KeepsW.step _ _ _
    have stop : ∀ (s' : St) (w : Text), u = '}' :: w → ds.length < 6 ∨ ds.length = 6 → uniDigits (6 - ds.length) (posValue 16 (litDigits ds)) ds.length
        { s with prev := '{' :: (ds ++ u), rest := u } = .ok (posValue 16 (litDigits ds), ds.length) { s with prev := '{' :: (ds ++ u), rest := u } := by
      rintro s' w rfl hl
      cases hm : 6 - ds.length with
      | zero => rfl
      | succ m =>
        rw [uniDigits]
        simp [peekCharOrEof, bind_apply, ite_P]
    cases h3 with
    | eof hl =>
      refine ⟨{ s with prev := '{' :: (ds ++ []), rest := [] }, ?_, rfl, hk _ _⟩
      obtain ⟨m, hm⟩ : ∃ m, 6 - ds.length = m + 1 := ⟨5 - ds.length, by omega⟩
      have hlast : uniDigits (m + 1) (posValue 16 (litDigits ds)) ds.length { s with prev := '{' :: (ds ++ []), rest := [] }
          = .err .eof { s with prev := '{' :: (ds ++ []), rest := [] } := by
        rw [uniDigits]
        simp only [bind_apply, peekCharOrEof]
      rw [hm, hlast] at hrun
      unfold parseEscape
      simp only [bind_apply, nextChar_cons hs]
      simp only [↓Char.reduceBEq, Bool.false_eq_true, ↓reduceIte, ite_P, bind_apply, hu, hrun]
    | @hex c r hl hc hh =>
      refine ⟨{ s with prev := '{' :: (ds ++ c :: r), rest := r }, ?_, rfl, hk _ _⟩
      obtain ⟨m, hm⟩ : ∃ m, 6 - ds.length = m + 1 := ⟨5 - ds.length, by omega⟩
      have hlast : uniDigits (m + 1) (posValue 16 (litDigits ds)) ds.length { s with prev := '{' :: (ds ++ c :: r), rest := c :: r }
          = .err (.invalidEscape c!"Non-hex digit found") { s with prev := '{' :: (ds ++ c :: r), rest := r } := by
        rw [uniDigits]
        simp only [bind_apply, peekCharOrEof, beq_iff_eq, hc, if_false, ite_P, skipNextChar, modSt_apply, List.drop_succ_cons, List.drop_zero,
          decodeHexP_none _ hh]
      rw [hm, hlast] at hrun
      unfold parseEscape
      simp only [bind_apply, nextChar_cons hs]
      simp only [↓Char.reduceBEq, Bool.false_eq_true, ↓reduceIte, ite_P, bind_apply, hu, hrun]
    | @none r hd =>
      subst hd
      refine ⟨{ s with prev := '{' :: ([] ++ '}' :: r), rest := '}' :: r }, ?_, rfl, hk _ _⟩
      have := stop s r rfl (.inl (by simp))
      unfold parseEscape
      simp only [bind_apply, nextChar_cons hs]
      simp only [↓Char.reduceBEq, Bool.false_eq_true, ↓reduceIte, ite_P, bind_apply, hu, hrun, this]
      rfl
    | @close _ hl hr =>
      refine ⟨{ s with prev := '{' :: (ds ++ r), rest := r }, ?_, rfl, hk _ _⟩
      have hlast : uniDigits (6 - ds.length) (posValue 16 (litDigits ds)) ds.length { s with prev := '{' :: (ds ++ r), rest := r }
          = .ok (posValue 16 (litDigits ds), 6) { s with prev := '{' :: (ds ++ r), rest := r } := by
        rw [hl]
        rfl
      rw [hlast] at hrun
      unfold parseEscape
      simp only [bind_apply, nextChar_cons hs]
      simp only [↓Char.reduceBEq, Bool.false_eq_true, ↓reduceIte, ite_P, bind_apply, hu, hrun, pure_apply]
      simp only [Nat.reduceBEq, Bool.false_eq_true, ↓reduceIte,
        expectChar_err (s := { s with prev := '{' :: (ds ++ r), rest := r }) (.invalidEscape c!"No } at the end of Unicode escape") (head_ne hr)]
    | @value r hne hval =>
      refine ⟨{ s with prev := '}' :: r, rest := r }, ?_, rfl, hk _ _⟩
      have := stop s r rfl (by omega)
      have hl : (ds.length == 0) = false := by cases ds <;> simp_all
      have g3 := expectChar_ok (s := { s with prev := '{' :: (ds ++ '}' :: r), rest := '}' :: r }) (.invalidEscape c!"No } at the end of Unicode escape") rfl
      have hno : charOf? (posValue 16 (litDigits ds)) = Option.none := by
        cases hc : charOf? (posValue 16 (litDigits ds)) with
        | none => rfl
        | some c => exact absurd (charOf_some hc) (hval c)
      unfold parseEscape
      simp only [bind_apply, nextChar_cons hs]
      simp only [↓Char.reduceBEq, Bool.false_eq_true, ↓reduceIte, ite_P, bind_apply, hu, hrun, this, hl, g3, hno]
      rfl


/-! ### The body -/

theorem HexSeq.len {e : Text} {bs : List UInt8} (h : HexSeq e bs) : e.length ≠ 0 := by cases h <;> simp

theorem Esc.len {bin : Bool} {e : Text} {b : List UInt8} (h : Esc bin e b) : e.length ≠ 0 := by
  cases h with
  | multi _ h => exact h.len
  | _ => simp

theorem escLoop_bad {enc : EscEnc} (f : Nat) : ∀ (i : Nat) (acc : List UInt8) (s : St) (q w : Text), s.rest = q ++ '\\' :: w → q.length = i → w.length < f →
    (∀ u r e, BadEsc enc.isBin false u e r → w = u → Errs (escLoop enc f i acc) s e r) ∧
    (∀ e b p, Esc enc.isBin e b → Plain p → w = e ++ p → Errs (escLoop enc f i acc) s .expectedStringEnd p) ∧
    (∀ e b t bs u r x, Esc enc.isBin e b → StrBody enc.isBin t bs → BadEsc enc.isBin false u x r → w = e ++ (t ++ '\\' :: u) →
      Errs (escLoop enc f i acc) s x r) ∧
    (∀ e b t bs e' b' p, Esc enc.isBin e b → StrBody enc.isBin t bs → Esc enc.isBin e' b' → Plain p → w = e ++ (t ++ '\\' :: (e' ++ p)) →
      Errs (escLoop enc f i acc) s .expectedStringEnd p) := by
  induction f with
  | zero => intro i acc s q w _ _ h; omega
  | succ f ih =>
    intro i acc s q w hs hi hf
    have one : ∀ u r e, BadEsc enc.isBin false u e r → w = u → Errs (escLoop enc (f + 1) i acc) s e r := by
      rintro u r e h rfl
      have hd : s.rest.drop (i + 1) = w := by
        rw [hs, ← hi, show q ++ '\\' :: w = (q ++ ['\\']) ++ w by simp, List.drop_left' (by simp)]
      obtain ⟨s', h1, h2, h3⟩ := (parseEscape_bad (enc := enc) (s := { s with prev := s.rest, rest := s.rest.drop (i + 1) }) hd h).of
      refine ⟨s', ?_, h2, h3⟩
      rw [escLoop]
      simp only [bind_apply, advance_ok (show i + 1 ≤ s.rest.length by rw [hs]; simp; omega), h1]
    refine ⟨one, ?_, ?_, ?_⟩
    · rintro e b p he hp rfl
      obtain ⟨s', k1, k2, k3⟩ := escLoop_apply (f := f) (acc := acc) hs hi he
      refine ⟨s', ?_, k2, k1⟩
      rw [k3]
      have : whileLen (fun c => !(c == '"' || c == '\\')) p = p.length := by
        have := whileLen_append (fun c => !(c == '"' || c == '\\')) p [] (by intro d hd; have := hp d hd; simp [this.1, this.2])
        simpa using this
      rw [this, List.drop_length]
    · rintro e b t bs u r x he ht hu rfl
      obtain ⟨s', k1, k2, k3⟩ := escLoop_apply (f := f) (acc := acc) hs hi he
      have hlen := he.len
      obtain ⟨p, hp, h | ⟨e', b', t', bs', rfl, rfl, he', ht'⟩⟩ := ht.split
      · obtain ⟨rfl, rfl⟩ := h
        unfold Errs
        rw [k3, hp.while _ (.inr rfl)]
        simp only [List.drop_left, List.take_left, beq_self_eq_true, ↓reduceIte]
        obtain ⟨s2, g1, g2, g3⟩ := (ih t.length (acc ++ b ++ utf8EncAll t) s' t u k2 rfl (by simp at hf; omega)).1 u r x hu rfl
        exact ⟨s2, g1, g2, k1.trans g3⟩
      · have e1 : (p ++ '\\' :: (e' ++ t')) ++ '\\' :: u = p ++ '\\' :: (e' ++ (t' ++ '\\' :: u)) := by simp
        rw [e1] at k2 k3
        unfold Errs
        rw [k3, hp.while _ (.inr rfl)]
        simp only [List.drop_left, List.take_left, beq_self_eq_true, ↓reduceIte]
        obtain ⟨s2, g1, g2, g3⟩ := (ih p.length (acc ++ b ++ utf8EncAll p) s' p _ k2 rfl (by simp at hf; simp; omega)).2.2.1 e' b' t' bs' u r x he' ht' hu rfl
        exact ⟨s2, g1, g2, k1.trans g3⟩
    · rintro e b t bs e2 b2 pl he ht he2 hpl rfl
      obtain ⟨s', k1, k2, k3⟩ := escLoop_apply (f := f) (acc := acc) hs hi he
      have hlen := he.len
      obtain ⟨p, hp, h | ⟨e', b', t', bs', rfl, rfl, he', ht'⟩⟩ := ht.split
      · obtain ⟨rfl, rfl⟩ := h
        unfold Errs
        rw [k3, hp.while _ (.inr rfl)]
        simp only [List.drop_left, List.take_left, beq_self_eq_true, ↓reduceIte]
        obtain ⟨s2, g1, g2, g3⟩ := (ih t.length (acc ++ b ++ utf8EncAll t) s' t _ k2 rfl (by simp at hf; simp; omega)).2.1 e2 b2 pl he2 hpl rfl
        exact ⟨s2, g1, g2, k1.trans g3⟩
      · have e1 : (p ++ '\\' :: (e' ++ t')) ++ '\\' :: (e2 ++ pl) = p ++ '\\' :: (e' ++ (t' ++ '\\' :: (e2 ++ pl))) := by simp
        rw [e1] at k2 k3
        unfold Errs
        rw [k3, hp.while _ (.inr rfl)]
        simp only [List.drop_left, List.take_left, beq_self_eq_true, ↓reduceIte]
        obtain ⟨s2, g1, g2, g3⟩ := (ih p.length (acc ++ b ++ utf8EncAll p) s' p _ k2 rfl (by simp at hf; simp; omega)).2.2.2 e' b' t' bs' e2 b2 pl he' ht' he2 hpl rfl
        exact ⟨s2, g1, g2, k1.trans g3⟩

/-- With a backslash before the first quote, the loop runs. -/
theorem escapedByteBuf_loop {enc : EscEnc} {s : St} {p w : Text} (hp : Plain p) (hs : s.rest = p ++ '\\' :: w) (hq : '"' ∈ w) :
    escapedByteBuf enc s = escLoop enc (s.rest.length + 1) p.length (utf8EncAll p) s := by
  unfold escapedByteBuf
  simp only [bind_apply, getSt_apply, ite_P]
  have hw : ∃ k, whileLen (fun c => c != '"') s.rest = p.length + 1 + k ∧ p.length + 1 + k < s.rest.length := by
    have hlen : whileLen (fun c => c != '"') s.rest < s.rest.length := by
      obtain ⟨a, u, g1, g2, g3, g4⟩ := whileLen_split (fun c => c != '"') s.rest
      rw [g3]
      rw [g1]
      cases u with
      | nil =>
        exfalso
        have : '"' ∈ s.rest := by rw [hs]; simp [hq]
        rw [g1] at this; simp at this
        have := g2 _ this; simp at this
      | cons => simp
    rw [hs] at hlen ⊢
    rw [show p ++ '\\' :: w = (p ++ ['\\']) ++ w by simp] at hlen ⊢
    rw [whileLen_append _ _ _ (by
      intro c hc
      rcases List.mem_append.mp hc with hc | hc
      · simp [(hp c hc).1]
      · simp at hc; subst hc; rfl)] at hlen ⊢
    exact ⟨_, by simp; rfl, by simpa using hlen⟩
  obtain ⟨k, hw, hlt⟩ := hw
  rw [hw]
  have htk : ∃ v, s.rest.take (p.length + 1 + k) = p ++ '\\' :: v := by
    refine ⟨w.take k, ?_⟩
    rw [hs, show p ++ '\\' :: w = (p ++ ['\\']) ++ w by simp]
    rw [List.take_append, List.take_of_length_le (by simp)]
    simp
  obtain ⟨v, htk⟩ := htk
  have hw2 : whileLen (fun c => c != '\\') (p ++ '\\' :: v) = p.length := by
    rw [whileLen_append _ _ _ (by intro c hc; simp [(hp c hc).2]), whileLen_cons_false _ _ _ (by rfl)]; rfl
  rw [htk, hw2]
  rw [if_neg (by simp; omega), if_pos (by simp)]
  simp only [List.take_left]

theorem Plain.noQuote {p w : Text} (hp : Plain p) (h : '"' ∈ p ++ '\\' :: w) : '"' ∈ w := by
  rcases List.mem_append.mp h with h | h
  · exact absurd rfl (hp _ h).1
  · simpa using h

theorem escapedByteBuf_bad {enc : EscEnc} {s : St} {u r : Text} {e : Err} (hs : s.rest = u) (h : BadBody enc.isBin u e r) :
    Errs (escapedByteBuf enc) s e r := by
  unfold Errs
  cases h with
  | «open» hu =>
    refine ⟨s, ?_, hs, KeepsW.refl _⟩
    have hw : whileLen (fun c => c != '"') s.rest = s.rest.length := by
      rw [hs]
      have := whileLen_append (fun c => c != '"') u [] (by intro d hd; simp; rintro rfl; exact hu hd)
      simpa using this
    unfold escapedByteBuf
    simp only [bind_apply, getSt_apply, ite_P, hw, beq_self_eq_true, ↓reduceIte]
    rfl
  | @unclosed t e p bs b hq ht he hp =>
    obtain ⟨p', hp', h | ⟨e', b', t', bs', rfl, rfl, he', ht'⟩⟩ := ht.split
    · obtain ⟨rfl, rfl⟩ := h
      rw [escapedByteBuf_loop hp' hs (hp'.noQuote hq)]
      exact (escLoop_bad _ _ _ s t _ hs rfl (by rw [hs]; simp; omega)).2.1 e b r he hp rfl
    · have e1 : (p' ++ '\\' :: (e' ++ t')) ++ '\\' :: (e ++ r) = p' ++ '\\' :: (e' ++ (t' ++ '\\' :: (e ++ r))) := by simp
      rw [e1] at hs hq
      rw [escapedByteBuf_loop hp' hs (hp'.noQuote hq)]
      exact (escLoop_bad _ _ _ s p' _ hs rfl (by rw [hs]; simp; omega)).2.2.2 e' b' t' bs' e b r he' ht' he hp rfl
  | @esc t u r bs e hq ht he =>
    obtain ⟨p', hp', h | ⟨e', b', t', bs', rfl, rfl, he', ht'⟩⟩ := ht.split
    · obtain ⟨rfl, rfl⟩ := h
      rw [escapedByteBuf_loop hp' hs (hp'.noQuote hq)]
      exact (escLoop_bad _ _ _ s t _ hs rfl (by rw [hs]; simp; omega)).1 u _ _ he rfl
    · have e1 : (p' ++ '\\' :: (e' ++ t')) ++ '\\' :: u = p' ++ '\\' :: (e' ++ (t' ++ '\\' :: u)) := by simp
      rw [e1] at hs hq
      rw [escapedByteBuf_loop hp' hs (hp'.noQuote hq)]
      exact (escLoop_bad _ _ _ s p' _ hs rfl (by rw [hs]; simp; omega)).2.2.1 e' b' t' bs' u _ _ he' ht' he rfl

theorem findSub_none {pat : Text} (hne : pat ≠ []) {t : Text} (h : ∀ p q, t ≠ p ++ pat ++ q) : findSub pat t = none := by
  cases hf : findSub pat t with
  | none => rfl
  | some i => exact absurd (findSub_inv hne t i hf).1 (h _ _)

theorem findSub_not {pat : Text} (hne : pat ≠ []) : ∀ {t : Text}, findSub pat t = none → ∀ p q, t ≠ p ++ pat ++ q
  | [], h, p, q, e => by
    have : pat = [] := by
      have := congrArg List.length e
      simp at this
      exact List.length_eq_zero_iff.mp (by omega)
    exact hne this
  | c :: t, h, p, q, e => by
    rw [findSub] at h
    split at h
    · cases h
    · next hs =>
      cases p with
      | nil => exact hs ((startsWith_iff _ _).mpr ⟨q, by simpa using e⟩)
      | cons d p =>
        simp only [List.cons_append, List.cons.injEq] at e
        exact findSub_not hne (by simpa using h) p q e.2

theorem rawByteBuf_bad {s : St} {u r : Text} {e : Err} (hs : s.rest = u) (h : BadRaw .expectedString u e r) : Errs rawByteBuf s e r := by
  unfold Errs
  cases h with
  | @quote n r h1 h2 =>
    have hw : whileLen (fun c => c == '#') s.rest = n := by
      rw [hs, whileLen_append _ _ _ (by intro c hc; simp [(List.mem_replicate.mp hc).2])]
      cases r with
      | nil => simp
      | cons c r =>
        have : (c == '#') = false := by simpa using h1
        rw [whileLen_cons_false (fun c => c == '#') _ _ this]
        simp
    have hdr : s.rest.drop n = r := by rw [hs, List.drop_left' (by simp)]
    refine ⟨{ s with prev := s.rest, rest := r }, ?_, rfl, KeepsW.step _ _ _⟩
    unfold rawByteBuf
    simp only [bind_apply, getSt_apply, hw, advance_ok (show n ≤ s.rest.length by rw [hs]; simp), hdr]
    rw [expectChar_err (s := { s with prev := s.rest, rest := r }) .expectedString (head_ne h2)]
  | @«open» n r h =>
    have hw : whileLen (fun c => c == '#') s.rest = n := by
      rw [hs, whileLen_append _ _ _ (by intro c hc; simp [(List.mem_replicate.mp hc).2]), whileLen_cons_false _ _ _ (by rfl)]
      simp
    have htk : s.rest.take n = List.replicate n '#' := by rw [hs, List.take_left' (by simp)]
    have hdr : s.rest.drop n = '"' :: r := by rw [hs, List.drop_left' (by simp)]
    refine ⟨{ s with prev := '"' :: r, rest := r }, ?_, rfl, KeepsW.step _ _ _⟩
    unfold rawByteBuf
    simp only [bind_apply, getSt_apply, hw, advance_ok (show n ≤ s.rest.length by rw [hs]; simp), htk, hdr]
    rw [expectChar_ok (s := { s with prev := s.rest, rest := '"' :: r }) _ rfl]
    simp only [getSt_apply]
    rw [findSub_none (pat := '"' :: List.replicate n '#') (by simp) h]
    rfl

theorem BadRaw.miss {m m' : Err} {u r : Text} {e : Err} (hne : m ≠ .expectedStringEnd) (h : BadRaw m u e r) :
    BadRaw m' u (if e = m then m' else e) r := by
  cases h with
  | quote h1 h2 => rw [if_pos rfl]; exact .quote h1 h2
  | «open» h => rw [if_neg (Ne.symm hne)]; exact .open h

/-! ### The literals -/

theorem string_bad {s : St} {u r : Text} {e : Err} (hs : s.rest = u) (h : BadStr u e r) : Errs string s e r := by
  unfold Errs
  cases h with
  | start h1 h2 =>
    refine ⟨s, ?_, hs, KeepsW.refl _⟩
    unfold string
    simp only [bind_apply, consumeChar_false (c := '"') (s := s) (by rw [hs]; exact head_ne h1), Bool.false_eq_true, ↓reduceIte,
      consumeChar_false (c := 'r') (s := s) (by rw [hs]; exact head_ne h2)]
    rfl
  | @esc u r e h =>
    obtain ⟨s', h1, h2, h3⟩ := (escapedByteBuf_bad (enc := .utf8) (s := { s with prev := s.rest, rest := u }) rfl h).of
    refine ⟨s', ?_, h2, h3⟩
    unfold string escapedString
    simp only [bind_apply, consumeChar_true hs, ↓reduceIte, h1]
  | @raw u r e h =>
    obtain ⟨s', h1, h2, h3⟩ := (rawByteBuf_bad (s := { s with prev := s.rest, rest := u }) rfl h).of
    refine ⟨s', ?_, h2, h3⟩
    unfold string rawString
    simp only [bind_apply, consumeChar_false (c := '"') (s := s) (by rw [hs]; rfl), Bool.false_eq_true, ↓reduceIte,
      consumeChar_true hs, h1]

theorem charLit_bad {s : St} {u r : Text} {e : Err} (hs : s.rest = u) (h : BadChar u e r) : Errs charLit s e r := by
  unfold Errs charLit
  cases h with
  | start h =>
    refine ⟨s, ?_, hs, KeepsW.refl _⟩
    simp only [bind_apply, expectChar_err (s := s) .expectedChar (by rw [hs]; exact head_ne h)]
  | eof =>
    refine ⟨{ s with prev := s.rest, rest := [] }, ?_, rfl, KeepsW.step _ _ _⟩
    simp only [bind_apply, expectChar_ok (s := s) .expectedChar hs, nextChar]
  | @esc u r e h =>
    obtain ⟨s', h1, h2, h3⟩ := (parseEscape_bad (enc := .utf8) (s := { s with prev := s.rest, rest := u }) rfl h).of
    refine ⟨s', ?_, h2, h3⟩
    simp only [bind_apply, expectChar_ok (s := s) .expectedChar hs]
    rw [nextChar_cons (s := { s with prev := s.rest, rest := '\\' :: u }) rfl]
    simp only [beq_self_eq_true, ↓reduceIte, bind_apply, h1]
  | @plain c r h1 h2 =>
    refine ⟨{ s with prev := s.rest, rest := r }, ?_, rfl, KeepsW.step _ _ _⟩
    simp only [bind_apply, expectChar_ok (s := s) .expectedChar hs]
    rw [nextChar_cons (s := { s with prev := s.rest, rest := c :: r }) rfl]
    have hb : (c == '\\') = false := by simpa using h1
    simp only [hb, Bool.false_eq_true, ↓reduceIte, pure_apply]
    rw [expectChar_err (s := { s with prev := s.rest, rest := r }) .expectedChar (head_ne h2)]
  | @unclosed e r c h1 h2 =>
    have key : ∃ x, One .utf8 e x := by
      cases h1 with
      | simple hn => exact ⟨_, .simple hn⟩
      | hex v1 v2 hlt => exact ⟨_, .hex rfl v1 v2 hlt⟩
      | uni u1 u2 u3 u4 => exact ⟨_, .uni u1 u2 u3 u4⟩
    obtain ⟨x, hx⟩ := key
    obtain ⟨s3, k1, k2, k3⟩ := one_ok (s := { s with prev := s.rest, rest := e ++ r }) (r := r) rfl hx
    refine ⟨s3, ?_, k2, k3.of⟩
    simp only [bind_apply, expectChar_ok (s := s) .expectedChar hs]
    rw [nextChar_cons (s := { s with prev := s.rest, rest := '\\' :: (e ++ r) }) rfl]
    simp only [beq_self_eq_true, ↓reduceIte, bind_apply, k1]
    have g3 := expectChar_err (s := s3) (c := '\'') .expectedChar (by rw [k2]; exact head_ne h2)
    cases x <;> simp only [pure_apply, g3]

theorem byteString_string {s : St} {t v r : Text} (hs : s.rest = t ++ r) (h : StrLit t v) : Errs byteString s (base64Error v) r := by
  cases h with
  | @esc b _ hb' =>
    have hd' : s.rest = '"' :: (b ++ '"' :: r) := by simpa using hs
    obtain ⟨s', h1, h2, h3⟩ := escapedString_ok (s := { s with prev := s.rest, rest := b ++ '"' :: r }) rfl hb'
    refine ⟨s', ?_, h2, h3.of⟩
    unfold byteString
    simp only [bind_apply, consumeChar_true hd', ↓reduceIte, h1, fail_apply]
  | @raw n _ hb' =>
    have hd' : s.rest = 'r' :: (List.replicate n '#' ++ '"' :: (v ++ rawClose n ++ r)) := by simpa using hs
    obtain ⟨s', h1, h2, h3⟩ := rawString_ok (s := { s with prev := s.rest, rest := List.replicate n '#' ++ '"' :: (v ++ rawClose n ++ r) }) rfl hb'
    refine ⟨s', ?_, h2, h3.of⟩
    unfold byteString
    simp only [bind_apply, consumeChar_false (s := s) (c := '"') (by rw [hd']; simp), consumeChar_true hd', ↓reduceIte, h1,
      fail_apply, Bool.false_eq_true, ite_P]

theorem byteString_bad {s : St} {u r : Text} {e : Err} (hs : s.rest = u) (h : BadBytesLit b64Found u e r) : Errs byteString s e r := by
  have nb : ∀ w, s.rest = 'b' :: w → byteString s = byteStringNoBase64 s := by
    intro w hw
    unfold byteString
    simp only [bind_apply, consumeChar_false (c := '"') (s := s) (by rw [hw]; rfl), Bool.false_eq_true, ↓reduceIte,
      consumeChar_false (c := 'r') (s := s) (by rw [hw]; rfl)]
  cases h with
  | start h1 h2 h3 h4 =>
    refine ⟨s, ?_, hs, KeepsW.refl _⟩
    unfold byteString
    have k3 : startsWith s.rest c!"b\"" = false := by
      rw [← Bool.not_eq_true, hs]
      intro h'
      obtain ⟨v, hv⟩ := (startsWith_iff _ _).mp h'
      exact h3 ⟨v, hv.symm⟩
    have k4 : startsWith s.rest c!"br" = false := by
      rw [← Bool.not_eq_true, hs]
      intro h'
      obtain ⟨v, hv⟩ := (startsWith_iff _ _).mp h'
      exact h4 ⟨v, hv.symm⟩
    simp only [bind_apply, consumeChar_false (c := '"') (s := s) (by rw [hs]; exact head_ne h1), Bool.false_eq_true, ↓reduceIte,
      consumeChar_false (c := 'r') (s := s) (by rw [hs]; exact head_ne h2)]
    unfold byteStringNoBase64
    simp only [bind_apply, consumeStr_false k3, consumeStr_false k4, Bool.false_eq_true, ↓reduceIte]
    rfl
  | @esc u r e h =>
    obtain ⟨s', h1, h2, h3⟩ := (escapedByteBuf_bad (enc := .binary) (s := { s with prev := s.rest, rest := u }) rfl h).of
    refine ⟨s', ?_, h2, h3⟩
    rw [nb _ hs]
    unfold byteStringNoBase64 escapedByteString
    simp only [bind_apply]
    rw [consumeStr_true (by rw [hs]; rfl), show s.rest.drop (c!"b\"").length = u by rw [hs]; rfl]
    simp only [↓reduceIte, bind_apply, h1]
  | @raw u r e h =>
    have hm := h.miss (m' := .expectedString) (by simp)
    obtain ⟨s', h1, h2, h3⟩ := (rawByteBuf_bad (s := { s with prev := s.rest, rest := u }) rfl hm).of
    refine ⟨s', ?_, h2, h3⟩
    rw [nb _ hs]
    unfold byteStringNoBase64 rawByteString
    simp only [bind_apply]
    rw [consumeStr_false (by rw [hs]; rfl)]
    simp only [Bool.false_eq_true, ↓reduceIte, bind_apply]
    rw [consumeStr_true (by rw [hs]; rfl), show s.rest.drop (c!"br").length = u by rw [hs]; rfl]
    simp only [↓reduceIte, bind_apply, mapErr_apply, h1]
    cases h with
    | quote => rfl
    | «open» => rfl
  | @string u r e hh h =>
    cases h with
    | start h1 h2 => rcases hh with hh | hh <;> simp_all
    | @esc u r e h =>
      obtain ⟨s', h1, h2, h3⟩ := (escapedByteBuf_bad (enc := .utf8) (s := { s with prev := s.rest, rest := u }) rfl h).of
      refine ⟨s', ?_, h2, h3⟩
      unfold byteString escapedString
      simp only [bind_apply, consumeChar_true hs, ↓reduceIte, h1]
    | @raw u r e h =>
      obtain ⟨s', h1, h2, h3⟩ := (rawByteBuf_bad (s := { s with prev := s.rest, rest := u }) rfl h).of
      refine ⟨s', ?_, h2, h3⟩
      unfold byteString rawString
      simp only [bind_apply, consumeChar_false (c := '"') (s := s) (by rw [hs]; rfl), Bool.false_eq_true, ↓reduceIte,
        consumeChar_true hs, h1]
  | @base64 t v r bs ht hb =>
    have he : base64Error v = b64Found v bs := by
      unfold base64Error; rw [tryDecodeBase64_of hb]; rfl
    rw [← he]
    exact byteString_string hs ht
  | @text t v r ht hb =>
    have he : base64Error v = .expectedByteString := by
      unfold base64Error
      cases h : tryDecodeBase64 v with
      | none => rfl
      | some bs => exact absurd (tryDecodeBase64_sound h) (hb bs)
    rw [← he]
    exact byteString_string hs ht


/-! ### Every text is a literal or malformed -/

theorem badByte_total (u : Text) : (∃ c1 c2 d1 d2 r, u = c1 :: c2 :: r ∧ hexVal c1 = some d1 ∧ hexVal c2 = some d2) ∨ ∃ e r, BadByte u e r := by
  cases u with
  | nil => exact .inr ⟨_, _, .none⟩
  | cons c1 u =>
    cases h1 : hexVal c1 with
    | none => exact .inr ⟨_, _, .first h1⟩
    | some d1 =>
      cases u with
      | nil => exact .inr ⟨_, _, .one h1⟩
      | cons c2 r =>
        cases h2 : hexVal c2 with
        | none => exact .inr ⟨_, _, .second h1 h2⟩
        | some d2 => exact .inl ⟨c1, c2, d1, d2, r, rfl, h1, h2⟩

theorem badBytes_total : ∀ (n : Nat) (acc : List UInt8) (u : Text),
    (∃ e bs r ch, u = '\\' :: (e ++ r) ∧ HexSeq e bs ∧ acc ++ bs = utf8Enc ch) ∨ ∃ e r, BadBytes n acc u e r
  | 0, acc, u => .inr ⟨_, _, .stop (.inl rfl)⟩
  | n + 1, acc, u => by
    by_cases hx : c!"\\x" <+: u
    · obtain ⟨w, rfl⟩ := hx
      rcases badByte_total w with ⟨c1, c2, d1, d2, r, rfl, h1, h2⟩ | ⟨e, r, h⟩
      · by_cases hch : ∃ ch, utf8Enc ch = acc ++ [UInt8.ofNat (d1 * 16 + d2)]
        · obtain ⟨ch, hch⟩ := hch
          exact .inl ⟨['x', c1, c2], _, r, ch, rfl, .one h1 h2, hch.symm⟩
        · have hno : ∀ ch, utf8Enc ch ≠ acc ++ [UInt8.ofNat (d1 * 16 + d2)] := fun ch h => hch ⟨ch, h⟩
          rcases badBytes_total n (acc ++ [UInt8.ofNat (d1 * 16 + d2)]) r with ⟨e, bs, r', ch, rfl, hseq, hb⟩ | ⟨e, r', hb⟩
          · exact .inl ⟨'x' :: c1 :: c2 :: '\\' :: e, _, r', ch, rfl, .more h1 h2 hseq, by simpa using hb⟩
          · exact .inr ⟨e, r', .more h1 h2 hno hb⟩
      · exact .inr ⟨e, r, .byte h⟩
    · exact .inr ⟨_, _, .stop (.inr hx)⟩

theorem digits_split : ∀ (n : Nat) (u : Text), ∃ ds v, u = ds ++ v ∧ ds.length ≤ n ∧ (∀ c ∈ ds, ∃ d, hexVal c = some d) ∧
    (ds.length = n ∨ ∀ c w, v = c :: w → hexVal c = none)
  | 0, u => ⟨[], u, rfl, by simp, by simp, .inl rfl⟩
  | n + 1, [] => ⟨[], [], rfl, by simp, by simp, .inr (by simp)⟩
  | n + 1, c :: u => by
    cases hc : hexVal c with
    | none => exact ⟨[], c :: u, rfl, by simp, by simp, .inr (by rintro _ _ ⟨⟩; exact hc)⟩
    | some d =>
      obtain ⟨ds, v, rfl, h1, h2, h3⟩ := digits_split n u
      refine ⟨c :: ds, v, rfl, by simpa using h1, ?_, by simpa using h3⟩
      intro x hx
      rcases List.mem_cons.mp hx with rfl | hx
      · exact ⟨d, hc⟩
      · exact h2 x hx

/-- `\u{..}`. -/
theorem badUni_total (w : Text) : (∃ ds r ch, w = ds ++ '}' :: r ∧ ds ≠ [] ∧ ds.length ≤ 6 ∧ (∀ c ∈ ds, ∃ d, hexVal c = some d) ∧
      Char.toNat ch = posValue 16 (litDigits ds)) ∨
    ∃ ds u e r, w = ds ++ u ∧ ds.length ≤ 6 ∧ (∀ c ∈ ds, ∃ d, hexVal c = some d) ∧ BadUni ds u e r := by
  obtain ⟨ds, v, rfl, h1, h2, h3⟩ := digits_split 6 w
  have bad : ∀ e r, BadUni ds v e r → ∃ ds' u e r, ds ++ v = ds' ++ u ∧ ds'.length ≤ 6 ∧ (∀ c ∈ ds', ∃ d, hexVal c = some d) ∧ BadUni ds' u e r :=
    fun e r h => ⟨ds, v, e, r, rfl, h1, h2, h⟩
  cases v with
  | nil =>
    right
    by_cases hl : ds.length = 6
    · exact bad _ _ (.close hl (by simp))
    · exact bad _ _ (.eof (by omega))
  | cons c v =>
    by_cases hc : c = '}'
    · subst hc
      by_cases hd : ds = []
      · exact .inr (bad _ _ (.none hd))
      · by_cases hv : ∃ ch, Char.toNat ch = posValue 16 (litDigits ds)
        · obtain ⟨ch, hv⟩ := hv
          exact .inl ⟨ds, v, ch, rfl, hd, h1, h2, hv⟩
        · exact .inr (bad _ _ (.value hd fun ch h => hv ⟨ch, h⟩))
    · right
      by_cases hl : ds.length = 6
      · exact bad _ _ (.close hl (by simpa using hc))
      · refine bad _ _ (.hex (by omega) hc ?_)
        rcases h3 with h3 | h3
        · exact absurd h3 hl
        · exact h3 c v rfl

theorem badEsc_total (bin : Bool) (u : Text) : (∃ e b r, u = e ++ r ∧ Esc bin e b) ∨ ∃ e r, BadEsc bin false u e r := by
  cases u with
  | nil => exact .inr ⟨_, _, .eof⟩
  | cons c u =>
    by_cases hx : c = 'x'
    · subst hx
      rcases badByte_total u with ⟨c1, c2, d1, d2, r, rfl, h1, h2⟩ | ⟨e, r, h⟩
      · by_cases hb : bin = true ∨ d1 * 16 + d2 < 128
        · exact .inl ⟨['x', c1, c2], _, r, rfl, .hex h1 h2 hb⟩
        · have hbin : bin = false := by cases bin <;> simp_all
          rcases badBytes_total 3 [UInt8.ofNat (d1 * 16 + d2)] r with ⟨e, bs, r', ch, rfl, hseq, hb'⟩ | ⟨e, r', hb'⟩
          · refine .inl ⟨'x' :: c1 :: c2 :: '\\' :: e, utf8Enc ch, r', rfl, .multi hbin ?_⟩
            rw [← hb']
            exact .more h1 h2 hseq
          · exact .inr ⟨e, r', .bytes hbin rfl h1 h2 (by omega) hb'⟩
      · exact .inr ⟨e, r, .byte h⟩
    · by_cases hu : c = 'u'
      · subst hu
        cases u with
        | nil => exact .inr ⟨_, _, .brace (by simp)⟩
        | cons d u =>
          by_cases hd : d = '{'
          · subst hd
            rcases badUni_total u with ⟨ds, r, ch, rfl, h1, h2, h3, h4⟩ | ⟨ds, v, e, r, rfl, h1, h2, h3⟩
            · exact .inl ⟨'u' :: '{' :: ds ++ ['}'], utf8Enc ch, r, by simp, .uni h1 h2 h3 h4⟩
            · exact .inr ⟨e, r, .uni h1 h2 h3⟩
          · exact .inr ⟨_, _, .brace (by simpa using hd)⟩
      · cases hs : simpleEsc c with
        | none => exact .inr ⟨_, _, .unknown hs hx hu⟩
        | some n => exact .inl ⟨[c], _, u, rfl, .simple hs⟩

theorem badEsc_char_total (u : Text) : (∃ e c r, u = e ++ r ∧ CharEsc e c) ∨ ∃ e r, BadEsc false true u e r := by
  cases u with
  | nil => exact .inr ⟨_, _, .eof⟩
  | cons c u =>
    by_cases hx : c = 'x'
    · subst hx
      rcases badByte_total u with ⟨c1, c2, d1, d2, r, rfl, h1, h2⟩ | ⟨e, r, h⟩
      · by_cases hb : d1 * 16 + d2 < 128
        · exact .inl ⟨['x', c1, c2], _, r, rfl, .hex h1 h2 hb⟩
        · exact .inr ⟨_, r, .single rfl rfl h1 h2 (by omega)⟩
      · exact .inr ⟨e, r, .byte h⟩
    · by_cases hu : c = 'u'
      · subst hu
        cases u with
        | nil => exact .inr ⟨_, _, .brace (by simp)⟩
        | cons d u =>
          by_cases hd : d = '{'
          · subst hd
            rcases badUni_total u with ⟨ds, r, ch, rfl, h1, h2, h3, h4⟩ | ⟨ds, v, e, r, rfl, h1, h2, h3⟩
            · exact .inl ⟨'u' :: '{' :: ds ++ ['}'], ch, r, by simp, .uni h1 h2 h3 h4⟩
            · exact .inr ⟨e, r, .uni h1 h2 h3⟩
          · exact .inr ⟨_, _, .brace (by simpa using hd)⟩
      · cases hs : simpleEsc c with
        | none => exact .inr ⟨_, _, .unknown hs hx hu⟩
        | some n => exact .inl ⟨[c], _, u, rfl, .simple hs⟩

theorem plain_split (u : Text) : ∃ p v, u = p ++ v ∧ Plain p ∧ (v = [] ∨ (∃ r, v = '"' :: r) ∨ ∃ r, v = '\\' :: r) := by
  induction u with
  | nil => exact ⟨[], [], rfl, by simp [Plain], .inl rfl⟩
  | cons c u ih =>
    by_cases h1 : c = '"'
    · subst h1; exact ⟨[], _, rfl, by simp [Plain], .inr (.inl ⟨u, rfl⟩)⟩
    · by_cases h2 : c = '\\'
      · subst h2; exact ⟨[], _, rfl, by simp [Plain], .inr (.inr ⟨u, rfl⟩)⟩
      · obtain ⟨p, v, rfl, hp, hv⟩ := ih
        refine ⟨c :: p, v, rfl, ?_, hv⟩
        intro d hd
        rcases List.mem_cons.mp hd with rfl | hd
        · exact ⟨h1, h2⟩
        · exact hp d hd

theorem plain_strBody {bin : Bool} {p : Text} (hp : Plain p) : StrBody bin p (utf8EncAll p) := by
  have := StrBody.prepend hp (StrBody.nil (bin := bin))
  simpa using this

theorem badBody_after {bin : Bool} (n : Nat) : ∀ (t e v : Text) (bs b : List UInt8), v.length ≤ n → StrBody bin t bs → Esc bin e b →
    '"' ∈ t ++ '\\' :: (e ++ v) →
    (∃ t' bs' r, t ++ '\\' :: (e ++ v) = t' ++ '"' :: r ∧ StrBody bin t' bs') ∨ ∃ x r, BadBody bin (t ++ '\\' :: (e ++ v)) x r := by
  induction n with
  | zero =>
    intro t e v bs b hv ht he hq
    obtain rfl : v = [] := List.length_eq_zero_iff.mp (by omega)
    exact .inr ⟨_, _, .unclosed hq ht he (by simp)⟩
  | succ n ih =>
    intro t e v bs b hv ht he hq
    obtain ⟨p, w, rfl, hp, rfl | ⟨r, rfl⟩ | ⟨w, rfl⟩⟩ := plain_split v
    · rw [List.append_nil] at hq ⊢
      exact .inr ⟨_, _, .unclosed hq ht he hp⟩
    · exact .inl ⟨t ++ '\\' :: (e ++ p), _, r, by simp, ht.append (.esc he (plain_strBody hp))⟩
    · have e1 : t ++ '\\' :: (e ++ (p ++ '\\' :: w)) = (t ++ '\\' :: (e ++ p)) ++ '\\' :: w := by simp
      have ht' := ht.append (StrBody.esc he (plain_strBody hp))
      rw [e1] at hq ⊢
      rcases badEsc_total bin w with ⟨e', b', w', rfl, he'⟩ | ⟨x, r, h⟩
      · exact ih _ e' w' _ b' (by simp at hv; have := he'.len; omega) ht' he' hq
      · exact .inr ⟨x, r, .esc hq ht' h⟩

theorem badBody_total (bin : Bool) (u : Text) : (∃ t bs r, u = t ++ '"' :: r ∧ StrBody bin t bs) ∨ ∃ e r, BadBody bin u e r := by
  by_cases hq : '"' ∈ u
  · obtain ⟨p, w, rfl, hp, rfl | ⟨r, rfl⟩ | ⟨w, rfl⟩⟩ := plain_split u
    · rw [List.append_nil] at hq
      exact absurd rfl (hp _ hq).1
    · exact .inl ⟨p, _, r, rfl, plain_strBody hp⟩
    · rcases badEsc_total bin w with ⟨e', b', w', rfl, he'⟩ | ⟨x, r, h⟩
      · exact badBody_after _ _ _ _ _ _ (Nat.le_refl _) (plain_strBody hp) he' hq
      · exact .inr ⟨x, r, .esc hq (plain_strBody hp) h⟩
  · exact .inr ⟨_, _, .open hq⟩

theorem badRaw_total (m : Err) (u : Text) : (∃ n v r, u = List.replicate n '#' ++ '"' :: (v ++ rawClose n ++ r) ∧ RawBody n v) ∨ ∃ e r, BadRaw m u e r := by
  have hsp : ∃ n v, u = List.replicate n '#' ++ v ∧ v.head? ≠ some '#' := by
    induction u with
    | nil => exact ⟨0, [], rfl, by simp⟩
    | cons c u ih =>
      by_cases hc : c = '#'
      · subst hc
        obtain ⟨n, v, rfl, hv⟩ := ih
        exact ⟨n + 1, v, rfl, hv⟩
      · exact ⟨0, c :: u, rfl, by simpa using hc⟩
  obtain ⟨n, v, rfl, hv⟩ := hsp
  by_cases hq : v.head? = some '"'
  · obtain ⟨r, rfl⟩ : ∃ r, v = '"' :: r := by
      cases v with
      | nil => cases hq
      | cons c r => cases hq; exact ⟨r, rfl⟩
    cases hf : findSub (rawClose n) r with
    | none => exact .inr ⟨_, _, .open (findSub_not (by simp [rawClose]) hf)⟩
    | some i =>
      obtain ⟨h1, h2⟩ := findSub_inv (by simp [rawClose]) r i hf
      exact .inl ⟨n, r.take i, _, by rw [← h1], h2⟩
  · exact .inr ⟨_, _, .quote hv hq⟩

theorem StrBody.text {bs : List UInt8} {t : Text} (h : StrBody false t bs) : ∃ v, bs = utf8EncAll v := by
  induction h with
  | nil => exact ⟨[], rfl⟩
  | @plain c t bs _ _ _ ih =>
    obtain ⟨v, rfl⟩ := ih
    exact ⟨c :: v, rfl⟩
  | @esc e t b bs he _ ih =>
    obtain ⟨v, rfl⟩ := ih
    have ha : ∀ n, n < 128 → ∃ c, [UInt8.ofNat n] = utf8Enc c := by
      intro n hn
      have hv : n.isValidChar := .inl (by omega)
      have hc : (Char.ofNat n).toNat = n := by simp [Char.ofNat, hv, Char.toNat, Char.ofNatAux]
      exact ⟨Char.ofNat n, by rw [utf8Enc_ascii (by omega), hc]⟩
    have : ∃ c, b = utf8Enc c := by
      cases he with
      | @simple c n hn => exact ha n (simpleEsc_lt hn)
      | hex h1 h2 hb => exact ha _ (by simpa using hb)
      | uni => exact ⟨_, rfl⟩
      | multi => exact ⟨_, rfl⟩
    obtain ⟨c, rfl⟩ := this
    exact ⟨c :: v, rfl⟩

theorem badStr_total (u : Text) : (∃ t v r, u = t ++ r ∧ StrLit t v) ∨ ∃ e r, BadStr u e r := by
  by_cases h1 : u.head? = some '"'
  · obtain ⟨w, rfl⟩ : ∃ r, u = '"' :: r := by
      cases u with
      | nil => cases h1
      | cons c r => cases h1; exact ⟨r, rfl⟩
    rcases badBody_total false w with ⟨t, bs, r, rfl, ht⟩ | ⟨e, r, h⟩
    · obtain ⟨v, rfl⟩ := ht.text
      exact .inl ⟨_, v, r, by simp, .esc ht⟩
    · exact .inr ⟨e, r, .esc h⟩
  · by_cases h2 : u.head? = some 'r'
    · obtain ⟨w, rfl⟩ : ∃ r, u = 'r' :: r := by
        cases u with
        | nil => cases h2
        | cons c r => cases h2; exact ⟨r, rfl⟩
      rcases badRaw_total .expectedString w with ⟨n, v, r, rfl, hv⟩ | ⟨e, r, h⟩
      · exact .inl ⟨_, v, r, by simp, .raw hv⟩
      · exact .inr ⟨e, r, .raw h⟩
    · exact .inr ⟨_, _, .start h1 h2⟩

theorem badBytesLit_total (found : Text → List UInt8 → Err) (u : Text) : (∃ t v r, u = t ++ r ∧ BytesLit t v) ∨ ∃ e r, BadBytesLit found u e r := by
  by_cases h1 : u.head? = some '"' ∨ u.head? = some 'r'
  · rcases badStr_total u with ⟨t, v, r, rfl, ht⟩ | ⟨e, r, h⟩
    · by_cases hb : ∃ bs, B64 v bs
      · obtain ⟨bs, hb⟩ := hb
        exact .inr ⟨_, _, .base64 ht hb⟩
      · exact .inr ⟨_, _, .text ht fun bs h => hb ⟨bs, h⟩⟩
    · exact .inr ⟨e, r, .string h1 h⟩
  · by_cases h2 : c!"b\"" <+: u
    · obtain ⟨w, rfl⟩ := h2
      rcases badBody_total true w with ⟨t, bs, r, rfl, ht⟩ | ⟨e, r, h⟩
      · exact .inl ⟨_, bs, r, by simp, .esc ht⟩
      · exact .inr ⟨e, r, .esc h⟩
    · by_cases h3 : c!"br" <+: u
      · obtain ⟨w, rfl⟩ := h3
        rcases badRaw_total .expectedByteString w with ⟨n, v, r, rfl, hv⟩ | ⟨e, r, h⟩
        · exact .inl ⟨_, _, r, by simp, .raw hv⟩
        · exact .inr ⟨e, r, .raw h⟩
      · exact .inr ⟨_, _, .start (fun h => h1 (.inl h)) (fun h => h1 (.inr h)) h2 h3⟩

theorem badChar_total (u : Text) : (∃ t v r, u = t ++ r ∧ CharLit t v) ∨ ∃ e r, BadChar u e r := by
  cases u with
  | nil => exact .inr ⟨_, _, .start (by simp)⟩
  | cons q u =>
    by_cases hq : q = '\''
    · subst hq
      cases u with
      | nil => exact .inr ⟨_, _, .eof⟩
      | cons c u =>
        by_cases hc : c = '\\'
        · subst hc
          rcases badEsc_char_total u with ⟨e, c, r, rfl, he⟩ | ⟨e, r, h⟩
          · by_cases hr : r.head? = some '\''
            · cases r with
              | nil => cases hr
              | cons _ r => cases hr; exact .inl ⟨_, c, r, by simp, .esc he⟩
            · exact .inr ⟨_, _, .unclosed he hr⟩
          · exact .inr ⟨e, r, .esc h⟩
        · by_cases hr : u.head? = some '\''
          · cases u with
            | nil => cases hr
            | cons _ r => cases hr; exact .inl ⟨['\'', c, '\''], c, r, rfl, .plain hc⟩
          · exact .inr ⟨_, _, .plain hc hr⟩
    · exact .inr ⟨_, _, .start (by simpa using hq)⟩


/-! ### Byte literals -/

theorem byteLiteral_bad {tg : IntTarget} {b : Text} {s : St} {u r : Text} {e : Err} (hs : s.rest = u) (h : BadByteLit u e r) :
    Errs (byteLiteral tg b) s e r := by
  unfold Errs byteLiteral
  cases h with
  | eof =>
    refine ⟨s, ?_, hs, KeepsW.refl _⟩
    simp only [bind_apply, nextChar, hs]
  | @esc u r e h =>
    obtain ⟨s', h1, h2, h3⟩ := parseEscape_bad (enc := .binary) (s := { s with rest := u }) rfl h
    refine ⟨s', ?_, h2, (KeepsW.rest s u).trans h3⟩
    simp only [bind_apply, nextChar_cons hs, beq_self_eq_true, ↓reduceIte, h1]
  | @uni ds r ch h1 h2 h3 h4 =>
    obtain ⟨s', k1, k2, k3⟩ := one_ok (enc := .binary) (s := { s with rest := 'u' :: '{' :: (ds ++ '}' :: r) }) (r := r) (by simp) (.uni h1 h2 h3 h4)
    refine ⟨s', ?_, k2, (KeepsW.rest s _).trans k3⟩
    simp only [bind_apply, nextChar_cons hs, beq_self_eq_true, ↓reduceIte, k1]
    rfl
  | @wide c r h1 h2 =>
    refine ⟨{ s with rest := r }, ?_, rfl, KeepsW.rest _ _⟩
    have hb : (c == '\\') = false := by simpa using h1
    simp only [bind_apply, nextChar_cons hs, hb, Bool.false_eq_true, ↓reduceIte, if_neg (show ¬ c.toNat < 128 by omega), fail_apply]
  | @plain c r h1 h2 h3 =>
    refine ⟨{ s with rest := r }, ?_, rfl, KeepsW.rest _ _⟩
    have hb : (c == '\\') = false := by simpa using h1
    simp only [bind_apply, nextChar_cons hs, hb, Bool.false_eq_true, ↓reduceIte, if_pos h2, pure_apply,
      consumeChar_false (c := '\'') (s := { s with rest := r }) (head_ne h3), fail_apply]
  | @unclosed e r n h1 h2 =>
    have key : ∃ x, One .binary e (.ascii x) := by
      cases h1 with
      | simple hn => exact ⟨_, .simple hn⟩
      | hex v1 v2 => exact ⟨_, .bin rfl v1 v2⟩
    obtain ⟨x, hx⟩ := key
    obtain ⟨s3, k1, k2, k3⟩ := one_ok (s := { s with rest := e ++ r }) (r := r) rfl hx
    refine ⟨s3, ?_, k2, (KeepsW.rest s _).trans k3⟩
    simp only [bind_apply, nextChar_cons hs, beq_self_eq_true, ↓reduceIte, k1, pure_apply,
      consumeChar_false (c := '\'') (s := s3) (by rw [k2]; exact head_ne h2), Bool.false_eq_true, fail_apply]

theorem integer_bad [Env] {tg : IntTarget} {s : St} {u r : Text} {e : Err} (hs : s.rest = 'b' :: '\'' :: u) (h : BadByteLit u e r) :
    Errs (integer tg) s e r := by
  unfold Errs
  rw [integer_byte hs]
  exact (byteLiteral_bad (s := { s with prev := s.rest, rest := u }) rfl h).of

theorem badByteLit_total (u : Text) : (∃ t n r, 'b' :: '\'' :: u = t ++ r ∧ ByteLit t n) ∨ ∃ e r, BadByteLit u e r := by
  cases u with
  | nil => exact .inr ⟨_, _, .eof⟩
  | cons c u =>
    by_cases hc : c = '\\'
    · subst hc
      have fin : ∀ e n r, ByteEsc e n → u = e ++ r → (∃ t n r, 'b' :: '\'' :: '\\' :: u = t ++ r ∧ ByteLit t n) ∨ ∃ e r, BadByteLit ('\\' :: u) e r := by
        rintro e n r he rfl
        by_cases hr : r.head? = some '\''
        · cases r with
          | nil => cases hr
          | cons _ r => cases hr; exact .inl ⟨_, n, r, by simp, .esc he⟩
        · exact .inr ⟨_, _, .unclosed he hr⟩
      cases u with
      | nil => exact .inr ⟨_, _, .esc .eof⟩
      | cons c u =>
        by_cases hx : c = 'x'
        · subst hx
          rcases badByte_total u with ⟨c1, c2, d1, d2, r, rfl, h1, h2⟩ | ⟨e, r, h⟩
          · exact fin ['x', c1, c2] _ r (.hex h1 h2) rfl
          · exact .inr ⟨e, r, .esc (.byte h)⟩
        · by_cases hu : c = 'u'
          · subst hu
            cases u with
            | nil => exact .inr ⟨_, _, .esc (.brace (by simp))⟩
            | cons d u =>
              by_cases hd : d = '{'
              · subst hd
                rcases badUni_total u with ⟨ds, r, ch, rfl, h1, h2, h3, h4⟩ | ⟨ds, v, e, r, rfl, h1, h2, h3⟩
                · exact .inr ⟨_, _, .uni h1 h2 h3 h4⟩
                · exact .inr ⟨e, r, .esc (.uni h1 h2 h3)⟩
              · exact .inr ⟨_, _, .esc (.brace (by simpa using hd))⟩
          · cases hs : simpleEsc c with
            | none => exact .inr ⟨_, _, .esc (.unknown hs hx hu)⟩
            | some n => exact fin [c] _ u (.simple hs) rfl
    · by_cases hw : c.toNat < 128
      · by_cases hr : u.head? = some '\''
        · cases u with
          | nil => cases hr
          | cons _ r => cases hr; exact .inl ⟨['b', '\'', c, '\''], _, r, rfl, .plain hc hw⟩
        · exact .inr ⟨_, _, .plain hc hw hr⟩
      · exact .inr ⟨_, _, .wide hc (by omega)⟩

end Ron
