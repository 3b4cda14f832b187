import Verif.Lemmas.Utf8
import Verif.Lemmas.Digits
import Verif.Spec.Strings
/-! Reading string literals. -/

set_option linter.unusedSimpArgs false

namespace Ron

theorem expectChar_ok {s : St} {c : Char} {r : Text} (e : Err) (h : s.rest = c :: r) :
    expectChar c e s = .ok () { s with prev := s.rest, rest := r } := by
  unfold expectChar
  simp only [bind_apply, consumeChar_true h, ↓reduceIte]
  rfl

theorem expectChar_err {s : St} {c : Char} (e : Err) (h : startsWith s.rest [c] = false) :
    expectChar c e s = .err e s := by
  unfold expectChar
  simp only [bind_apply, consumeChar_false h, Bool.false_eq_true, ↓reduceIte]
  rfl

theorem decodeHexP_some {c : Char} {d : Nat} (s : St) (h : hexVal c = some d) : decodeHexP c s = .ok d s := by
  unfold decodeHexP; rw [decodeHex_eq, h]; rfl

theorem decodeAsciiEscape_ok {s : St} {c1 c2 : Char} {d1 d2 : Nat} {r : Text} (h : s.rest = c1 :: c2 :: r)
    (h1 : hexVal c1 = some d1) (h2 : hexVal c2 = some d2) :
    decodeAsciiEscape s = .ok (d1 * 16 + d2) { s with rest := r } := by
  unfold decodeAsciiEscape
  simp only [bind_apply, nextChar_cons h, decodeHexP_some _ h1]
  rw [nextChar_cons (s := { s with rest := c2 :: r }) (c := c2) (r := r) rfl]
  simp only [decodeHexP_some _ h2]
  rfl

theorem litDigits_hex {ds : Text} (h : ∀ c ∈ ds, ∃ d, hexVal c = some d) : (litDigits ds).length = ds.length := by
  induction ds with
  | nil => rfl
  | cons c ds ih =>
    obtain ⟨d, hd⟩ := h c (by simp)
    rw [litDigits_cons ds hd]; simp; exact ih (fun c hc => h c (by simp [hc]))

theorem uniDigits_ok (n acc k : Nat) (ds r : Text) (s : St) (hs : s.rest = ds ++ '}' :: r) (hn : ds.length ≤ n)
    (hd : ∀ c ∈ ds, ∃ d, hexVal c = some d) :
    uniDigits n acc k s = .ok (acc * 16 ^ ds.length + posValue 16 (litDigits ds), k + ds.length) { s with rest := '}' :: r } := by
  induction ds generalizing n acc k s with
  | nil =>
    simp at hs
    have hs' : ({ s with rest := '}' :: r } : St) = s := by rw [← hs]
    cases n with
    | zero => simp [uniDigits, litDigits, posValue, hs']
    | succ n =>
      rw [uniDigits]
      have : peekCharOrEof s = .ok '}' s := by unfold peekCharOrEof; rw [hs]
      simp [this, litDigits, posValue, hs']
  | cons c ds ih =>
    cases n with
    | zero => simp at hn
    | succ n =>
      obtain ⟨d, hd1⟩ := hd c (by simp)
      have hc : c ≠ '}' := by rintro rfl; rw [show hexVal '}' = none by decide] at hd1; cases hd1
      rw [uniDigits]
      have : peekCharOrEof s = .ok c s := by unfold peekCharOrEof; rw [hs]; rfl
      simp only [bind_apply, this, beq_iff_eq, hc, ↓reduceIte, skipNextChar_apply, ite_P, decodeHexP_some _ hd1]
      rw [ih n (acc * 16 + d) (k + 1) { s with rest := s.rest.drop 1 } (by simp [hs]) (by simpa using hn)
        (fun c hc => hd c (by simp [hc]))]
      rw [litDigits_cons ds hd1, posValue, litDigits_hex (fun c hc => hd c (by simp [hc]))]
      simp only [List.length_cons, Res.ok.injEq, Prod.mk.injEq, and_true]
      constructor
      · rw [Nat.pow_succ]; grind
      · omega

theorem charOf_eq {n : Nat} {c : Char} (h : c.toNat = n) : charOf? n = some c := by subst h; exact charOf_toNat c

theorem utf8Enc_ascii {c : Char} (h : c.toNat < 128) : utf8Enc c = [UInt8.ofNat c.toNat] := by
  simp [utf8Enc, h]

theorem ascii_char {n : Nat} (h : n < 128) : (Char.ofNat n).toNat = n := by
  have : n.isValidChar := by left; omega
  simp [Char.ofNat, this]; rfl

/-- The encodings. -/
def EscEnc.isBin : EscEnc → Bool
  | .binary => true
  | .utf8 => false

theorem simpleEsc_lt {c : Char} {n : Nat} (h : simpleEsc c = some n) : n < 128 := by
  unfold simpleEsc at h
  split at h
  · cases h; omega
  split at h
  · cases h; omega
  split at h
  · cases h; omega
  split at h
  · cases h; omega
  split at h
  · cases h; omega
  split at h
  · cases h; omega
  split at h
  · cases h; omega
  · cases h

theorem parseEscape_simple {enc : EscEnc} {isChar : Bool} {c : Char} {n : Nat} {r : Text} {s : St} (hs : s.rest = c :: r)
    (h : simpleEsc c = some n) :
    parseEscape enc isChar s = .ok (.ascii (UInt8.ofNat n)) { s with rest := r } := by
  unfold parseEscape
  simp only [bind_apply, nextChar_cons hs]
  unfold simpleEsc at h
  split at h
  · cases h; rename_i hc; subst hc; rfl
  split at h
  · cases h; rename_i hc; subst hc; rfl
  split at h
  · cases h; rename_i hc; subst hc; rfl
  split at h
  · cases h; rename_i hc; subst hc; rfl
  split at h
  · cases h; rename_i hc; subst hc; rfl
  split at h
  · cases h; rename_i hc; subst hc; rfl
  split at h
  · cases h; rename_i hc; subst hc; rfl
  · cases h

/-- A proper beginning of the encoding of a character does not decode. -/
theorem utf8One_prefix {ch : Char} {p q : List UInt8} (h : utf8Enc ch = p ++ q) (hq : q ≠ []) : utf8One p = none := by
  unfold utf8One
  cases hd : utf8Dec p with
  | none => rfl
  | some t =>
    cases t with
    | nil => rfl
    | cons c cs =>
      exfalso
      have hp := utf8Dec_some hd
      rw [hp, utf8EncAll_cons] at h
      have h1 := utf8Next_enc ch []
      have h2 := utf8Next_enc c (utf8EncAll cs ++ q)
      rw [List.append_nil, h, List.append_assoc, h2] at h1
      simp at h1
      exact hq h1.2.2

/-- The first byte of a sequence of escapes. -/
theorem HexSeq.length {e : Text} {bs : List UInt8} (h : HexSeq e bs) : 1 ≤ bs.length := by cases h <;> simp

theorem moreBytes_ok {e : Text} {bs : List UInt8} (h : HexSeq e bs) : ∀ (n : Nat) (acc : List UInt8) (ch : Char) (s : St) (r : Text),
    s.rest = '\\' :: (e ++ r) → utf8Enc ch = acc ++ bs → bs.length ≤ n →
    ∃ p, moreBytes n acc s = .ok ch { s with prev := p, rest := r } := by
  induction h with
  | @one c1 c2 d1 d2 h1 h2 =>
    intro n acc ch s r hs hch hn
    obtain ⟨n, rfl⟩ : ∃ m, n = m + 1 := ⟨n - 1, by simp at hn; omega⟩
    refine ⟨s.rest, ?_⟩
    rw [moreBytes]
    have hst : startsWith s.rest c!"\\x" = true := by rw [hs]; simp
    simp only [bind_apply, consumeStr_true hst, ↓reduceIte]
    rw [decodeAsciiEscape_ok (s := { s with prev := s.rest, rest := s.rest.drop c!"\\x".length }) (c1 := c1) (c2 := c2) (r := r)
      (by simp [hs]) h1 h2]
    simp only [← hch, utf8One_enc]
    rfl
  | @more c1 c2 d1 d2 e bs h1 h2 he ih =>
    intro n acc ch s r hs hch hn
    obtain ⟨n, rfl⟩ : ∃ m, n = m + 1 := ⟨n - 1, by simp at hn; omega⟩
    have hst : startsWith s.rest c!"\\x" = true := by rw [hs]; simp
    have hp : utf8One (acc ++ [UInt8.ofNat (d1 * 16 + d2)]) = none :=
      utf8One_prefix (q := bs) (by simpa using hch) (by have := he.length; intro hn; simp [hn] at this)
    obtain ⟨p, hp'⟩ := ih n (acc ++ [UInt8.ofNat (d1 * 16 + d2)]) ch { s with prev := s.rest, rest := '\\' :: (e ++ r) } r rfl
      (by simpa using hch) (by simpa using hn)
    refine ⟨p, ?_⟩
    rw [moreBytes]
    simp only [bind_apply, consumeStr_true hst, ↓reduceIte]
    rw [decodeAsciiEscape_ok (s := { s with prev := s.rest, rest := s.rest.drop c!"\\x".length }) (c1 := c1) (c2 := c2)
      (r := '\\' :: (e ++ r)) (by simp [hs]) h1 h2]
    simp only [hp]
    exact hp'

theorem utf8Enc_len4 (c : Char) : (utf8Enc c).length ≤ 4 := by
  unfold utf8Enc
  simp only
  split
  · simp
  · split
    · simp
    · split <;> simp

theorem parseEscape_ok {enc : EscEnc} {e r : Text} {b : List UInt8} {s : St} (hs : s.rest = e ++ r)
    (h : Esc enc.isBin e b) : ∃ x, RunsW (parseEscape enc false) s x r ∧ x.bytes = b := by
  cases h with
  | @multi _ ch hb h =>
    have henc : enc = .utf8 := by cases enc <;> simp_all [EscEnc.isBin]
    subst henc
    generalize hbs : utf8Enc ch = bs at h
    cases h with
    | @one c1 c2 d1 d2 h1 h2 =>
      have hs' : s.rest = 'x' :: (c1 :: c2 :: r) := by simpa using hs
      have hdec := decodeAsciiEscape_ok (s := { s with rest := c1 :: c2 :: r }) rfl h1 h2
      have hone := utf8One_enc ch
      rw [hbs] at hone
      refine ⟨.utf8 ch, ⟨{ s with rest := r }, ?_, rfl, KeepsW.of' (KeepsW.refl _)⟩, hbs⟩
      unfold parseEscape
      simp only [bind_apply, nextChar_cons hs']
      simp only [↓Char.reduceBEq, Bool.false_eq_true, ↓reduceIte, ite_P, bind_apply, hdec, reduceCtorEq, hone]
      rfl
    | @more c1 c2 d1 d2 e bs h1 h2 he =>
      have hs' : s.rest = 'x' :: (c1 :: c2 :: '\\' :: (e ++ r)) := by simpa using hs
      have hdec := decodeAsciiEscape_ok (s := { s with rest := c1 :: c2 :: '\\' :: (e ++ r) }) rfl h1 h2
      have hne : bs ≠ [] := by have := he.length; intro hn; simp [hn] at this
      have hone : utf8One [UInt8.ofNat (d1 * 16 + d2)] = none := utf8One_prefix (q := bs) (by simpa using hbs) hne
      have hl := utf8Enc_len4 ch
      rw [hbs] at hl
      obtain ⟨p, hm⟩ := moreBytes_ok he 3 [UInt8.ofNat (d1 * 16 + d2)] ch { s with rest := '\\' :: (e ++ r) } r rfl
        (by simpa using hbs) (by simpa using hl)
      refine ⟨.utf8 ch, ⟨{ s with prev := p, rest := r }, ?_, rfl, KeepsW.step _ _ _⟩, hbs⟩
      unfold parseEscape
      simp only [bind_apply, nextChar_cons hs']
      simp only [↓Char.reduceBEq, Bool.false_eq_true, ↓reduceIte, ite_P, bind_apply, hdec, reduceCtorEq, hone, hm]
      rfl
  | @simple c n h =>
    refine ⟨.ascii (UInt8.ofNat n), ⟨_, parseEscape_simple (by simpa using hs) h, rfl, KeepsW.of' (KeepsW.refl _)⟩, rfl⟩
  | @hex c1 c2 d1 d2 h1 h2 h3 =>
    have hs' : s.rest = 'x' :: (c1 :: c2 :: r) := by simpa using hs
    have hlt1 := hexVal_lt h1
    have hlt2 := hexVal_lt h2
    have hdec := decodeAsciiEscape_ok (s := { s with rest := c1 :: c2 :: r }) rfl h1 h2
    cases enc with
    | binary =>
      refine ⟨.ascii (UInt8.ofNat (d1 * 16 + d2)), ⟨{ s with rest := r }, ?_, rfl, KeepsW.of' (KeepsW.refl _)⟩, rfl⟩
      unfold parseEscape
      simp only [bind_apply, nextChar_cons hs']
      simp [hdec]
    | utf8 =>
      have h3' : d1 * 16 + d2 < 128 := by simpa [EscEnc.isBin] using h3
      have hc := ascii_char h3'
      have henc : utf8Enc (Char.ofNat (d1 * 16 + d2)) = [UInt8.ofNat (d1 * 16 + d2)] := by
        rw [utf8Enc_ascii (by omega), hc]
      have hone := utf8One_enc (Char.ofNat (d1 * 16 + d2))
      rw [henc] at hone
      refine ⟨.utf8 (Char.ofNat (d1 * 16 + d2)), ⟨{ s with rest := r }, ?_, rfl, KeepsW.of' (KeepsW.refl _)⟩, henc⟩
      unfold parseEscape
      simp only [bind_apply, nextChar_cons hs']
      simp only [↓Char.reduceBEq, Bool.false_eq_true, ↓reduceIte, ite_P, bind_apply, hdec, reduceCtorEq, hone]
      rfl
  | @uni ds ch h1 h2 h3 h4 =>
    have hs' : s.rest = 'u' :: ('{' :: (ds ++ '}' :: r)) := by simpa using hs
    refine ⟨.utf8 ch, ⟨{ s with prev := '}' :: r, rest := r }, ?_, rfl, KeepsW.step _ _ _⟩, rfl⟩
    unfold parseEscape
    simp only [bind_apply, nextChar_cons hs']
    have g1 := expectChar_ok (s := { s with rest := '{' :: (ds ++ '}' :: r) }) (.invalidEscape c!"Missing { in Unicode escape") rfl
    have g2 := uniDigits_ok 6 0 0 ds r { s with prev := '{' :: (ds ++ '}' :: r), rest := ds ++ '}' :: r } rfl h2 h3
    have g3 := expectChar_ok (s := { s with prev := '{' :: (ds ++ '}' :: r), rest := '}' :: r }) (.invalidEscape c!"No } at the end of Unicode escape") rfl
    simp only [Nat.zero_mul, Nat.zero_add] at g2
    have hl : (ds.length == 0) = false := by cases ds <;> simp_all
    simp [g1, g2, g3, hl, charOf_eq h4, h1]

/-! ### Bodies -/

/-- No quote, no backslash. -/
def Plain (t : Text) : Prop := ∀ c ∈ t, c ≠ '"' ∧ c ≠ '\\'

theorem StrBody.split {bin : Bool} {t : Text} {bs : List UInt8} (h : StrBody bin t bs) :
    ∃ p, Plain p ∧ ((t = p ∧ bs = utf8EncAll p) ∨
      ∃ e b t' bs', t = p ++ '\\' :: (e ++ t') ∧ bs = utf8EncAll p ++ b ++ bs' ∧ Esc bin e b ∧ StrBody bin t' bs') := by
  induction h with
  | nil => exact ⟨[], by simp [Plain], .inl ⟨rfl, rfl⟩⟩
  | @plain c t bs h1 h2 h ih =>
    obtain ⟨p, hp, h'⟩ := ih
    refine ⟨c :: p, ?_, ?_⟩
    · intro d hd
      rcases List.mem_cons.mp hd with rfl | hd
      · exact ⟨h1, h2⟩
      · exact hp d hd
    · rcases h' with ⟨rfl, rfl⟩ | ⟨e, b, t', bs', rfl, rfl, h3, h4⟩
      · exact .inl ⟨rfl, by simp⟩
      · exact .inr ⟨e, b, t', bs', rfl, by simp, h3, h4⟩
  | @esc e t b bs h1 h2 ih =>
    exact ⟨[], by simp [Plain], .inr ⟨e, b, t, bs, rfl, by simp, h1, h2⟩⟩

theorem Plain.while {p r : Text} (hp : Plain p) (c : Char) (hc : c = '"' ∨ c = '\\') :
    whileLen (fun c => !(c == '"' || c == '\\')) (p ++ c :: r) = p.length := by
  rw [whileLen_append _ _ _ (by intro d hd; have := hp d hd; simp [this.1, this.2])]
  rw [whileLen_cons_false _ _ _ (by rcases hc with rfl | rfl <;> rfl)]
  rfl

theorem escLoop_apply {enc : EscEnc} {f i : Nat} {acc : List UInt8} {s : St} {e : Text} {b : List UInt8}
    {q u : Text} (hs : s.rest = q ++ '\\' :: (e ++ u)) (hi : q.length = i) (he : Esc enc.isBin e b) :
    ∃ s', KeepsW s s' ∧ s'.rest = u ∧ escLoop enc (f + 1) i acc s =
      (match u.drop (whileLen (fun c => !(c == '"' || c == '\\')) u) with
        | [] => Res.err .expectedStringEnd s'
        | c :: _ =>
          let acc := acc ++ b ++ utf8EncAll (u.take (whileLen (fun c => !(c == '"' || c == '\\')) u))
          if c == '\\' then escLoop enc f (whileLen (fun c => !(c == '"' || c == '\\')) u) acc s'
          else .ok (acc, whileLen (fun c => !(c == '"' || c == '\\')) u + 1) s') := by
  have hd : s.rest.drop (i + 1) = e ++ u := by
    rw [hs, ← hi]
    rw [show q ++ '\\' :: (e ++ u) = (q ++ ['\\']) ++ (e ++ u) by simp]
    rw [List.drop_left' (by simp)]
  obtain ⟨x, ⟨s', h1, h2, h3⟩, hx⟩ := parseEscape_ok (enc := enc)
    (s := { s with prev := s.rest, rest := s.rest.drop (i + 1) }) (r := u) hd he
  refine ⟨s', KeepsW.of h3, h2, ?_⟩
  rw [escLoop]
  simp only [bind_apply, advance_ok (show i + 1 ≤ s.rest.length by rw [hs]; simp; omega), h1, getSt_apply]
  rw [h2, hx]
  cases hdr : u.drop (whileLen (fun c => !(c == '"' || c == '\\')) u) with
  | nil => rfl
  | cons c w => simp only [ite_P]; rfl

theorem escLoop_ok {enc : EscEnc} (f : Nat) (i : Nat) (acc : List UInt8) (s : St) (e t : Text) (b bs : List UInt8)
    (q r : Text) (hs : s.rest = q ++ '\\' :: (e ++ (t ++ '"' :: r))) (hi : q.length = i) (he : Esc enc.isBin e b)
    (ht : StrBody enc.isBin t bs) (hf : t.length < f) :
    ∃ s' n, escLoop enc f i acc s = .ok (acc ++ b ++ bs, n) s' ∧ (n ≤ s'.rest.length ∧ s'.rest.drop n = r) ∧ KeepsW s s' := by
  induction f generalizing i acc s e t b bs q with
  | zero => omega
  | succ f ih =>
    obtain ⟨s', k1, k2, k3⟩ := escLoop_apply (f := f) (acc := acc) hs hi he
    rw [k3]
    obtain ⟨p, hp, h | ⟨e', b', t', bs', rfl, rfl, he', ht'⟩⟩ := ht.split
    · obtain ⟨rfl, rfl⟩ := h
      rw [hp.while _ (.inl rfl)]
      simp only [List.drop_left, List.take_left]
      exact ⟨s', t.length + 1, rfl, ⟨by rw [k2]; simp, by
        rw [k2, show t ++ '"' :: r = (t ++ ['"']) ++ r by simp, List.drop_left' (by simp)]⟩, k1⟩
    · have e1 : (p ++ '\\' :: (e' ++ t')) ++ '"' :: r = p ++ '\\' :: (e' ++ (t' ++ '"' :: r)) := by simp
      rw [e1] at k2 ⊢
      rw [hp.while _ (.inr rfl)]
      simp only [List.drop_left, List.take_left, beq_self_eq_true, ↓reduceIte]
      obtain ⟨s2, n, g1, g2, g3⟩ := ih p.length (acc ++ b ++ utf8EncAll p) s' e' t' b' bs' p k2 rfl he' ht'
        (by simp at hf; omega)
      exact ⟨s2, n, by rw [g1]; simp, g2, k1.trans g3⟩

theorem escapedByteBuf_ok {enc : EscEnc} {s : St} {t r : Text} {bs : List UInt8} (hs : s.rest = t ++ '"' :: r)
    (ht : StrBody enc.isBin t bs) :
    ∃ s' n, escapedByteBuf enc s = .ok (bs, n) s' ∧ (n ≤ s'.rest.length ∧ s'.rest.drop n = r) ∧ KeepsW s s' := by
  unfold escapedByteBuf
  simp only [bind_apply, getSt_apply, ite_P]
  obtain ⟨p, hp, h | ⟨e', b', t', bs', rfl, rfl, he', ht'⟩⟩ := ht.split
  · obtain ⟨rfl, rfl⟩ := h
    have hw : whileLen (fun c => c != '"') s.rest = t.length := by
      rw [hs, whileLen_append _ _ _ (by intro c hc; simp [(hp c hc).1]), whileLen_cons_false _ _ _ (by rfl)]; rfl
    have hw2 : whileLen (fun c => c != '\\') t = t.length := by
      have := whileLen_append (fun c => c != '\\') t [] (by intro c hc; simp [(hp c hc).2])
      simpa using this
    have hl : s.rest.length = t.length + (r.length + 1) := by rw [hs]; simp
    rw [hw]
    have htk : List.take t.length s.rest = t := by rw [hs]; simp
    rw [htk, hw2, hl]
    rw [if_neg (by simp), if_neg (by omega)]
    refine ⟨s, t.length + 1, rfl, ⟨by rw [hs]; simp, ?_⟩, KeepsW.refl s⟩
    rw [hs, show t ++ '"' :: r = (t ++ ['"']) ++ r by simp, List.drop_left' (by simp)]
  · have e1 : (p ++ '\\' :: (e' ++ t')) ++ '"' :: r = p ++ '\\' :: (e' ++ (t' ++ '"' :: r)) := by simp
    rw [e1] at hs
    -- the first quote comes after the backslash
    have hw : ∃ k, whileLen (fun c => c != '"') s.rest = p.length + 1 + k ∧ p.length + 1 + k < s.rest.length := by
      have hlen : whileLen (fun c => c != '"') s.rest < s.rest.length := by
        obtain ⟨a, u, g1, g2, g3, g4⟩ := whileLen_split (fun c => c != '"') s.rest
        rw [g3]
        rw [g1]
        cases u with
        | nil =>
          exfalso
          have : '"' ∈ s.rest := by rw [hs]; simp
          rw [g1] at this; simp at this
          have := g2 _ this; simp at this
        | cons => simp
      rw [hs] at hlen ⊢
      rw [show p ++ '\\' :: (e' ++ (t' ++ '"' :: r)) = (p ++ ['\\']) ++ (e' ++ (t' ++ '"' :: r)) by simp] at hlen ⊢
      rw [whileLen_append _ _ _ (by
        intro c hc
        rcases List.mem_append.mp hc with hc | hc
        · simp [(hp c hc).1]
        · simp at hc; subst hc; rfl)] at hlen ⊢
      exact ⟨_, by simp; rfl, by simpa using hlen⟩
    obtain ⟨k, hw, hlt⟩ := hw
    rw [hw]
    have htk : ∃ v, s.rest.take (p.length + 1 + k) = p ++ '\\' :: v := by
      refine ⟨(e' ++ (t' ++ '"' :: r)).take k, ?_⟩
      rw [hs, show p ++ '\\' :: (e' ++ (t' ++ '"' :: r)) = (p ++ ['\\']) ++ (e' ++ (t' ++ '"' :: r)) by simp]
      rw [List.take_append, List.take_of_length_le (by simp)]
      simp
    obtain ⟨v, htk⟩ := htk
    have hw2 : whileLen (fun c => c != '\\') (p ++ '\\' :: v) = p.length := by
      rw [whileLen_append _ _ _ (by intro c hc; simp [(hp c hc).2]), whileLen_cons_false _ _ _ (by rfl)]; rfl
    rw [htk, hw2]
    rw [if_neg (by simp; omega), if_pos (by simp)]
    simp only [List.take_left]
    obtain ⟨s2, n, g1, g2, g3⟩ := escLoop_ok (enc := enc) (s.rest.length + 1) p.length (utf8EncAll p) s e' t' b' bs' p r hs rfl he' ht'
      (by rw [hs]; simp; omega)
    exact ⟨s2, n, g1, g2, g3⟩

theorem escapedString_ok {s : St} {t r v : Text} (hs : s.rest = t ++ '"' :: r) (ht : StrBody false t (utf8EncAll v)) :
    RunsW escapedString s v r := by
  obtain ⟨s', n, h1, ⟨h0, h2⟩, h3⟩ := escapedByteBuf_ok (enc := .utf8) hs ht
  refine ⟨{ s' with prev := s'.rest, rest := s'.rest.drop n }, ?_, h2, h3.trans (KeepsW.step _ _ _)⟩
  unfold escapedString
  simp only [bind_apply, h1, finishStr, utf8Dec_encAll, advance_ok h0]
  rfl

theorem escapedByteString_ok {s : St} {t r : Text} {bs : List UInt8} (hs : s.rest = t ++ '"' :: r) (ht : StrBody true t bs) :
    RunsW escapedByteString s bs r := by
  obtain ⟨s', n, h1, ⟨h0, h2⟩, h3⟩ := escapedByteBuf_ok (enc := .binary) hs ht
  refine ⟨{ s' with prev := s'.rest, rest := s'.rest.drop n }, ?_, h2, h3.trans (KeepsW.step _ _ _)⟩
  unfold escapedByteString
  simp only [bind_apply, h1, advance_ok h0]
  rfl

/-! ### Raw strings -/

theorem findSub_first {pat body r : Text} (hne : pat ≠ []) (h : ∀ p q, body ++ pat = p ++ pat ++ q → q = []) :
    findSub pat (body ++ pat ++ r) = some body.length := by
  induction body with
  | nil =>
    cases pat with
    | nil => exact absurd rfl hne
    | cons c pat =>
      simp only [List.nil_append, List.cons_append]
      rw [findSub, ← List.cons_append, if_pos (startsWith_append _ _)]; rfl
  | cons c body ih =>
    simp only [List.cons_append]
    rw [findSub, if_neg]
    · rw [ih (fun p q e => h (c :: p) q (by simp at e ⊢; exact e))]; rfl
    · intro hst
      obtain ⟨z, hz⟩ := (startsWith_iff _ _).mp hst
      have hz' : (c :: body ++ pat) ++ r = pat ++ z := by simpa using hz
      rcases List.append_eq_append_iff.mp hz' with ⟨a, ha, _⟩ | ⟨a, ha, _⟩
      · have := congrArg List.length ha
        simp at this; omega
      · have := h [] a (by simpa using ha)
        subst this
        have := congrArg List.length ha
        simp at this; omega

theorem rawByteBuf_ok {s : St} {n : Nat} {body r : Text} (hs : s.rest = List.replicate n '#' ++ '"' :: (body ++ rawClose n ++ r))
    (hb : RawBody n body) :
    ∃ s' k, rawByteBuf s = .ok (utf8EncAll body, k) s' ∧ (k ≤ s'.rest.length ∧ s'.rest.drop k = r) ∧ KeepsW s s' := by
  have hw : whileLen (fun c => c == '#') s.rest = n := by
    rw [hs, whileLen_append _ _ _ (by intro c hc; simp [(List.mem_replicate.mp hc).2]), whileLen_cons_false _ _ _ (by rfl)]
    simp
  have htk : s.rest.take n = List.replicate n '#' := by rw [hs, List.take_left' (by simp)]
  have hdr : s.rest.drop n = '"' :: (body ++ rawClose n ++ r) := by rw [hs, List.drop_left' (by simp)]
  have hf : findSub ('"' :: List.replicate n '#') (body ++ rawClose n ++ r) = some body.length :=
    findSub_first (by simp [rawClose]) hb
  refine ⟨{ s with prev := '"' :: (body ++ rawClose n ++ r), rest := body ++ rawClose n ++ r }, body.length + n + 1,
    ?_, ⟨by simp [rawClose]; omega, ?_⟩, KeepsW.step _ _ _⟩
  · unfold rawByteBuf
    simp only [bind_apply, getSt_apply, hw, advance_ok (show n ≤ s.rest.length by rw [hs]; simp), htk, hdr]
    rw [expectChar_ok (s := { s with prev := s.rest, rest := '"' :: (body ++ rawClose n ++ r) }) _ rfl]
    simp only [getSt_apply]
    rw [hf]
    simp only [List.append_assoc, List.take_left]
    rfl
  · simp only
    rw [List.drop_left' (by simp [rawClose]; omega)]

theorem rawString_ok {s : St} {n : Nat} {body r : Text} (hs : s.rest = List.replicate n '#' ++ '"' :: (body ++ rawClose n ++ r))
    (hb : RawBody n body) : RunsW rawString s body r := by
  obtain ⟨s', k, h1, ⟨h0, h2⟩, h3⟩ := rawByteBuf_ok hs hb
  refine ⟨{ s' with prev := s'.rest, rest := s'.rest.drop k }, ?_, h2, h3.trans (KeepsW.step _ _ _)⟩
  unfold rawString
  simp only [bind_apply, h1, finishStr, utf8Dec_encAll, advance_ok h0]
  rfl

theorem rawByteString_ok {s : St} {n : Nat} {body r : Text} (hs : s.rest = List.replicate n '#' ++ '"' :: (body ++ rawClose n ++ r))
    (hb : RawBody n body) : RunsW rawByteString s (utf8EncAll body) r := by
  obtain ⟨s', k, h1, ⟨h0, h2⟩, h3⟩ := rawByteBuf_ok hs hb
  refine ⟨{ s' with prev := s'.rest, rest := s'.rest.drop k }, ?_, h2, h3.trans (KeepsW.step _ _ _)⟩
  unfold rawByteString
  simp only [bind_apply, mapErr_apply, h1, advance_ok h0]
  rfl

/-! ### Whole literals -/

theorem string_ok {s : St} {t v r : Text} (hs : s.rest = t ++ r) (h : StrLit t v) : RunsW string s v r := by
  cases h with
  | @esc t _ ht =>
    have hs' : s.rest = '"' :: (t ++ '"' :: r) := by simpa using hs
    obtain ⟨s', h1, h2, h3⟩ := escapedString_ok (s := { s with prev := s.rest, rest := t ++ '"' :: r }) rfl ht
    refine ⟨s', ?_, h2, KeepsW.of h3⟩
    unfold string
    simp only [bind_apply, consumeChar_true hs', ↓reduceIte, h1]
  | @raw n _ hb =>
    have hs' : s.rest = 'r' :: (List.replicate n '#' ++ '"' :: (v ++ rawClose n ++ r)) := by simpa using hs
    obtain ⟨s', h1, h2, h3⟩ := rawString_ok (s := { s with prev := s.rest, rest := List.replicate n '#' ++ '"' :: (v ++ rawClose n ++ r) }) rfl hb
    refine ⟨s', ?_, h2, KeepsW.of h3⟩
    unfold string
    simp only [bind_apply, consumeChar_false (c := '"') (s := s) (by rw [hs']; rfl), Bool.false_eq_true, ↓reduceIte,
      consumeChar_true hs', h1]

theorem byteStringNoBase64_ok {s : St} {t r : Text} {v : List UInt8} (hs : s.rest = t ++ r) (h : BytesLit t v) :
    RunsW byteStringNoBase64 s v r := by
  cases h with
  | @esc t _ ht =>
    have hs' : s.rest = c!"b\"" ++ (t ++ '"' :: r) := by simpa using hs
    obtain ⟨s', h1, h2, h3⟩ := escapedByteString_ok (s := { s with prev := s.rest, rest := t ++ '"' :: r }) rfl ht
    refine ⟨s', ?_, h2, KeepsW.of h3⟩
    unfold byteStringNoBase64
    simp only [bind_apply]
    rw [consumeStr_true (by rw [hs']; simp)]
    rw [show s.rest.drop (c!"b\"").length = t ++ '"' :: r by rw [hs']; rfl]
    simp only [↓reduceIte, h1]
  | @raw n v hb =>
    have hs' : s.rest = c!"br" ++ (List.replicate n '#' ++ '"' :: (v ++ rawClose n ++ r)) := by simpa using hs
    obtain ⟨s', h1, h2, h3⟩ := rawByteString_ok (s := { s with prev := s.rest, rest := List.replicate n '#' ++ '"' :: (v ++ rawClose n ++ r) }) rfl hb
    refine ⟨s', ?_, h2, KeepsW.of h3⟩
    unfold byteStringNoBase64
    simp only [bind_apply]
    rw [consumeStr_false (t := c!"b\"") (by rw [hs']; simp)]
    simp only [Bool.false_eq_true, ↓reduceIte, bind_apply]
    rw [consumeStr_true (by rw [hs']; simp)]
    rw [show s.rest.drop (c!"br").length = List.replicate n '#' ++ '"' :: (v ++ rawClose n ++ r) by rw [hs']; rfl]
    simp only [↓reduceIte, h1]

theorem byteString_ok {s : St} {t r : Text} {v : List UInt8} (hs : s.rest = t ++ r) (h : BytesLit t v) :
    RunsW byteString s v r := by
  have hb : ∃ u, s.rest = 'b' :: u := by cases h <;> exact ⟨_, by rw [hs]; rfl⟩
  obtain ⟨u, hb⟩ := hb
  obtain ⟨s', h1, h2, h3⟩ := byteStringNoBase64_ok hs h
  refine ⟨s', ?_, h2, h3⟩
  unfold byteString
  simp only [bind_apply, consumeChar_false (c := '"') (s := s) (by rw [hb]; rfl), Bool.false_eq_true, ↓reduceIte,
    consumeChar_false (c := 'r') (s := s) (by rw [hb]; rfl), h1]

/-! ### Writing -/

theorem maxHashes_mono (t : Text) (k m : Nat) : m ≤ maxHashes t k m := by
  induction t generalizing k m with
  | nil => exact Nat.le_refl m
  | cons c t ih =>
    rw [maxHashes]
    split
    · exact Nat.le_trans (Nat.le_max_left _ _) (ih _ _)
    · exact ih _ _

theorem maxHashes_run (n k m : Nat) (q : Text) : n = 0 ∨ k + n ≤ maxHashes (List.replicate n '#' ++ q) k m := by
  induction n generalizing k m with
  | zero => exact .inl rfl
  | succ n ih =>
    right
    simp only [List.replicate_succ, List.cons_append, maxHashes, beq_self_eq_true, ↓reduceIte]
    rcases ih (k + 1) (Nat.max m (k + 1)) with h | h
    · subst h
      have := maxHashes_mono ([] ++ q) (k + 1) (Nat.max m (k + 1))
      have h2 : k + 1 ≤ Nat.max m (k + 1) := Nat.le_max_right _ _
      exact Nat.le_trans h2 this
    · omega

theorem maxHashes_infix (n : Nat) (p q : Text) (k m : Nat) : n ≤ maxHashes (p ++ (List.replicate n '#' ++ q)) k m := by
  induction p generalizing k m with
  | nil =>
    rcases maxHashes_run n k m q with h | h
    · omega
    · simp at *; omega
  | cons c p ih =>
    simp only [List.cons_append, maxHashes]
    split <;> exact ih _ _

theorem rawBody_written (v : Text) : RawBody (maxHashes v 0 0 + 1) v := by
  intro p q h
  generalize hn : maxHashes v 0 0 + 1 = n at h
  have hno : ∀ p q, v ≠ p ++ (List.replicate n '#' ++ q) := by
    intro p q e
    have := maxHashes_infix n p q 0 0
    rw [← e] at this; omega
  cases q with
  | nil => rfl
  | cons d q =>
    exfalso
    unfold rawClose at h
    rw [List.append_assoc] at h
    rcases List.append_eq_append_iff.mp h with ⟨a, ha, hb⟩ | ⟨a, ha, hb⟩
    · have := congrArg List.length hb; simp at this; omega
    · -- v = p ++ a
      cases a with
      | nil =>
        have := congrArg List.length hb; simp at this
      | cons x a =>
        simp only [List.cons_append, List.cons.injEq] at hb
        obtain ⟨rfl, hb⟩ := hb
        rcases List.append_eq_append_iff.mp hb with ⟨c, hc, hd⟩ | ⟨c, hc, hd⟩
        · exact hno (p ++ ['"']) c (by rw [ha, hc]; simp)
        · cases c with
          | nil =>
            simp at hc
            exact hno (p ++ ['"']) [] (by rw [ha, ← hc]; simp)
          | cons y c =>
            simp at hd
            have : y ∈ List.replicate n '#' := by rw [hc]; simp
            have := (List.mem_replicate.mp this).2
            rw [← hd.1] at this; revert this; decide

variable [Env]

omit [Env] in
theorem hexText_spec (c : Char) : hexText c.toNat ≠ [] ∧ (hexText c.toNat).length ≤ 6 ∧
    (∀ x ∈ hexText c.toNat, ∃ d, hexVal x = some d) ∧ c.toNat = posValue 16 (litDigits (hexText c.toNat)) := by
  obtain ⟨h1, h2⟩ := toDigits_spec (b := 16) (by omega) (by omega) c.toNat
  refine ⟨Nat.toDigits_ne_nil, ?_, fun x hx => ?_, h1.symm⟩
  · rw [hexText, Nat.length_toDigits_le_iff (by omega) (by omega)]
    have := valid_char_range c
    omega
  · obtain ⟨d, hd, _⟩ := h2 x hx; exact ⟨d, hd⟩

theorem escapeDebug_body (c : Char) (t : Text) (bs : List UInt8) (h : StrBody false t bs) :
    StrBody false (escapeDebug c ++ t) (utf8Enc c ++ bs) := by
  have simple : ∀ (x : Char), (∃ n, simpleEsc x = some n ∧ utf8Enc c = [UInt8.ofNat n]) →
      StrBody false (['\\', x] ++ t) (utf8Enc c ++ bs) := by
    rintro x ⟨n, h1, h2⟩
    rw [h2]
    exact .esc (.simple h1) h
  unfold escapeDebug
  split
  · rename_i hc; subst hc; exact simple '0' ⟨0, by decide, by decide⟩
  split
  · rename_i hc; subst hc; exact simple 't' ⟨9, by decide, by decide⟩
  split
  · rename_i hc; subst hc; exact simple 'r' ⟨13, by decide, by decide⟩
  split
  · rename_i hc; subst hc; exact simple 'n' ⟨10, by decide, by decide⟩
  split
  · rename_i hc; subst hc; exact simple '\'' ⟨39, by decide, by decide⟩
  split
  · rename_i hc; subst hc; exact simple '"' ⟨34, by decide, by decide⟩
  split
  · rename_i hc; subst hc; exact simple '\\' ⟨92, by decide, by decide⟩
  split
  · obtain ⟨h1, h2, h3, h4⟩ := hexText_spec c
    have := StrBody.esc (Esc.uni (bin := false) h1 h2 h3 h4) h
    simpa using this
  · rename_i h1 h2 h3
    exact .plain h1 (by assumption) h

theorem escapeDebug_all (v : Text) : StrBody false (v.flatMap escapeDebug) (utf8EncAll v) := by
  induction v with
  | nil => exact .nil
  | cons c v ih => simpa using escapeDebug_body c _ _ ih

omit [Env] in
theorem plain_body (bin : Bool) (v : Text) (h : Plain v) : StrBody bin v (utf8EncAll v) := by
  induction v with
  | nil => exact .nil
  | cons c v ih =>
    have := h c (by simp)
    simpa using StrBody.plain this.1 this.2 (ih (fun c hc => h c (by simp [hc])))

omit [Env] in
theorem flatten_singletons (t : Text) : (t.map ([·])).flatten = t := by
  induction t <;> simp_all

/-- The literal written for a string. -/
def strText (escape : Bool) (v : Text) : Text :=
  if escape then '"' :: (v.flatMap escapeDebug ++ ['"'])
  else if v.contains '"' || v.contains '\\' then
    'r' :: (List.replicate (maxHashes v 0 0 + 1) '#' ++ '"' :: (v ++ rawClose (maxHashes v 0 0 + 1)))
  else '"' :: (v ++ ['"'])

omit [Env] in
theorem plain_of_contains {v : Text} (h : ¬ (v.contains '"' || v.contains '\\') = true) : Plain v := by
  intro c hc
  simp at h
  exact ⟨fun e => h.1 (e ▸ hc), fun e => h.2 (e ▸ hc)⟩

theorem strText_lit (escape : Bool) (v : Text) : StrLit (strText escape v) v := by
  unfold strText
  split
  · exact .esc (escapeDebug_all v)
  split
  · exact .raw (rawBody_written v)
  · exact .esc (plain_body _ _ (plain_of_contains (by assumption)))

theorem serEscapedStr_quiet {s : Ser} (h : s.Quiet) (v : Text) :
    serEscapedStr v s = .ok () (s.put ('"' :: (v.flatMap escapeDebug ++ ['"']))) := by
  unfold serEscapedStr
  simp only [wbind_apply, write_quiet h, writeAll_quiet (h.put _), Ser.put_put]
  rw [write_quiet (h.put _), Ser.put_put]
  rw [flatten_singletons]
  simp

omit [Env] in
theorem serRawStr_quiet {s : Ser} (h : s.Quiet) (pre v : Text) :
    serRawStr pre v s = .ok () (s.put (pre ++ (if v.contains '"' || v.contains '\\' then
      'r' :: (List.replicate (maxHashes v 0 0 + 1) '#' ++ '"' :: (v ++ rawClose (maxHashes v 0 0 + 1)))
      else '"' :: (v ++ ['"'])))) := by
  unfold serRawStr
  by_cases hc : (v.contains '"' || v.contains '\\') = true
  · rw [if_pos hc, if_pos hc]
    simp only [wbind_apply, write_quiet h]
    repeat rw [write_quiet (h.put _)]; simp only [Ser.put_put]
    simp [rawClose]
  · rw [if_neg hc, if_neg hc]
    simp only [wbind_apply, write_quiet h]
    repeat rw [write_quiet (h.put _)]; simp only [Ser.put_put]
    simp

theorem serStr_quiet {s : Ser} (h : s.Quiet) (v : Text) : serStr v s = .ok () (s.put (strText s.escapeStrings v)) := by
  unfold serStr strText
  simp only [wbind_apply, wget_apply]
  by_cases he : s.escapeStrings = true
  · rw [if_pos he, if_pos he]
    exact serEscapedStr_quiet h v
  · rw [if_neg he, if_neg he]
    simpa using serRawStr_quiet h [] v

/-! ### Bytes -/

omit [Env] in
theorem hexChar_val : ∀ n : Nat, n < 16 → hexVal (hexChar n) = some n := by
  have : ∀ d : Fin 16, hexVal (hexChar d.val) = some d.val := by decide
  intro n hn; exact this ⟨n, hn⟩

omit [Env] in
theorem escapeDefault_body (b : UInt8) (t : Text) (bs : List UInt8) (h : StrBody true t bs) :
    StrBody true (escapeDefault b ++ t) (b :: bs) := by
  have hb := b.toNat_lt
  have simple : ∀ (x : Char), simpleEsc x = some b.toNat → StrBody true (['\\', x] ++ t) (b :: bs) := by
    intro x h1
    have := StrBody.esc (.simple (bin := true) h1) h
    simpa using this
  unfold escapeDefault
  simp only
  split
  · rename_i hc; exact simple 't' (by rw [hc]; decide)
  split
  · rename_i hc; exact simple 'r' (by rw [hc]; decide)
  split
  · rename_i hc; exact simple 'n' (by rw [hc]; decide)
  split
  · rename_i hc; exact simple '\'' (by rw [hc]; decide)
  split
  · rename_i hc; exact simple '"' (by rw [hc]; decide)
  split
  · rename_i hc; exact simple '\\' (by rw [hc]; decide)
  split
  · rename_i h1 h2 h3 hr
    have hc := ascii_char (n := b.toNat) (by omega)
    have he : utf8Enc (Char.ofNat b.toNat) = [b] := by
      rw [utf8Enc_ascii (by omega), hc]; simp
    have := StrBody.plain (bin := true) (c := Char.ofNat b.toNat) (by
      intro e; rw [e] at hc; have : '"'.toNat = 34 := rfl; omega) (by
      intro e; rw [e] at hc; have : '\\'.toNat = 92 := rfl; omega) h
    rw [he] at this; simpa using this
  · have h1 := hexChar_val (b.toNat / 16) (by omega)
    have h2 := hexChar_val (b.toNat % 16) (by omega)
    have := StrBody.esc (Esc.hex (bin := true) h1 h2 (.inl rfl)) h
    rw [show b.toNat / 16 * 16 + b.toNat % 16 = b.toNat by omega] at this
    simpa using this

omit [Env] in
theorem escapeDefault_all (v : List UInt8) : StrBody true (v.flatMap escapeDefault) v := by
  induction v with
  | nil => exact .nil
  | cons c v ih => simpa using escapeDefault_body c _ _ ih

/-- The literal written for a byte string. -/
def bytesText (escape : Bool) (v : List UInt8) : Text :=
  match escape, utf8Dec v with
  | false, some t => 'b' :: (if t.contains '"' || t.contains '\\' then
      'r' :: (List.replicate (maxHashes t 0 0 + 1) '#' ++ '"' :: (t ++ rawClose (maxHashes t 0 0 + 1)))
      else '"' :: (t ++ ['"']))
  | _, _ => 'b' :: '"' :: (v.flatMap escapeDefault ++ ['"'])

omit [Env] in
theorem bytesText_lit (escape : Bool) (v : List UInt8) : BytesLit (bytesText escape v) v := by
  unfold bytesText
  split
  · rename_i t heq
    have e := utf8Dec_some heq
    rw [e]
    split
    · exact .raw (rawBody_written _)
    · exact .esc (plain_body _ _ (plain_of_contains (by assumption)))
  · exact .esc (escapeDefault_all v)

omit [Env] in
theorem serEscapedBytes_quiet {s : Ser} (h : s.Quiet) (v : List UInt8) :
    serEscapedBytes v s = .ok () (s.put ('b' :: '"' :: (v.flatMap escapeDefault ++ ['"']))) := by
  unfold serEscapedBytes
  simp only [wbind_apply, write_quiet h, writeAll_quiet (h.put _), Ser.put_put]
  rw [write_quiet (h.put _), Ser.put_put]
  rw [flatten_singletons]
  simp

omit [Env] in
theorem serBytes_quiet {s : Ser} (h : s.Quiet) (v : List UInt8) :
    serBytes v s = .ok () (s.put (bytesText s.escapeStrings v)) := by
  unfold serBytes bytesText
  simp only [wbind_apply, wget_apply]
  cases he : s.escapeStrings
  · rw [if_pos (by rfl)]
    cases hd : utf8Dec v with
    | none => exact serEscapedBytes_quiet h v
    | some t => exact serRawStr_quiet h c!"b" t
  · rw [if_neg (by simp)]
    exact serEscapedBytes_quiet h v

/-! ### Characters -/

/-- The literal written for a character. -/
def charText (c : Char) : Text := if c = '\\' ∨ c = '\'' then ['\'', '\\', c, '\''] else ['\'', c, '\'']

omit [Env] in
theorem serChar_quiet {s : Ser} (h : s.Quiet) (c : Char) : serChar c s = .ok () (s.put (charText c)) := by
  unfold serChar charText
  by_cases hc : c = '\\' ∨ c = '\''
  · rw [if_pos hc]
    simp only [wbind_apply, write_quiet h]
    rw [if_pos (by simpa using hc)]
    simp only [wbind_apply]
    rw [write_quiet (h.put _)]; simp only [Ser.put_put]
    rw [write_quiet (h.put _)]; simp only [Ser.put_put]
    rw [write_quiet (h.put _)]; simp only [Ser.put_put]
    simp
  · rw [if_neg hc]
    simp only [wbind_apply, write_quiet h]
    rw [if_neg (by simpa using hc)]
    simp only [wbind_apply, wpure_apply]
    rw [write_quiet (h.put _)]; simp only [Ser.put_put]
    rw [write_quiet (h.put _)]; simp only [Ser.put_put]
    simp

omit [Env] in
theorem charLit_ok {s : St} {c : Char} {r : Text} (hs : s.rest = charText c ++ r) : RunsW charLit s c r := by
  unfold charText at hs
  by_cases hc : c = '\\' ∨ c = '\''
  · rw [if_pos hc] at hs
    have hs' : s.rest = '\'' :: '\\' :: c :: '\'' :: r := by simpa using hs
    have hesc : ∃ n, simpleEsc c = some n ∧ Char.ofNat (UInt8.ofNat n).toNat = c := by
      rcases hc with rfl | rfl
      · exact ⟨92, by decide, by decide⟩
      · exact ⟨39, by decide, by decide⟩
    obtain ⟨n, hn, hcn⟩ := hesc
    refine ⟨{ s with prev := '\'' :: r, rest := r }, ?_, rfl, KeepsW.step _ _ _⟩
    unfold charLit
    simp only [bind_apply, expectChar_ok _ hs']
    rw [nextChar_cons (s := { s with prev := s.rest, rest := '\\' :: c :: '\'' :: r }) rfl]
    simp only [beq_self_eq_true, ↓reduceIte, bind_apply]
    rw [parseEscape_simple (s := { s with prev := s.rest, rest := c :: '\'' :: r }) rfl hn]
    simp only [hcn, pure_apply]
    rw [expectChar_ok (s := { s with prev := s.rest, rest := '\'' :: r }) _ rfl]
  · rw [if_neg hc] at hs
    have hs' : s.rest = '\'' :: c :: '\'' :: r := by simpa using hs
    refine ⟨{ s with prev := '\'' :: r, rest := r }, ?_, rfl, KeepsW.step _ _ _⟩
    unfold charLit
    simp only [bind_apply, expectChar_ok _ hs']
    rw [nextChar_cons (s := { s with prev := s.rest, rest := c :: '\'' :: r }) rfl]
    have : (c == '\\') = false := by simpa using fun e => hc (.inl e)
    simp only [this, Bool.false_eq_true, ↓reduceIte, pure_apply]
    rw [expectChar_ok (s := { s with prev := s.rest, rest := '\'' :: r }) _ rfl]

end Ron
