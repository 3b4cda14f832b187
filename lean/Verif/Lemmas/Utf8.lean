import Verif.Lemmas.Basic
/-! UTF-8 encoding and decoding are inverse. -/

namespace Ron

theorem valid_char_range (c : Char) : c.toNat < 0xD800 ∨ (0xDFFF < c.toNat ∧ c.toNat < 0x110000) := c.valid

theorem charOf_toNat (c : Char) : charOf? c.toNat = some c := by
  unfold charOf?
  have h : c.toNat.isValidChar := c.valid
  rw [dif_pos h]
  congr 1

theorem charOf_some {n : Nat} {c : Char} (h : charOf? n = some c) : c.toNat = n := by
  unfold charOf? at h
  split at h
  · cases h; rfl
  · cases h

theorem u8_toNat {n : Nat} (h : n < 256) : (UInt8.ofNat n).toNat = n := by
  simp [UInt8.toNat_ofNat', Nat.mod_eq_of_lt h]

theorem utf8Next_enc (c : Char) (r : List UInt8) : utf8Next (utf8Enc c ++ r) = some (c, r) := by
  have hv := valid_char_range c
  have hc := charOf_toNat c
  unfold utf8Enc
  simp only
  generalize hn : c.toNat = n at *
  split
  · have e0 := u8_toNat (n := n) (by omega)
    simp only [List.cons_append, List.nil_append, utf8Next, e0]
    simp [*]
  split
  · have e0 := u8_toNat (n := 0xC0 + n / 64) (by omega)
    have e1 := u8_toNat (n := 0x80 + n % 64) (by omega)
    have e : (0xC0 + n / 64 - 0xC0) * 64 + (0x80 + n % 64 - 0x80) = n := by omega
    simp only [List.cons_append, List.nil_append, utf8Next, isCont, e0, e1, e, hc]
    rw [if_neg (by omega), if_pos (by simp; omega), if_pos (by simp; omega)]; rfl
  split
  · have e0 := u8_toNat (n := 0xE0 + n / 4096) (by omega)
    have e1 := u8_toNat (n := 0x80 + n / 64 % 64) (by omega)
    have e2 := u8_toNat (n := 0x80 + n % 64) (by omega)
    have e : (0xE0 + n / 4096 - 0xE0) * 4096 + (0x80 + n / 64 % 64 - 0x80) * 64 + (0x80 + n % 64 - 0x80) = n := by omega
    simp only [List.cons_append, List.nil_append, utf8Next, isCont, e0, e1, e2, e, hc]
    rw [if_neg (by omega), if_neg (by simp), if_pos (by simp; omega), if_pos (by simp; omega)]; rfl
  · have e0 := u8_toNat (n := 0xF0 + n / 262144) (by omega)
    have e1 := u8_toNat (n := 0x80 + n / 4096 % 64) (by omega)
    have e2 := u8_toNat (n := 0x80 + n / 64 % 64) (by omega)
    have e3 := u8_toNat (n := 0x80 + n % 64) (by omega)
    have e : (0xF0 + n / 262144 - 0xF0) * 262144 + (0x80 + n / 4096 % 64 - 0x80) * 4096 + (0x80 + n / 64 % 64 - 0x80) * 64 + (0x80 + n % 64 - 0x80) = n := by omega
    simp only [List.cons_append, List.nil_append, utf8Next, isCont, e0, e1, e2, e3, e, hc]
    rw [if_neg (by omega), if_neg (by simp; omega), if_neg (by simp), if_pos (by simp; omega), if_pos (by simp; omega)]; rfl

theorem u8_eq {b : UInt8} {n : Nat} (h : b.toNat = n) : b = UInt8.ofNat n := by
  subst h; simp

theorem utf8Next_some {bs r : List UInt8} {c : Char} (h : utf8Next bs = some (c, r)) : bs = utf8Enc c ++ r := by
  cases bs with
  | nil => simp [utf8Next] at h
  | cons b0 u =>
    have hb0 := b0.toNat_lt
    simp only [utf8Next] at h
    split at h
    · rename_i h0
      rcases hc : charOf? b0.toNat with _ | c'
      · rw [hc] at h; simp at h
      · rw [hc] at h; simp at h
        obtain ⟨rfl, rfl⟩ := h
        have := charOf_some hc
        unfold utf8Enc
        simp only [this, h0, if_true]
        rw [← u8_eq rfl]; rfl
    split at h
    · rename_i h0 h1
      simp at h1
      cases u with
      | nil => simp at h
      | cons b1 u =>
        have hb1 := b1.toNat_lt
        dsimp only at h
        split at h
        · rename_i h2
          simp [isCont] at h2
          rcases hc : charOf? ((b0.toNat - 0xC0) * 64 + (b1.toNat - 0x80)) with _ | c'
          · rw [hc] at h; simp at h
          · rw [hc] at h; simp at h
            obtain ⟨rfl, rfl⟩ := h
            have := charOf_some hc
            unfold utf8Enc
            simp only [this]
            rw [if_neg (by omega), if_pos (by omega)]
            rw [← u8_eq (b := b0) (by omega), ← u8_eq (b := b1) (by omega)]; rfl
        · cases h
    split at h
    · rename_i h0 h1 h1'
      simp at h1'
      rcases u with _ | ⟨b1, _ | ⟨b2, u⟩⟩
      · simp at h
      · simp at h
      · have hb1 := b1.toNat_lt
        have hb2 := b2.toNat_lt
        dsimp only at h
        split at h
        · rename_i h2
          simp [isCont] at h2
          rcases hc : charOf? ((b0.toNat - 0xE0) * 4096 + (b1.toNat - 0x80) * 64 + (b2.toNat - 0x80)) with _ | c'
          · rw [hc] at h; simp at h
          · rw [hc] at h; simp at h
            obtain ⟨rfl, rfl⟩ := h
            have := charOf_some hc
            unfold utf8Enc
            simp only [this]
            rw [if_neg (by omega), if_neg (by omega), if_pos (by omega)]
            rw [← u8_eq (b := b0) (by omega), ← u8_eq (b := b1) (by omega), ← u8_eq (b := b2) (by omega)]; rfl
        · cases h
    split at h
    · rename_i h0 h1 h1' h1''
      simp at h1''
      rcases u with _ | ⟨b1, _ | ⟨b2, _ | ⟨b3, u⟩⟩⟩
      · simp at h
      · simp at h
      · simp at h
      · have hb1 := b1.toNat_lt
        have hb2 := b2.toNat_lt
        have hb3 := b3.toNat_lt
        dsimp only at h
        split at h
        · rename_i h2
          simp [isCont] at h2
          rcases hc : charOf? ((b0.toNat - 0xF0) * 262144 + (b1.toNat - 0x80) * 4096 + (b2.toNat - 0x80) * 64 + (b3.toNat - 0x80)) with _ | c'
          · rw [hc] at h; simp at h
          · rw [hc] at h; simp at h
            obtain ⟨rfl, rfl⟩ := h
            have := charOf_some hc
            unfold utf8Enc
            simp only [this]
            rw [if_neg (by omega), if_neg (by omega), if_neg (by omega)]
            rw [← u8_eq (b := b0) (by omega), ← u8_eq (b := b1) (by omega), ← u8_eq (b := b2) (by omega), ← u8_eq (b := b3) (by omega)]; rfl
        · cases h
    · cases h

theorem utf8Enc_ne_nil (c : Char) : utf8Enc c ≠ [] := by
  unfold utf8Enc; simp only; split <;> (try split) <;> (try split) <;> simp

theorem utf8Enc_len (c : Char) : 1 ≤ (utf8Enc c).length := by
  have := utf8Enc_ne_nil c
  cases h : utf8Enc c <;> simp_all

@[simp] theorem utf8EncAll_nil : utf8EncAll [] = [] := rfl
@[simp] theorem utf8EncAll_cons (c : Char) (t : Text) : utf8EncAll (c :: t) = utf8Enc c ++ utf8EncAll t := by
  simp [utf8EncAll]
@[simp] theorem utf8EncAll_append (t u : Text) : utf8EncAll (t ++ u) = utf8EncAll t ++ utf8EncAll u := by
  simp [utf8EncAll]

theorem utf8EncAll_len (t : Text) : t.length ≤ (utf8EncAll t).length := by
  induction t with
  | nil => simp
  | cons c t ih => have := utf8Enc_len c; simp; omega

/-- The split decodes a valid prefix and stops where no character follows. -/
theorem utf8Split_spec (f : Nat) (bs : List UInt8) (hf : bs.length ≤ f) :
    bs = utf8EncAll (utf8Split f bs).1 ++ (utf8Split f bs).2 ∧ utf8Next (utf8Split f bs).2 = none := by
  induction f generalizing bs with
  | zero =>
    have : bs = [] := by cases bs <;> simp_all
    subst this; simp [utf8Split, utf8Next]
  | succ f ih =>
    rw [utf8Split]
    rcases h : utf8Next bs with _ | ⟨c, r⟩
    · simp [h]
    · have e := utf8Next_some h
      have := utf8Enc_len c
      have hl : r.length ≤ f := by rw [e] at hf; simp at hf; omega
      obtain ⟨g1, g2⟩ := ih r hl
      simp only
      refine ⟨?_, g2⟩
      rw [e]
      conv => lhs; rw [g1]
      simp

theorem utf8Split_enc (f : Nat) (t : Text) (bs : List UInt8) (hf : (utf8EncAll t ++ bs).length ≤ f) (hb : utf8Next bs = none) :
    utf8Split f (utf8EncAll t ++ bs) = (t, bs) := by
  induction t generalizing f with
  | nil =>
    cases f with
    | zero => simp [utf8Split]
    | succ f => rw [utf8Split]; simp [hb]
  | cons c t ih =>
    have := utf8Enc_len c
    cases f with
    | zero => simp at hf; exact absurd hf.1 (utf8Enc_ne_nil c)
    | succ f =>
      rw [utf8Split]
      simp only [utf8EncAll_cons, List.append_assoc, utf8Next_enc]
      rw [ih f (by simp at hf ⊢; omega)]

theorem utf8Dec_encAll (t : Text) : utf8Dec (utf8EncAll t) = some t := by
  unfold utf8Dec
  have := utf8Split_enc (utf8EncAll t).length t [] (by simp) rfl
  simp at this
  rw [this]

theorem utf8Dec_some {bs : List UInt8} {t : Text} (h : utf8Dec bs = some t) : bs = utf8EncAll t := by
  unfold utf8Dec at h
  obtain ⟨h1, -⟩ := utf8Split_spec bs.length bs (Nat.le_refl _)
  split at h
  · rename_i heq; cases h; rw [heq] at h1; simpa using h1
  · cases h

theorem utf8Enc_inj {t u : Text} (h : utf8EncAll t = utf8EncAll u) : t = u := by
  have := utf8Dec_encAll t
  rw [h, utf8Dec_encAll] at this; exact (Option.some.inj this).symm

theorem utf8One_enc (c : Char) : utf8One (utf8Enc c) = some c := by
  have := utf8Dec_encAll [c]
  simp at this
  simp [utf8One, this]

end Ron
