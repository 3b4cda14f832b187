import Verif.Model.Open
import Verif.Lemmas.Utf8
/-!
# C34: reading bytes agrees with reading text

Specification: UTF-8 is Lean's own encoder `String.utf8EncodeChar`, one character after the other.
-/

namespace Ron

/-- Specification: the bytes of a text. -/
def bytesOf (t : Text) : List UInt8 := t.flatMap String.utf8EncodeChar

theorem utf8Enc_eq (c : Char) : utf8Enc c = String.utf8EncodeChar c := by
  have hv : c.toNat < 0x110000 := by
    have := c.valid
    rcases this with h | h
    · have : c.toNat < 0xd800 := h
      omega
    · have : c.toNat < 0x110000 := h.2
      omega
  unfold utf8Enc String.utf8EncodeChar
  have e : c.val.toNat = c.toNat := rfl
  simp only [e]
  generalize c.toNat = n at hv
  by_cases h1 : n < 0x80
  · simp only [h1, show n ≤ 127 by omega, ↓reduceIte]
  · by_cases h2 : n < 0x800
    · simp only [h1, h2, show ¬ n ≤ 127 by omega, show n ≤ 2047 by omega, ↓reduceIte]
      rw [Nat.mod_eq_of_lt (a := n / 64) (by omega), Nat.add_comm 192, Nat.add_comm 128]
    · by_cases h3 : n < 0x10000
      · simp only [h1, h2, h3, show ¬ n ≤ 127 by omega, show ¬ n ≤ 2047 by omega, show n ≤ 65535 by omega, ↓reduceIte]
        rw [Nat.mod_eq_of_lt (a := n / 4096) (by omega), Nat.add_comm 224, Nat.add_comm 128, Nat.add_comm 128]
      · simp only [h1, h2, h3, show ¬ n ≤ 127 by omega, show ¬ n ≤ 2047 by omega, show ¬ n ≤ 65535 by omega, ↓reduceIte]
        rw [Nat.mod_eq_of_lt (a := n / 262144) (by omega), Nat.add_comm 240, Nat.add_comm 128, Nat.add_comm 128,
          Nat.add_comm 128]

theorem utf8EncAll_eq (t : Text) : utf8EncAll t = bytesOf t := by
  unfold utf8EncAll bytesOf
  congr 1
  funext c
  exact utf8Enc_eq c

/-- Encoded texts that agree as bytes up to the shorter one agree as texts. -/
theorem bytesOf_prefix {p q : Text} {r r' : List UInt8} (h : bytesOf p ++ r = bytesOf q ++ r') (hr : utf8Next r = none) :
    q <+: p := by
  simp only [← utf8EncAll_eq] at h
  induction q generalizing p with
  | nil => exact List.nil_prefix
  | cons c q ih =>
    have hc : utf8Next (utf8EncAll p ++ r) = some (c, utf8EncAll q ++ r') := by
      rw [h, utf8EncAll_cons, List.append_assoc, utf8Next_enc]
    cases p with
    | nil => simp [hr] at hc
    | cons d p =>
      rw [utf8EncAll_cons, List.append_assoc, utf8Next_enc] at hc
      simp only [Option.some.injEq, Prod.mk.injEq] at hc
      obtain ⟨rfl, hc⟩ := hc
      obtain ⟨u, hu⟩ := ih hc
      exact ⟨u, by simp [← hu]⟩

variable [Env] {α : Type}

/-- UTF-8 input: exactly the outcome (value, or error and position) of reading the decoded text, for every target. -/
theorem C34_valid (o : Options) (f : P α) (t : Text) : fromBytes o f (bytesOf t) = fromStr o f t := by
  unfold fromBytes
  rw [← utf8EncAll_eq, utf8Dec_encAll]

/-- Any other input: a `Utf8Error` spanning exactly the longest valid prefix; the target is never run. -/
theorem C34_invalid (o : Options) (f : P α) (bs : List UInt8) (h : ∀ t, bs ≠ bytesOf t) :
    ∃ p r, fromBytes o f bs = .error (.utf8Error, { start := ⟨1, 1⟩, stop := .fromSrcEnd p }) ∧ bs = bytesOf p ++ r ∧
      ∀ q r', bs = bytesOf q ++ r' → q <+: p := by
  obtain ⟨h1, h2⟩ := utf8Split_spec bs.length bs (by omega)
  refine ⟨utf8ValidPrefix bs, (utf8Split bs.length bs).2, ?_, ?_, ?_⟩
  · unfold fromBytes
    cases hd : utf8Dec bs with
    | none => rfl
    | some t => exact absurd ((utf8Dec_some hd).trans (utf8EncAll_eq t)) (h t)
  · rw [← utf8EncAll_eq]; exact h1
  · intro q r' hq
    rw [utf8EncAll_eq] at h1
    exact bytesOf_prefix (h1.symm.trans hq) h2

/-- Reading through `io::Read` is reading the delivered bytes. -/
theorem C34_reader (o : Options) (f : P α) (bs : List UInt8) : fromReader o f { bytes := bs } = fromBytes o f bs := rfl

/-- A failing reader reports its own error, positioned after the longest valid prefix of what was delivered. -/
theorem C34_reader_error (o : Options) (f : P α) (bs : List UInt8) (m : Text) :
    ∃ p r, fromReader o f { bytes := bs, error := some m } = .error (.io m, { start := ⟨1, 1⟩, stop := .fromSrcEnd p }) ∧
      bs = bytesOf p ++ r ∧ ∀ q r', bs = bytesOf q ++ r' → q <+: p := by
  obtain ⟨h1, h2⟩ := utf8Split_spec bs.length bs (by omega)
  refine ⟨utf8ValidPrefix bs, (utf8Split bs.length bs).2, rfl, ?_, ?_⟩
  · rw [← utf8EncAll_eq]; exact h1
  · intro q r' hq
    rw [utf8EncAll_eq] at h1
    exact bytesOf_prefix (h1.symm.trans hq) h2

/-- Non-vacuity: `é` followed by a lone continuation byte is not UTF-8. -/
example : ∀ t, [0xC3, 0xA9, 0xA9] ≠ bytesOf t := by
  intro t e
  have h : utf8Dec (utf8EncAll t) = some t := utf8Dec_encAll t
  rw [utf8EncAll_eq, ← e] at h
  have h' : utf8Dec [0xC3, 0xA9, 0xA9] = none := by
    unfold utf8Dec
    rw [show utf8Split ([0xC3, 0xA9, 0xA9] : List UInt8).length [0xC3, 0xA9, 0xA9] = (['é'], [0xA9]) by decide]
  rw [h'] at h
  cases h

end Ron
