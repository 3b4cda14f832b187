import Verif.Lemmas.Base64
/-!
# C12: base64-looking strings are recognised exactly
-/

namespace Ron

/-- The byte string literal in a suggestion. -/
def suggestion (bs : List UInt8) : Text := c!"b\"" ++ bs.flatMap escapeDefault ++ c!"\""

/-- A string that is base64 for `bs`: the error suggests a byte string. -/
theorem C12_suggested (d : St) (t v r : Text) (bs : List UInt8) (hd : d.rest = t ++ r) (ht : StrLit t v) (hb : B64 v bs) :
    Fails byteString d (.invalidValueForType (c!"the Rusty byte string " ++ suggestion bs) v) := by
  have he : base64Error v = .invalidValueForType (c!"the Rusty byte string " ++ suggestion bs) v := by
    unfold base64Error; rw [tryDecodeBase64_of hb]; simp [suggestion]
  rw [← he]
  cases ht with
  | @esc b _ hb' =>
    have hd' : d.rest = '"' :: (b ++ '"' :: r) := by simpa using hd
    obtain ⟨s', h1, -⟩ := escapedString_ok (s := { d with prev := d.rest, rest := b ++ '"' :: r }) rfl hb'
    refine ⟨s', ?_⟩
    unfold byteString
    simp only [bind_apply, consumeChar_true hd', ↓reduceIte, h1, fail_apply]
  | @raw n _ hb' =>
    have hd' : d.rest = 'r' :: (List.replicate n '#' ++ '"' :: (v ++ rawClose n ++ r)) := by simpa using hd
    obtain ⟨s', h1, -⟩ := rawString_ok (s := { d with prev := d.rest, rest := List.replicate n '#' ++ '"' :: (v ++ rawClose n ++ r) }) rfl hb'
    refine ⟨s', ?_⟩
    unfold byteString
    simp only [bind_apply, consumeChar_false (s := d) (c := '"') (by rw [hd']; simp), consumeChar_true hd', ↓reduceIte, h1,
      fail_apply, Bool.false_eq_true, ite_P]

/-- A string that is not base64: there is no suggestion. -/
theorem C12_not_suggested (d : St) (t v r : Text) (hd : d.rest = t ++ r) (ht : StrLit t v) (hb : ∀ bs, ¬ B64 v bs) :
    Fails byteString d .expectedByteString := by
  have he : base64Error v = .expectedByteString := by
    unfold base64Error
    cases h : tryDecodeBase64 v with
    | none => rfl
    | some bs => exact absurd (tryDecodeBase64_sound h) (hb bs)
  rw [← he]
  cases ht with
  | @esc b _ hb' =>
    have hd' : d.rest = '"' :: (b ++ '"' :: r) := by simpa using hd
    obtain ⟨s', h1, -⟩ := escapedString_ok (s := { d with prev := d.rest, rest := b ++ '"' :: r }) rfl hb'
    refine ⟨s', ?_⟩
    unfold byteString
    simp only [bind_apply, consumeChar_true hd', ↓reduceIte, h1, fail_apply]
  | @raw n _ hb' =>
    have hd' : d.rest = 'r' :: (List.replicate n '#' ++ '"' :: (v ++ rawClose n ++ r)) := by simpa using hd
    obtain ⟨s', h1, -⟩ := rawString_ok (s := { d with prev := d.rest, rest := List.replicate n '#' ++ '"' :: (v ++ rawClose n ++ r) }) rfl hb'
    refine ⟨s', ?_⟩
    unfold byteString
    simp only [bind_apply, consumeChar_false (s := d) (c := '"') (by rw [hd']; simp), consumeChar_true hd', ↓reduceIte, h1,
      fail_apply, Bool.false_eq_true, ite_P]

/-- The suggested literal reads as exactly the bytes the string encodes. -/
theorem C12_suggestion_reads (d : St) (r : Text) (bs : List UInt8) (hd : d.rest = suggestion bs ++ r) :
    RunsW byteString d bs r :=
  byteString_ok (t := suggestion bs) hd (by simpa [suggestion] using BytesLit.esc (escapeDefault_all bs))

/-- A text encodes at most one byte sequence. -/
theorem C12_unique (v : Text) (bs bs' : List UInt8) (h : B64 v bs) (h' : B64 v bs') : bs = bs' := by
  have h1 := tryDecodeBase64_of h
  rw [tryDecodeBase64_of h'] at h1
  exact (Option.some.inj h1).symm

/-- Every byte sequence has a (canonical) encoding, which is recognised. -/
theorem C12_encoding_recognised (bs : List UInt8) : B64 (b64Enc bs) bs := b64Enc_spec bs

/-- Non-vacuity: `"aGVsbG8="` is `hello`, `"QR=="` (non-canonical) is accepted as `A`, `"QQ="` is not base64. -/
example : b64Enc [104, 101, 108, 108, 111] = c!"aGVsbG8=" ∧ tryDecodeBase64 c!"QR==" = some [65] ∧ b64Enc [65] = c!"QQ==" ∧
    (∀ bs, ¬ B64 c!"QQ=" bs) ∧ StrLit c!"\"QQ==\"" c!"QQ==" := by
  refine ⟨by decide, by decide, by decide, ?_, ?_⟩
  · intro bs h; cases h
  · exact StrLit.esc (t := c!"QQ==") (plain_body false c!"QQ==" (by intro c hc; revert c; decide))

end Ron
