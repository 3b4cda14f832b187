import Verif.Lemmas.StringsSound
/-!
# C41: the accepted string and byte string literals are exactly the grammar
-/

namespace Ron

/-- A string is read with value `v`, leaving `r`, exactly when the input starts with a literal of the grammar that
denotes `v` and is followed by `r`. -/
theorem C41_string (d : St) (v r : Text) :
    (∃ d', string d = .ok v d' ∧ d'.rest = r) ↔ ∃ t, d.rest = t ++ r ∧ StrLit t v := by
  constructor
  · rintro ⟨d', h, rfl⟩
    obtain ⟨t, h1, h2, -⟩ := string_sound h
    exact ⟨t, h1, h2⟩
  · rintro ⟨t, h1, h2⟩
    obtain ⟨d', h, hr, -⟩ := string_ok h1 h2
    exact ⟨d', h, hr⟩

/-- The same for byte strings. -/
theorem C41_byte_string (d : St) (v : List UInt8) (r : Text) :
    (∃ d', byteString d = .ok v d' ∧ d'.rest = r) ↔ ∃ t, d.rest = t ++ r ∧ BytesLit t v := by
  constructor
  · rintro ⟨d', h, rfl⟩
    obtain ⟨t, h1, h2, -⟩ := byteString_sound h
    exact ⟨t, h1, h2⟩
  · rintro ⟨t, h1, h2⟩
    obtain ⟨d', h, hr, -⟩ := byteString_ok h1 h2
    exact ⟨d', h, hr⟩

/-- A text has at most one reading as a string literal, including where the literal ends. -/
theorem C41_unique (t t' r r' v v' : Text) (h : StrLit t v) (h' : StrLit t' v') (e : t ++ r = t' ++ r') :
    t = t' ∧ v = v' := by
  obtain ⟨s1, e1, g1, -⟩ := string_ok (s := St.init (t ++ r)) (r := r) rfl h
  obtain ⟨s2, e2, g2, -⟩ := string_ok (s := St.init (t ++ r)) (r := r') e h'
  rw [e1] at e2
  cases e2
  subst g1 g2
  exact ⟨List.append_cancel_right e, rfl⟩

/-- Non-vacuity: a two-byte character given by byte escapes, and a raw string containing a quote. -/
example : StrLit c!"\"\\xc3\\xa9\"" [Char.ofNat 0xe9] ∧ StrLit c!"r#\"a\"b\"#" c!"a\"b" := by
  constructor
  · have h0 : HexSeq c!"xc3\\xa9" (utf8Enc (Char.ofNat 0xe9)) :=
      .more (c1 := 'c') (c2 := '3') (d1 := 12) (d2 := 3) (by decide) (by decide)
        (.one (c1 := 'a') (c2 := '9') (d1 := 10) (d2 := 9) (by decide) (by decide))
    have h1 := StrBody.esc (bin := false) (Esc.multi rfl h0) StrBody.nil
    exact StrLit.esc (t := c!"\\xc3\\xa9") (by simpa using h1)
  · refine StrLit.raw (n := 1) (v := c!"a\"b") ?_
    intro p q e
    have hl := congrArg List.length e
    simp [rawClose] at hl
    match p, e with
    | [], e => simp [rawClose] at e
    | [_], e => simp [rawClose] at e
    | [_, _], e => simp [rawClose] at e
    | _ :: _ :: _ :: p, _ => simp at hl; exact List.length_eq_zero_iff.mp (by omega)

end Ron
