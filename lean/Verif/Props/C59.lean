import Verif.Lemmas.BadStrings
import Verif.Lemmas.TyDoc
import Verif.Lemmas.Witness
import Verif.Lemmas.Deq
import Verif.Props.C25
/-!
# C59: malformed literals are exactly these errors, at exactly these places

Strings, byte strings, characters and byte literals.  Reading either gives the value of the literal the input starts with, or the
input is malformed and reading gives the error of the defect, having read exactly up to the defect.
-/

namespace Ron

/-- A string: reading fails with `e`, leaving `r`, exactly when the input is malformed in that way. -/
theorem C59_string (d : St) (e : Err) (r : Text) : (∃ d', string d = .err e d' ∧ d'.rest = r) ↔ BadStr d.rest e r := by
  constructor
  · rintro ⟨d', h, rfl⟩
    rcases badStr_total d.rest with ⟨t, v, r, h1, h2⟩ | ⟨e', r, h'⟩
    · obtain ⟨_, h3, -⟩ := string_ok h1 h2
      rw [h3] at h; cases h
    · obtain ⟨_, h3, rfl, -⟩ := string_bad rfl h'
      rw [h3] at h; cases h; exact h'
  · intro h
    obtain ⟨d', h1, h2, -⟩ := string_bad rfl h
    exact ⟨d', h1, h2⟩

/-- The same for byte strings. -/
theorem C59_byte_string (d : St) (e : Err) (r : Text) : (∃ d', byteString d = .err e d' ∧ d'.rest = r) ↔ BadBytesLit b64Found d.rest e r := by
  constructor
  · rintro ⟨d', h, rfl⟩
    rcases badBytesLit_total b64Found d.rest with ⟨t, v, r, h1, h2⟩ | ⟨e', r, h'⟩
    · obtain ⟨_, h3, -⟩ := byteString_ok h1 h2
      rw [h3] at h; cases h
    · obtain ⟨_, h3, rfl, -⟩ := byteString_bad rfl h'
      rw [h3] at h; cases h; exact h'
  · intro h
    obtain ⟨d', h1, h2, -⟩ := byteString_bad rfl h
    exact ⟨d', h1, h2⟩

/-- The same for characters. -/
theorem C59_char (d : St) (e : Err) (r : Text) : (∃ d', charLit d = .err e d' ∧ d'.rest = r) ↔ BadChar d.rest e r := by
  constructor
  · rintro ⟨d', h, rfl⟩
    rcases badChar_total d.rest with ⟨t, v, r, h1, h2⟩ | ⟨e', r, h'⟩
    · obtain ⟨_, h3, -⟩ := charLit_ok' h1 h2
      rw [h3] at h; cases h
    · obtain ⟨_, h3, rfl, -⟩ := charLit_bad rfl h'
      rw [h3] at h; cases h; exact h'
  · intro h
    obtain ⟨d', h1, h2, -⟩ := charLit_bad rfl h
    exact ⟨d', h1, h2⟩

/-- What starts like a byte literal is one, or is malformed in one way. -/
theorem C59_byte [Env] (tg : IntTarget) (d : St) (u : Text) (hd : d.rest = 'b' :: '\'' :: u) :
    (∃ t n r, d.rest = t ++ r ∧ ByteLit t n) ∨ ∃ e r, BadByteLit u e r ∧ ∃ d', integer tg d = .err e d' ∧ d'.rest = r := by
  rcases badByteLit_total u with ⟨t, n, r, h1, h2⟩ | ⟨e, r, h⟩
  · exact .inl ⟨t, n, r, hd.trans h1, h2⟩
  · obtain ⟨d', h1, h2, -⟩ := integer_bad (tg := tg) hd h
    exact .inr ⟨e, r, h, d', h1, h2⟩

/-- A malformed string has one error and one place; so it cannot be read as something else by reading less of it. -/
theorem C59_unique (u r r' : Text) (e e' : Err) (h : BadStr u e r) (h' : BadStr u e' r') : e = e' ∧ r = r' := by
  obtain ⟨s1, e1, g1, -⟩ := string_bad (s := St.init u) rfl h
  obtain ⟨s2, e2, g2, -⟩ := string_bad (s := St.init u) rfl h'
  rw [e1] at e2
  cases e2
  exact ⟨rfl, g1.symm.trans g2⟩

variable [Env]

theorem doc_errs {α : Type} {seed : P α} {u r : Text} {e : Err} (hn : NoLayoutStart u) (hh : u.head? ≠ some '#')
    (hr : ∀ d : St, d.rest = u → Errs seed d e r) {o : Options} {l hdr : Text} {ex : Exts} (hl : Layout l) (ha : Attrs hdr ex)
    {p : Text} (hp : l ++ (hdr ++ u) = p ++ r) :
    ∃ sp, fromStr o seed (l ++ (hdr ++ u)) = .error (e, sp) ∧ sp.stop = Position.after p := by
  obtain ⟨s1, h1, r1, e1, c1, n1, -, m1⟩ := parserNew_ok hl ha hn (head_ne hh)
    { St.init (l ++ (hdr ++ u)) with limit := o.recursionLimit } (by simp [St.init])
  obtain ⟨s2, h2, h3, h4⟩ := hr { s1 with exts := s1.exts.union o.defaultExtensions } r1
  refine ⟨s2.span, ?_, ?_⟩
  · unfold fromStr readDoc deNew
    simp only [bind_apply, modSt_apply, h1, h2]
    rfl
  · have hsrc : s2.src = p ++ r := by
      rw [h4.src]
      show s1.src = _
      rw [c1, ← hp]
      rfl
    unfold St.span
    simp only [St.before, hsrc, h3]
    rw [C25_counts]
    congr 1
    simp

/-- A document with a malformed string: the error says what is wrong, and ends where reading stopped. -/
theorem C59_doc_string (o : Options) (D : Nat → Ty) (f : Nat) (l hdr u r p : Text) (ex : Exts) (e : Err) (hl : Layout l) (ha : Attrs hdr ex)
    (hn : NoLayoutStart u) (hh : u.head? ≠ some '#') (h : BadStr u e r) (hp : l ++ (hdr ++ u) = p ++ r) :
    ∃ sp, fromStr o (deTy D (f + 1) .str) (l ++ (hdr ++ u)) = .error (e, sp) ∧ sp.stop = Position.after p := by
  refine doc_errs hn hh (fun d hd => ?_) hl ha hp
  obtain ⟨s', h1, h2, h3⟩ := string_bad hd h
  refine ⟨s', ?_, h2, h3⟩
  simp only [deTy, bind_apply, h1]

/-- The same for a character. -/
theorem C59_doc_char (o : Options) (D : Nat → Ty) (f : Nat) (l hdr u r p : Text) (ex : Exts) (e : Err) (hl : Layout l) (ha : Attrs hdr ex)
    (hn : NoLayoutStart u) (hh : u.head? ≠ some '#') (h : BadChar u e r) (hp : l ++ (hdr ++ u) = p ++ r) :
    ∃ sp, fromStr o (deTy D (f + 1) .char) (l ++ (hdr ++ u)) = .error (e, sp) ∧ sp.stop = Position.after p := by
  refine doc_errs hn hh (fun d hd => ?_) hl ha hp
  obtain ⟨s', h1, h2, h3⟩ := charLit_bad hd h
  refine ⟨s', ?_, h2, h3⟩
  simp only [deTy, bind_apply, h1]

/-- The same for bytes, which may also be a list of numbers. -/
theorem C59_doc_bytes (o : Options) (D : Nat → Ty) (f : Nat) (l hdr u r p : Text) (ex : Exts) (e : Err) (hl : Layout l) (ha : Attrs hdr ex)
    (hn : NoLayoutStart u) (hh : u.head? ≠ some '#') (hb : u.head? ≠ some '[') (h : BadBytesLit b64Found u e r) (hp : l ++ (hdr ++ u) = p ++ r) :
    ∃ sp, fromStr o (deTy D (f + 1) .bytes) (l ++ (hdr ++ u)) = .error (e, sp) ∧ sp.stop = Position.after p := by
  refine doc_errs hn hh (fun d hd => ?_) hl ha hp
  obtain ⟨s', h1, h2, h3⟩ := byteString_bad hd h
  refine ⟨s', ?_, h2, h3⟩
  have hc : checkChar '[' d = .ok false d := by simp [checkChar, hd, head_ne hb]
  simp only [deTy, deBytes, bind_apply, hc, Bool.false_eq_true, ↓reduceIte, h1]

omit [Env] in
/-- Non-vacuity: an unknown escape; an escaped quote that is the only one; bytes that are no character; a raw string that is not closed;
a character above 127 given by `\x`; a Unicode escape in a byte. -/
example : BadStr c!"\"ab\\q\"" (.invalidEscape c!"Unknown escape character") c!"\"" ∧
    BadStr c!"\"a\\\"b" .expectedStringEnd c!"b" ∧
    BadStr c!"\"\\xc3\\x28\"" (.invalidEscape c!"Not a valid byte-escaped Unicode character") c!"\"" ∧
    BadStr c!"r#\"abc\"" .expectedStringEnd c!"abc\"" ∧
    BadChar c!"'\\xff'" (.invalidEscape c!"Not a valid byte-escaped Unicode character") c!"'" ∧
    BadByteLit c!"\\u{41}'" (.invalidEscape c!"Unexpected Unicode escape in byte literal") c!"'" := by
  refine ⟨?_, ?_, ?_, ?_, ?_, ?_⟩
  · exact .esc (.esc (t := c!"ab") (u := c!"q\"") (by decide) (.plain (by decide) (by decide) (.plain (by decide) (by decide) .nil))
      (.unknown (by decide) (by decide) (by decide)))
  · exact .esc (.unclosed (t := c!"a") (e := c!"\"") (p := c!"b") (by decide) (.plain (by decide) (by decide) .nil)
      (.simple (c := '"') (n := 34) (by decide)) (by decide))
  · refine .esc (.esc (t := []) (u := c!"xc3\\x28\"") (by decide) .nil (.bytes (c1 := 'c') (c2 := '3') (d1 := 12) (d2 := 3) rfl rfl (by decide) (by decide)
      (by decide) (.more (c1 := '2') (c2 := '8') (d1 := 2) (d2 := 8) (by decide) (by decide) ?_ (.stop (.inr (by decide))))))
    intro ch h
    have h2 : utf8One (utf8Enc ch) = some ch := utf8One_enc ch
    rw [h] at h2
    have h3 : utf8One ([UInt8.ofNat (12 * 16 + 3)] ++ [UInt8.ofNat (2 * 16 + 8)]) = none := by decide
    rw [h3] at h2
    cases h2
  · refine .raw (.open (n := 1) (r := c!"abc\"") ?_)
    intro p q h
    have : '#' ∈ c!"abc\"" := by rw [h]; simp [rawClose]
    revert this; decide
  · exact .esc (.single (c1 := 'f') (c2 := 'f') (d1 := 15) (d2 := 15) rfl rfl (by decide) (by decide) (by decide))
  · exact .uni (ds := c!"41") (ch := 'A') (by decide) (by decide) (by
      intro c hc
      simp at hc
      rcases hc with rfl | rfl
      · exact ⟨4, by decide⟩
      · exact ⟨1, by decide⟩) (by decide)

omit [Env] in
/-- Non-vacuity of the document: after a line break the error ends at line 2, column 6, behind the `q`. -/
example : let _ : Env := asciiEnv true true
    fromStr {} (deTy (fun _ => .unit) 1 .str) c!"\n\"ab\\q\"" =
      .error (.invalidEscape c!"Unknown escape character", ⟨⟨2, 2⟩, ⟨2, 6⟩⟩) ∧ Position.after c!"\n\"ab\\q" = ⟨2, 6⟩ := by decide +kernel

end Ron
