import Verif.Lemmas.Strings
/-!
# C07: escaped strings round-trip
-/

namespace Ron

variable [Env]

/-- With escaping on, serializing a string and reading the text gives the string back; exactly the literal is consumed,
whatever follows.  Nothing is assumed about which characters std escapes. -/
theorem C07_roundtrip (s : Ser) (hq : s.Quiet) (he : s.escapeStrings = true) (v : Text) :
    ∃ w, Emits (ser (.str v)) s w ∧ ∀ (d : St) (r : Text), d.rest = w ++ r → RunsW string d v r := by
  refine ⟨strText true v, .of ?_, fun d r hd => string_ok hd (strText_lit _ _)⟩
  rw [ser, serStr_quiet hq, he]

omit [Env] in
/-- Every well-formed escaped literal (simple, `\x..` and `\u{..}` escapes included) denotes the string the
specification assigns to it. -/
theorem C07_reads_literal (d : St) (t v r : Text) (hd : d.rest = '"' :: (t ++ '"' :: r))
    (h : StrBody false t (utf8EncAll v)) : RunsW string d v r :=
  string_ok (t := '"' :: (t ++ ['"'])) (by simpa using hd) (.esc h)

/-- The output never contains a quote that is not escaped: what is written between the quotes is a literal body
for exactly one string. -/
theorem C07_injective (v v' : Text) (h : strText true v = strText true v') : v = v' := by
  have h1 := string_ok (s := St.init (strText true v)) (r := []) (by simp [St.init]) (strText_lit true v)
  have h2 := string_ok (s := St.init (strText true v)) (r := []) (by simp [St.init, h]) (strText_lit true v')
  obtain ⟨s1, e1, -⟩ := h1
  obtain ⟨s2, e2, -⟩ := h2
  rw [e1] at e2; cases e2; rfl

/-- Non-vacuity: escapes of all three kinds in one literal. -/
example : StrBody false c!"a\\n\\x41\\u{e9}" (utf8EncAll ['a', '\n', 'A', Char.ofNat 0xe9]) := by
  have hd : ∀ c ∈ c!"e9", ∃ d, hexVal c = some d := by
    intro c hc
    have hc : c = 'e' ∨ c = '9' := by simpa using hc
    rcases hc with rfl | rfl
    · exact ⟨14, by decide⟩
    · exact ⟨9, by decide⟩
  have h0 : Esc false (['u', '{'] ++ c!"e9" ++ ['}']) (utf8Enc (Char.ofNat 0xe9)) :=
    Esc.uni (by simp) (by simp) hd (by decide)
  have h1 := StrBody.esc h0 StrBody.nil
  have h2 := StrBody.esc (Esc.hex (bin := false) (c1 := '4') (c2 := '1') (d1 := 4) (d2 := 1) (by decide) (by decide)
    (.inr (by decide))) h1
  have h3 := StrBody.esc (Esc.simple (bin := false) (c := 'n') (n := 10) (by decide)) h2
  have h4 := StrBody.plain (c := 'a') (by decide) (by decide) h3
  simpa [show utf8Enc '\n' = [10] by decide, show utf8Enc 'A' = [65] by decide] using h4

example : (Ser.init {} none {}).Quiet ∧ (Ser.init {} none {}).escapeStrings = true := ⟨rfl, rfl⟩

end Ron
