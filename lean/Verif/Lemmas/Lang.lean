import Verif.Spec.Lang
import Verif.Lemmas.NumText
import Verif.Lemmas.Seps
/-!
# The untyped reader accepts the language

Every text of `Lang` is read as the value it denotes.
-/

namespace Ron

variable [Env]

omit [Env] in
theorem CharLit.form {t : Text} {c : Char} (h : CharLit t c) : ∃ u, t = '\'' :: u := by
  cases h <;> exact ⟨_, rfl⟩

theorem anyPlain_oneChar {any : P Value} {d : St} {t : Text} {c : Char} {r : Text} (h : CharLit t c) (hd : d.rest = t ++ r) :
    RunsW (anyPlain any) d (.char c) r := by
  obtain ⟨s', h1, h2, h3⟩ := charLit_ok' hd h
  refine ⟨s', ?_, h2, h3⟩
  obtain ⟨u, hu⟩ := h.form
  have hd' : d.rest = '\'' :: (u ++ r) := by rw [hd, hu]; rfl
  rw [anyPlain_char hd' (by decide) (by rw [hd']; simp) (skipIdentifier_ascii hd' (by decide) (by decide))]
  unfold anyChar
  simp [bind_apply, peekCharOrEof_cons hd', h1, show isDigit '\'' = false by decide]

theorem tok_reads {x : Exts} {w : Text} {v : Value} (h : Tok w v) (any : P Value) : Reads x 0 (anyBody any) w v ∧ Heads w := by
  have sc : Scalar w v → Reads x 0 (anyBody any) w v ∧ Heads w := fun h => ⟨scalar_reads h any, scalar_heads h⟩
  cases h with
  | true => exact sc .true
  | false => exact sc .false
  | none => exact sc .none
  | unit => exact sc .unit
  | num h hv =>
    obtain ⟨s, hv, hs⟩ := (numText_read h).mp hv
    exact num_reads h hv hs
  | @char t c h =>
    obtain ⟨u, hu⟩ := h.form
    refine ⟨⟨⟨'\'', u, hu, by decide, by decide⟩, fun d l q hp hd hl hq => ?_⟩, by rw [hu]; exact heads_ascii (by decide) (by decide)⟩
    unfold RunsTo
    rw [anyBody_plain hp.nv]
    exact (anyPlain_oneChar h hd).runsTo hl
  | str h => exact sc (.str h)
  | bytes h => exact sc (.bytes h)
  | name h => exact sc (.name h)

/-- Every text of the language is read. -/
theorem lang_reads {x : Exts} (hx : x.unwrapVariantNewtypes = false) {n f : Nat} (hf : n < f) {w : Text} {v : Value} (h : Lang n w v) :
    Reads x n (deAny f) w v := (gram_reads hx (fun any _ _ h => tok_reads h any) n f hf w v h).1

end Ron
