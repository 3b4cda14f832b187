import Verif.Lemmas.Strings
/-!
# C08: unescaped and raw strings round-trip
-/

namespace Ron

variable [Env]

/-- With `escape_strings(false)` serializing any string and reading the text gives the string back; exactly the literal
is consumed, whatever follows (even further hashes or quotes). -/
theorem C08_roundtrip (s : Ser) (hq : s.Quiet) (he : s.escapeStrings = false) (v : Text) :
    ∃ w, Emits (ser (.str v)) s w ∧ ∀ (d : St) (r : Text), d.rest = w ++ r → RunsW string d v r := by
  refine ⟨strText false v, .of ?_, fun d r hd => string_ok hd (strText_lit _ _)⟩
  rw [ser, serStr_quiet hq, he]

omit [Env] in
/-- A raw literal with any number of hashes denotes its body up to the first closing delimiter. -/
theorem C08_reads_raw (d : St) (n : Nat) (v r : Text)
    (hd : d.rest = 'r' :: (List.replicate n '#' ++ '"' :: (v ++ ('"' :: List.replicate n '#') ++ r))) (h : RawBody n v) :
    RunsW string d v r :=
  string_ok (t := 'r' :: (List.replicate n '#' ++ '"' :: (v ++ rawClose n))) (by simpa [rawClose] using hd) (.raw h)

/-- Non-vacuity: a body with a quote followed by one hash needs two hashes; with one hash it would end early. -/
example : RawBody 2 c!"a\"#b" ∧ ¬ RawBody 1 c!"a\"#b" ∧ maxHashes c!"a\"#b" 0 0 + 1 = 2 := by
  refine ⟨rawBody_written c!"a\"#b", ?_, by decide⟩
  intro h
  have := h ['a'] ['b', '"', '#'] (by simp [rawClose])
  cases this

end Ron
