import Verif.Lemmas.ValueDe
import Verif.Lemmas.Deq
/-!
# C29: converting a `Value` reads every element exactly once
-/

namespace Ron

/-- Every consumer of a sequence gets the elements of the value in order, each once, and its result counts only if it took them all:
taking fewer is an error that tells how many were taken and how many there are, and its own error is passed on. -/
theorem C29_seq {α : Type} (vis : Visitor α) (vs : List Value) :
    ∃ r n, Takes (vis.seq vs.length) vs r n ∧ n ≤ vs.length ∧
      Value.visit vis (.seq vs) = match r with
        | .error e => .error e
        | .ok a => if n = vs.length then .ok a
          else .error (.expectedDifferentLength (c!"a sequence of length " ++ natText n) vs.length) := by
  obtain ⟨r, n, h1, h2, _⟩ := runSeq_takes (vis.seq vs.length) vs
  refine ⟨r, n, h1, h2, ?_⟩
  rw [(visit_seq vis h1).2]
  cases r <;> rfl

/-- What a consumer takes is determined. -/
theorem C29_seq_unique {α : Type} {p : SeqProg α} {vs : List Value} {r r' : Except Err α} {n n' : Nat} (h : Takes p vs r n)
    (h' : Takes p vs r' n') : r = r' ∧ n = n' := h.unique h'

/-- A sequence is converted if and only if the consumer ends well having taken all the elements: never is it truncated. -/
theorem C29_seq_ok {α : Type} (vis : Visitor α) (vs : List Value) (a : α) :
    Value.visit vis (.seq vs) = .ok a ↔ Takes (vis.seq vs.length) vs (.ok a) vs.length := by
  refine ⟨fun h => ?_, visit_seq_ok vis⟩
  obtain ⟨r, n, h1, _, h3⟩ := C29_seq vis vs
  rw [h3] at h
  cases r with
  | error e => cases h
  | ok b =>
    simp only at h
    split at h
    · rename_i hn
      cases h
      exact hn ▸ h1
    · cases h

/-- The same for maps: every consumer gets the entries in order, each once. -/
theorem C29_map {α : Type} (vis : Visitor α) (es : List (Value × Value)) :
    ∃ r n, TakesM (vis.map es.length) none es r n ∧ n ≤ es.length ∧
      Value.visit vis (.map es) = match r with
        | .error e => .error e
        | .ok a => if n = es.length then .ok a
          else .error (.expectedDifferentLength (c!"a map of length " ++ natText n) es.length) := by
  obtain ⟨r, n, h1, h2, _⟩ := runMap_takes (vis.map es.length) none es
  refine ⟨r, n, h1, h2, ?_⟩
  rw [(visit_map vis h1).2]
  cases r <;> rfl

theorem C29_map_unique {α : Type} {p : MapProg α} {w : Option Value} {es : List (Value × Value)} {r r' : Except Err α} {n n' : Nat}
    (h : TakesM p w es r n) (h' : TakesM p w es r' n') : r = r' ∧ n = n' := h.unique h'

theorem C29_map_ok {α : Type} (vis : Visitor α) (es : List (Value × Value)) (a : α) :
    Value.visit vis (.map es) = .ok a ↔ TakesM (vis.map es.length) none es (.ok a) es.length := by
  refine ⟨fun h => ?_, visit_map_ok vis⟩
  obtain ⟨r, n, h1, _, h3⟩ := C29_map vis es
  rw [h3] at h
  cases r with
  | error e => cases h
  | ok b =>
    simp only at h
    split at h
    · rename_i hn
      cases h
      exact hn ▸ h1
    · cases h

/-- A consumer that keeps to serde's contract never makes the map panic. -/
theorem C29_no_panic {α : Type} {p : MapProg α} {w : Option Value} {es : List (Value × Value)} {r : Except Err α} {n : Nat}
    (h : TakesM p w es r n) (hp : Orderly w.isSome p) : r ≠ .error .panic := by
  induction h with
  | done => intro h; cases h
  | err => intro h; cases h; exact hp rfl
  | stop _ ih => exact ih hp.2.2
  | keyFail hv => intro h; cases h; exact hp.1 _ hv
  | key _ _ ih => exact ih (hp.2.1 _)
  | valueFail hv => intro h; cases h; exact hp.2.1 _ hv
  | value _ _ ih => exact ih (hp.2.2 _)
  | noValue => exact absurd hp.1 (by simp)

/-- A consumer that asks twice and gives what it got. -/
private def twice : Visitor (List Value) :=
  { (Visitor.reject : Visitor (List Value)) with
    seq := fun _ => .next (fun v => .ok v) fun a => .next (fun v => .ok v) fun b => .done (a.toList ++ b.toList) }

/-- It gets the two elements of a pair in order, ... -/
example : Value.visit twice (.seq [.bool true, .unit]) = .ok [.bool true, .unit] := by
  rw [C29_seq_ok]
  exact .step rfl (.step rfl .done)
/-- ... is told when there is only one, ... -/
example : Value.visit twice (.seq [.bool true]) = .ok [.bool true] := by
  rw [C29_seq_ok]
  exact .step rfl (.stop .done)
/-- ... and is refused when there are three. -/
example : Value.visit twice (.seq [.bool true, .unit, .none]) =
    .error (.expectedDifferentLength c!"a sequence of length 2" 3) := by
  rw [(visit_seq twice (vs := [.bool true, .unit, .none]) (n := 2) (.step rfl (.step rfl .done))).2]
  rfl
/-- A consumer of a map that wants the values only: it keeps to the contract. -/
private def oneValue : MapProg Value := .key (fun _ => .ok ()) fun k => match k with
  | none => .done .unit
  | some _ => .value (fun v => .ok v) .done
example : Orderly false oneValue := by simp [oneValue, Orderly]

variable [Env]

/-- Reading a `Value` as a `Value` is the identity, for every value whose maps are such as can be built. -/
theorem C29_identity {V : Value} (hV : V.Holds fun _ => True) : V.intoValue = .ok V := value_identity V V.height hV (Nat.le_refl _)

omit [Env] in
/-- A nested value with options, sequences, strings, numbers and a map. -/
example : ∃ _ : Env, (Value.seq [.some (.seq [.num (.int .u8 3), .none]), .map [(.str c!"k", .bytes [1, 2])], .str c!"x"]).intoValue =
    .ok (.seq [.some (.seq [.num (.int .u8 3), .none]), .map [(.str c!"k", .bytes [1, 2])], .str c!"x"]) := by
  refine ⟨asciiEnv true true, ?_⟩
  let _ : Env := asciiEnv true true
  refine C29_identity ?_
  simp [Value.Holds, HoldsAll, HoldsEntries, MapInv, NodupKeys, Sorted]

end Ron
