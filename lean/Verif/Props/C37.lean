import Verif.Lemmas.SafeDoc
import Verif.Lemmas.Eat
import Verif.Lemmas.Deq
/-!
# C37: parsing terminates and always makes progress

Every loop and every recursion of the model takes fuel computed from the remaining input; running out is the error `.fuel`,
which the code does not have.  That it does not occur means that the code's loops and recursions end.
-/

namespace Ron

variable [Env]

/-- Reading self-describing data always ends, with any options (in particular without a recursion limit) on every text and on
every byte string, with a value or with one of the crate's errors. -/
theorem C37_value (o : Options) (t : Text) (bs : List UInt8) :
    (∀ sp, fromStr o deValue t ≠ .error (.fuel, sp)) ∧ (∀ sp, fromBytes o deValue bs ≠ .error (.fuel, sp)) := by
  have k : ∀ t sp, fromStr o deValue t ≠ .error (.fuel, sp) := fun t sp h => (fromStr_out (φ := False) Tame.value h).1 rfl
  refine ⟨k t, fun sp h => ?_⟩
  unfold fromBytes at h
  revert h
  cases utf8Dec bs with
  | none => exact fun h => by simp at h
  | some t => exact k t sp

/-- Reading data of any type, also recursive types, ends if there is a recursion limit: `2 * n + 4` nested calls suffice for
a limit of `n`.  (References lead to a type, not to another reference.) -/
theorem C37_typed (o : Options) (n f : Nat) (D : Nat → Ty) (T : Ty) (hn : o.recursionLimit = some n) (hf : 2 * n + 4 ≤ f)
    (hD : ∀ i j, D i ≠ .ref j) (t : Text) (sp : Span) : fromStr o (deTy D f T) t ≠ .error (.fuel, sp) := fun h =>
  (fromStr_out (φ := False) (Tame.ty hn hf hD) h).1 rfl

/-- No input makes the reader move its cursor beyond the end of the source (where the code's slicing would panic), whatever the
type, the options and the amount of recursion: neither on text nor on bytes. -/
theorem C37_no_panic (o : Options) (D : Nat → Ty) (f : Nat) (T : Ty) (t : Text) (bs : List UInt8) (sp : Span) :
    fromStr o deValue t ≠ .error (.panic, sp) ∧ fromStr o (deTy D f T) t ≠ .error (.panic, sp) ∧
    fromBytes o deValue bs ≠ .error (.panic, sp) ∧ fromBytes o (deTy D f T) bs ≠ .error (.panic, sp) := by
  have k1 : ∀ t, fromStr o deValue t ≠ .error (.panic, sp) := fun t h => (fromStr_out (φ := True) Tame.value h).2.1 rfl
  have k2 : ∀ t, fromStr o (deTy D f T) t ≠ .error (.panic, sp) := fun t h => (fromStr_out Tame.ty' h).2.1 rfl
  refine ⟨k1 t, k2 t, fun h => ?_, fun h => ?_⟩ <;>
  · unfold fromBytes at h
    revert h
    cases utf8Dec bs with
    | none => exact fun h => by simp at h
    | some t => first | exact k1 t | exact k2 t

/-- The cursor never leaves the source or moves back: whatever is read from a position inside the text, the next position
is a suffix of the remaining text. -/
theorem C37_forward (s : St) (hi : s.Inside) (D : Nat → Ty) (n : Nat) (T : Ty) :
    (∀ v s', deValue s = .ok v s' → s'.rest <:+ s.rest ∧ s'.Inside ∧ s'.src = s.src) ∧
    (∀ v s', deTy D n T s = .ok v s' → s'.rest <:+ s.rest ∧ s'.Inside ∧ s'.src = s.src) ∧
    (∀ e s', deValue s = .err e s' → s'.rest <:+ s.rest ∧ s'.Inside ∧ s'.src = s.src) ∧
    (∀ e s', deTy D n T s = .err e s' → s'.rest <:+ s.rest ∧ s'.Inside ∧ s'.src = s.src) := by
  have a : OutD True s (fun _ _ => True) (deValue s) := deValue_out hi
  have b : OutD True s (fun _ _ => True) (deTy D n T s) := deTy_out n T s hi (.inr trivial)
  refine ⟨fun v s' h => ?_, fun v s' h => ?_, fun v s' h => ?_, fun v s' h => ?_⟩
  · rw [h] at a; exact ⟨a.1.rest, a.1.inside, a.1.src⟩
  · rw [h] at b; exact ⟨b.1.rest, b.1.inside, b.1.src⟩
  · rw [h] at a; exact ⟨a.1.rest, a.1.inside, a.1.src⟩
  · rw [h] at b; exact ⟨b.1.rest, b.1.inside, b.1.src⟩

/-- Reading a value of any type consumes at least one character. -/
theorem C37_progress (s : St) (hi : s.Inside) (hn : s.nv = false) (D : Nat → Ty) (n : Nat) (T : Ty) :
    (∀ v s', deValue s = .ok v s' → s'.rest.length < s.rest.length) ∧
    (∀ v s', deTy D n T s = .ok v s' → s'.rest.length < s.rest.length) := by
  refine ⟨fun v s' h => ?_, fun v s' h => ?_⟩
  · have := deValue_Fd.eat s hi hn; rw [h] at this; exact this.lt rfl
  · have := (deTy_Fd D n T).eat s hi hn; rw [h] at this; exact this.lt rfl

/-- And so does reading an element of a sequence. -/
theorem C37_element (s : St) (hi : s.Inside) (hn : s.nv = false) (term : Char) (had : Bool) (D : Nat → Ty) (n : Nat) (T : Ty)
    (v : SVal) (c : Bool) (s' : St) (h : nextElement term had (deTy D n T) s = .ok (some (v, c)) s') :
    s'.rest.length < s.rest.length := by
  unfold nextElement at h
  replace h := bind_ok h
  obtain ⟨b, s1, h1, h⟩ := h
  have a1 := E.lift (.refl hi hn) (Safe.at (.hasElement term had) (.refl hi) |> fun q => by
    rw [h1] at q; exact (show E s false (Res.ok b s1) from ⟨q.1.inside, q.1.nv.trans hn, q.1.rest, by simp⟩))
  cases b with
  | false => cases h
  | true =>
    replace h := if_tt h
    replace h := bind_ok h
    obtain ⟨v1, s2, h2, h⟩ := h
    have a2 := (deTy_Fd D n T).guardQ (show At s false s1 from a1)
    rw [h2] at a2
    replace h := bind_ok h
    obtain ⟨c1, s3, h3, h⟩ := h
    have a3 := Safe.at (b := s2) Safe.comma (.refl a2.inside)
    rw [h3] at a3
    cases h
    exact Nat.lt_of_le_of_lt a3.1.rest.length_le (a2.lt rfl)

/-- Non-vacuity: moving beyond the end is a panic of the model, it is not ruled out by the definitions. -/
example : (do let _ ← nextChar; advance 2 : P Unit) (St.init c!"ab") = .err .panic { St.init c!"ab" with rest := c!"b" } := rfl

/-- Non-vacuity: a text with 200 open brackets and no limit ends with an error. -/
example : let _ := asciiEnv true true
    ∃ sp, fromStr { recursionLimit := none } deValue (List.replicate 200 '[') = .error (.eof, sp) := by
  refine ⟨⟨⟨1, 200⟩, ⟨1, 201⟩⟩, ?_⟩
  decide +kernel

end Ron
