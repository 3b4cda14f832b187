import Verif.Lemmas.FrameDe
import Verif.Lemmas.Deq
/-!
# C44: layout before a document never matters
-/

namespace Ron

/-- The data or the kind of error, without the position of the error. -/
def outcome {α : Type} : Spanned α → Except Err α
  | .ok a => .ok a
  | .error (e, _) => .error e

variable [Env]

/-- For every text (well-formed or not) and all options, putting layout in front changes neither the data nor the kind of error, for
self-describing data, for ignored data, and for data of every type without raw values (which return the text as it was). -/
theorem C44 (o : Options) (l t : Text) (hl : Layout l) :
    outcome (fromStr o deValue (l ++ t)) = outcome (fromStr o deValue t) ∧
    outcome (fromStr o deIgnored (l ++ t)) = outcome (fromStr o deIgnored t) ∧
    ∀ (D : Nat → Ty) (n : Nat) (T : Ty), (∀ i, (D i).NoRaw) → T.NoRaw →
      outcome (fromStr o (deTy D n T) (l ++ t)) = outcome (fromStr o (deTy D n T) t) := by
  have key : ∀ {α : Type} {f : P α}, Fr SL f → outcome (fromStr o f (l ++ t)) = outcome (fromStr o f t) := by
    intro α f hf
    have := readDoc_more (o := o) hf (t := t) hl
    unfold fromStr
    revert this
    cases readDoc o f (St.init (l ++ t)) <;> cases readDoc o f (St.init t) <;> intro h
    · obtain ⟨rfl, -⟩ := h; rfl
    · exact h.elim
    · exact h.elim
    · cases h; rfl
  exact ⟨key Fr.deValue, key Fr.deIgnored, fun D n T hD hT => key (Fr.deTy hD n T hT)⟩

/-- Non-vacuity: a malformed document keeps its error, a well-formed one its value. -/
example : let _ := asciiEnv true true
    outcome (fromStr {} deValue c!" // x\n/* y */[1 2]") = .error .expectedComma ∧
    outcome (fromStr {} deValue c!"[1 2]") = .error .expectedComma ∧
    outcome (fromStr {} deValue c!"\n [true]") = .ok (.seq [.bool true]) := by
  refine ⟨?_, ?_, ?_⟩ <;> decide +kernel

end Ron
