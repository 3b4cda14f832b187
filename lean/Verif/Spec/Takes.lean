import Verif.Model.ValueDe
/-!
# What a consumer takes from a list of elements or entries

Elements are handed out from the first on, each once.
-/

namespace Ron

/-- `Takes p vs r n`: the program `p`, offered the elements `vs` in this order, takes the first `n` of them and ends with `r`. -/
inductive Takes {α : Type} : SeqProg α → List Value → Except Err α → Nat → Prop
  | done {a : α} {vs : List Value} : Takes (.done a) vs (.ok a) 0
  | err {e : Err} {vs : List Value} : Takes (.err e) vs (.error e) 0
  | stop {β : Type} {seed : Value → Except Err β} {k : Option β → SeqProg α} {r : Except Err α} {n : Nat} :
      Takes (k none) [] r n → Takes (.next seed k) [] r n
  | fail {β : Type} {seed : Value → Except Err β} {k : Option β → SeqProg α} {v : Value} {vs : List Value} {e : Err} :
      seed v = .error e → Takes (.next seed k) (v :: vs) (.error e) 1
  | step {β : Type} {seed : Value → Except Err β} {k : Option β → SeqProg α} {v : Value} {vs : List Value} {b : β}
      {r : Except Err α} {n : Nat} :
      seed v = .ok b → Takes (k (some b)) vs r n → Takes (.next seed k) (v :: vs) r (n + 1)

/-- `TakesM p w es r n`: the program `p`, offered the value `w` (of the key it has read before) and then the entries `es` in this
order, takes the first `n` entries and ends with `r`.  To ask for a value when there is none is a panic. -/
inductive TakesM {α : Type} : MapProg α → Option Value → List (Value × Value) → Except Err α → Nat → Prop
  | done {a : α} {w : Option Value} {es : List (Value × Value)} : TakesM (.done a) w es (.ok a) 0
  | err {e : Err} {w : Option Value} {es : List (Value × Value)} : TakesM (.err e) w es (.error e) 0
  | stop {β : Type} {seed : Value → Except Err β} {k : Option β → MapProg α} {w : Option Value} {r : Except Err α} {n : Nat} :
      TakesM (k none) w [] r n → TakesM (.key seed k) w [] r n
  | keyFail {β : Type} {seed : Value → Except Err β} {k : Option β → MapProg α} {w : Option Value} {x v : Value}
      {es : List (Value × Value)} {e : Err} :
      seed x = .error e → TakesM (.key seed k) w ((x, v) :: es) (.error e) 1
  | key {β : Type} {seed : Value → Except Err β} {k : Option β → MapProg α} {w : Option Value} {x v : Value}
      {es : List (Value × Value)} {b : β} {r : Except Err α} {n : Nat} :
      seed x = .ok b → TakesM (k (some b)) (some v) es r n → TakesM (.key seed k) w ((x, v) :: es) r (n + 1)
  | valueFail {β : Type} {seed : Value → Except Err β} {k : β → MapProg α} {v : Value} {es : List (Value × Value)} {e : Err} :
      seed v = .error e → TakesM (.value seed k) (some v) es (.error e) 0
  | value {β : Type} {seed : Value → Except Err β} {k : β → MapProg α} {v : Value} {es : List (Value × Value)} {b : β}
      {r : Except Err α} {n : Nat} :
      seed v = .ok b → TakesM (k b) none es r n → TakesM (.value seed k) (some v) es r n
  | noValue {β : Type} {seed : Value → Except Err β} {k : β → MapProg α} {es : List (Value × Value)} :
      TakesM (.value seed k) none es (.error .panic) 0

/-- A program over a map that does not panic by itself and asks for a value only after it has read a key (serde's contract):
`Orderly w p` with `w` telling if there is a value to ask for. -/
def Orderly {α : Type} : Bool → MapProg α → Prop
  | _, .done _ => True
  | _, .err e => e ≠ .panic
  | w, .key seed k => (∀ v, seed v ≠ .error .panic) ∧ (∀ b, Orderly true (k (some b))) ∧ Orderly w (k none)
  | w, .value seed k => w = true ∧ (∀ v, seed v ≠ .error .panic) ∧ ∀ b, Orderly false (k b)

end Ron
