import Verif.Model.Parser
/-!
# Model of src/util/span_substring.rs

The segmentation of a text into graphemes (crate `unicode-segmentation`, external) is an argument: a list of texts.  Slices that are out
of bounds panic (`.error .panic`).
-/

namespace Ron

/-- src/util/span_substring.rs:31-44, the loop: position `p` is looked for, `i` graphemes have been passed, `q` is where they end. -/
def graphemeLoop (p : Position) : List Text → Nat → Position → Option Nat
  | [], i, q => if q = p then some i else none
  | g :: gs, i, q =>
    if q = p then some i
    else graphemeLoop p gs (i + 1) (if g = c!"\n" ∨ g = c!"\r\n" then ⟨q.line + 1, 1⟩ else ⟨q.line, q.col + 1⟩)

/-- src/util/span_substring.rs:11-50 `Position::grapheme_index` for a text with the graphemes `gs`. -/
def Position.graphemeIndex (p : Position) (gs : List Text) : Option Nat :=
  if p = ⟨1, 1⟩ then some 0 else graphemeLoop p gs 0 ⟨1, 1⟩

/-- src/util/span_substring.rs:57-67 `Span::substring_exclusive`. -/
def Span.substringExclusive (sp : Span) (gs : List Text) : Except Err (Option Text) :=
  match sp.start.graphemeIndex gs, sp.stop.graphemeIndex gs with
  | some a, some b => if a ≤ b ∧ b ≤ gs.length then .ok (some ((gs.take b).drop a).flatten) else .error .panic
  | _, _ => .ok none

/-- src/util/span_substring.rs:72-82 `Span::substring_inclusive`; `[a..=b]` is `[a..b + 1]`. -/
def Span.substringInclusive (sp : Span) (gs : List Text) : Except Err (Option Text) :=
  match sp.start.graphemeIndex gs, sp.stop.graphemeIndex gs with
  | some a, some b => if a ≤ b + 1 ∧ b + 1 ≤ gs.length then .ok (some ((gs.take (b + 1)).drop a).flatten) else .error .panic
  | _, _ => .ok none

end Ron
