import Verif.Model.De
import Verif.Model.Ser
/-!
# Model of `RawValue` (src/value/raw.rs)

A raw value is its text; `Box<RawValue>` and `&RawValue` are not told apart.  Offsets count characters, not bytes, as everywhere in
this model: they are offsets of the parser, which stands between characters.
-/

namespace Ron

variable [Env]

/-- src/value/raw.rs:98-113, the program of `from_ron`. -/
def rawProg : P Unit := do
  deNew {}
  let s ← getSt
  if s.exts ≠ Exts.empty then fail (.message c!"ron::value::RawValue cannot enable extensions")
  else
    let _ ← deRaw
    deEnd

/-- src/value/raw.rs:99-114 `from_ron`, `from_boxed_ron`: the text is checked and kept. -/
def rawFromRon (t : Text) : Spanned Text :=
  match spanned (rawProg (St.init t)) with
  | .ok _ => .ok t
  | .error e => .error e

/-- src/value/raw.rs:44-56 `trim_range_inner`: the offsets at which the trimmed text begins and ends. -/
def trimRangeInner (t : Text) : P (Nat × Nat) := do
  deNew {}
  skipWs
  let a ← getSt
  deIgnored
  skipWs
  let b ← getSt
  pure (t.length - a.rest.length, t.length - b.preWs.length)

/-- src/value/raw.rs:43-59 `trim_range`: `expect` panics. -/
def trimRange (t : Text) : Except Err (Nat × Nat) :=
  match trimRangeInner t (St.init t) with
  | .ok r _ => .ok r
  | .err _ _ => .error .panic

/-- src/value/raw.rs:142-144 `trim`: the slice panics if its end is before its start. -/
def rawTrim (t : Text) : Except Err Text :=
  match trimRange t with
  | .ok (a, b) => if a ≤ b ∧ b ≤ t.length then .ok ((t.take b).drop a) else .error .panic
  | .error e => .error e

/-- src/value/raw.rs:150-160 `trim_boxed`: drain everything after the range, then everything before it. -/
def rawTrimBoxed (t : Text) : Except Err Text :=
  match trimRange t with
  | .ok (a, b) =>
    if b ≤ t.length then
      let t := t.take b
      if a ≤ t.length then .ok (t.drop a) else .error .panic
    else .error .panic
  | .error e => .error e

/-- src/value/raw.rs:126-128 `into_rust`. -/
def rawIntoRust {α : Type} (f : P α) (t : Text) : Spanned α := fromStr {} f t

/-- src/value/raw.rs:131-135 `from_rust`. -/
def rawFromRust (v : SVal) : Except Err Text := toText {} none v

end Ron
