import Verif.Lemmas.SafeDoc
import Verif.Lemmas.Deq
/-!
# C26: error spans lie inside the source

The second half of the property (the start is not after the end) is false of the code: `C26_order_fails`.
-/

namespace Ron

/-- A position of a text: the line and column after one of its prefixes. -/
def Position.Of (t : Text) (p : Position) : Prop := ∃ a, a <+: t ∧ p = Position.fromSrcEnd a

variable [Env]

/-- Both ends of the span of an error are positions of the source: for self-describing data with any options, and for data
of any type.  Missing: that the start is not after the end (which is false, see below). -/
theorem C26_partial (o : Options) (t : Text) (e : Err) (sp : Span) :
    (fromStr o deValue t = .error (e, sp) → sp.start.Of t ∧ sp.stop.Of t) ∧
    (∀ D n T, fromStr o (deTy D n T) t = .error (e, sp) → sp.start.Of t ∧ sp.stop.Of t) := by
  constructor
  · intro h
    obtain ⟨-, -, p, q, hp, hq, rfl⟩ := fromStr_out (φ := True) Tame.value h
    exact ⟨⟨p, hp, rfl⟩, q, hq, rfl⟩
  · intro D n T h
    obtain ⟨-, -, p, q, hp, hq, rfl⟩ := fromStr_out Tame.ty' h
    exact ⟨⟨p, hp, rfl⟩, q, hq, rfl⟩

/-- The same for bytes: the span lies in the decoded text, or, if the bytes are not UTF-8, runs from the start to the end of
the valid prefix. -/
theorem C26_bytes_partial (o : Options) (bs : List UInt8) (e : Err) (sp : Span) (h : fromBytes o deValue bs = .error (e, sp)) :
    (∃ t, utf8Dec bs = some t ∧ sp.start.Of t ∧ sp.stop.Of t) ∨
    (utf8Dec bs = none ∧ sp.start = ⟨1, 1⟩ ∧ sp.stop.Of (utf8ValidPrefix bs)) := by
  unfold fromBytes at h
  cases hd : utf8Dec bs with
  | some t =>
    rw [hd] at h
    exact .inl ⟨t, rfl, (C26_partial o t e sp).1 h⟩
  | none =>
    rw [hd] at h
    simp only [Except.error.injEq, Prod.mk.injEq] at h
    obtain ⟨-, rfl⟩ := h
    exact .inr ⟨rfl, rfl, _, List.prefix_refl _, rfl⟩

/-- Non-vacuity, and a check of the numbers: the stray comma on line 2 is reported there. -/
example : let _ := asciiEnv true true
    ∃ e, fromStr {} deValue c!"[1,\n ,2]" = .error (e, ⟨⟨2, 2⟩, ⟨2, 2⟩⟩) := by
  refine ⟨.unexpectedChar ',', ?_⟩
  decide +kernel

omit [Env] in
/-- The start can be after the end: when struct look-ahead ran to the end of the input, the start stays there. -/
theorem C26_order_fails : ∃ (_ : Env) (t : Text) (e : Err) (sp : Span), fromStr {} deValue t = .error (e, sp) ∧
    sp.start.line = sp.stop.line ∧ sp.stop.col < sp.start.col := by
  let _ : Env := asciiEnv true true
  refine ⟨inferInstance, c!"#![enable(unwrap_variant_newtypes)] Some(&&&)", .unexpectedChar '&', ⟨⟨1, 45⟩, ⟨1, 42⟩⟩, ?_, rfl, by decide⟩
  decide +kernel

omit [Env] in
/-- It also happens for typed integers with a leading underscore and a suffix: after the suffix was looked at, the error is raised
back at the first digit. -/
theorem C26_order_fails_int : ∃ (_ : Env) (t : Text) (e : Err) (sp : Span), fromStr {} (deTy (fun _ => .unit) 1 (.int .u8)) t = .error (e, sp) ∧
    sp.start.line = sp.stop.line ∧ sp.stop.col < sp.start.col := by
  let _ : Env := asciiEnv true true
  refine ⟨inferInstance, c!"_1u8", .underscoreAtBeginning, ⟨⟨1, 3⟩, ⟨1, 1⟩⟩, ?_, rfl, by decide⟩
  decide +kernel

end Ron
