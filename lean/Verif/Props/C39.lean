import Verif.Lemmas.SafeDoc
import Verif.Lemmas.FrameDe
import Verif.Lemmas.DeAny
import Verif.Lemmas.Deq
/-!
# C39: struct look-ahead is side-effect free

That it does not depend on comments is false of the code in the mode that counts elements (`C39_comment_counts`), which is used
inside of unwrapped newtype variants.
-/

namespace Ron

variable [Env]

/-- The look-ahead does not move the reading position, nor anything else that later reading depends on.  Missing from the
property: that the result does not depend on layout (false, see below; what holds is `C39_open_partial`, `C39_name_partial`). -/
theorem C39_partial (nm : NewtypeMode) (tm : TupleMode) (s : St) (hi : s.Inside) (k : StructType) (s' : St)
    (h : checkStructType nm tm s = .ok k s') :
    s'.rest = s.rest ∧ s'.src = s.src ∧ s'.exts = s.exts ∧ s'.nv = s.nv ∧ s'.limit = s.limit ∧ s'.lastIdent = s.lastIdent ∧ s'.Inside := by
  have := checkStructType_out nm tm hi
  rw [h] at this
  obtain ⟨a, b⟩ := this
  exact ⟨b, a.src, a.exts, a.nv, a.limit, a.lastIdent, a.inside⟩

/-- The result depends only on the text from the cursor on: two readers at the same remaining text see the same kind of
struct (or the same error). -/
theorem C39_local_partial (nm : NewtypeMode) (tm : TupleMode) (s s' : St) (h : Eqv SL s s') :
    Same (checkStructType nm tm s) (checkStructType nm tm s') := (Fr.checkStructType nm tm s s' h).same

/-- Layout after the opening parenthesis (or at the start of the contents of a newtype variant) does not matter. -/
theorem C39_open_partial (tm : TupleMode) (s s' : St) (l r : Text) (hl : Layout l) (he : s.exts = s'.exts) (hn : s.nv = s'.nv)
    (hm : s.limit = s'.limit) (hi : s.lastIdent = s'.lastIdent) :
    (s.rest = '(' :: (l ++ r) → s'.rest = '(' :: r →
      (∀ k, (∃ t, checkStructType .noParensMeanUnit tm s = .ok k t) ↔ ∃ t, checkStructType .noParensMeanUnit tm s' = .ok k t)) ∧
    (s.rest = l ++ r → s'.rest = r →
      (∀ k, (∃ t, checkStructType .insideNewtype tm s = .ok k t) ↔ ∃ t, checkStructType .insideNewtype tm s' = .ok k t)) := by
  have fin : ∀ {nm : NewtypeMode} {s s' : St}, Same (checkStructTypeInner nm tm s) (checkStructTypeInner nm tm s') →
      ∀ k, (∃ t, checkStructType nm tm s = .ok k t) ↔ ∃ t, checkStructType nm tm s' = .ok k t := by
    intro nm s s' h k
    have e : ∀ s, checkStructType nm tm s = match checkStructTypeInner nm tm s with
        | .ok a t => .ok a { t with rest := s.rest, preWs := s.preWs, lastWs := s.lastWs }
        | .err e t => .err e t := by
      intro s
      unfold checkStructType
      simp only [bind_apply, cursor_apply]
      cases checkStructTypeInner nm tm s <;> rfl
    rw [e, e]
    revert h
    cases checkStructTypeInner nm tm s <;> cases checkStructTypeInner nm tm s' <;> intro h
    · obtain ⟨rfl, -⟩ := h
      exact ⟨fun ⟨t, h⟩ => by cases h; exact ⟨_, rfl⟩, fun ⟨t, h⟩ => by cases h; exact ⟨_, rfl⟩⟩
    · exact h.elim
    · exact h.elim
    · exact ⟨(fun ⟨t, h⟩ => nomatch h), (fun ⟨t, h⟩ => nomatch h)⟩
  constructor
  · intro h1 h2
    refine fin ?_
    unfold checkStructTypeInner
    have c1 : consumeChar '(' s = .ok true { s with prev := s.rest, rest := l ++ r } := consumeChar_true h1
    have c2 : consumeChar '(' s' = .ok true { s' with prev := s'.rest, rest := r } := consumeChar_true h2
    rw [bind_apply, bind_apply]
    simp only [↓reduceIte, c1, c2, Bool.not_true, Bool.false_eq_true]
    refine Same.bind (f := skipWs) (f' := skipWs) (skipWs_more hl rfl he hn hm hi) fun _ => ?_
    repeat fr_step
  · intro h1 h2
    refine fin ?_
    unfold checkStructTypeInner
    rw [bind_apply, bind_apply]
    simp only [reduceCtorEq, ↓reduceIte, pure_apply, Bool.not_true, Bool.false_eq_true]
    refine Same.bind (f := skipWs) (f' := skipWs) (skipWs_more hl (by rw [h1, h2]) he hn hm hi) fun _ => ?_
    repeat fr_step

/-- Named and empty structs are recognized as such whatever layout stands before or after the first field name, in both modes. -/
theorem C39_name_partial (tm : TupleMode) (s : St) (l1 l2 name tok r : Text) (h1 : Layout l1) (h2 : Layout l2) (hn : NameTok name tok) :
    (s.rest = '(' :: (l1 ++ (tok ++ (l2 ++ ':' :: r))) → ∃ t, checkStructType .noParensMeanUnit tm s = .ok .named t) ∧
    (s.rest = '(' :: (l1 ++ ')' :: r) → ∃ t, checkStructType .noParensMeanUnit tm s = .ok .emptyTuple t) ∧
    (startsWith s.rest ['('] = false → ∃ t, checkStructType .noParensMeanUnit tm s = .ok .unit t) := by
  refine ⟨fun h => ?_, fun h => ?_, fun h => ?_⟩
  · obtain ⟨t, h, -⟩ := struct_named (tm := tm) hn.keyTok h h1 h2; exact ⟨t, h⟩
  · obtain ⟨t, h, -⟩ := struct_empty (tm := tm) h h1; exact ⟨t, h⟩
  · obtain ⟨t, h, -⟩ := struct_unit (tm := tm) h; exact ⟨t, h⟩

/-- Non-vacuity: comments around the first field name. -/
example : let _ := asciiEnv true true
    (match checkStructType .noParensMeanUnit .differentiate (St.init c!"( /* , */ a // )\n : 1)") with
      | .ok k s => decide (k = .named ∧ s.rest = c!"( /* , */ a // )\n : 1)")
      | .err _ _ => false) = true := by
  decide +kernel

omit [Env] in
/-- Counterexample to layout insensitivity: with `unwrap_variant_newtypes` a comment directly after a string that contains a comma
turns the string into a sequence of one string. -/
theorem C39_comment_counts : ∃ (_ : Env) (c : Text), Layout c ∧
    fromStr {} deValue (c!"#![enable(unwrap_variant_newtypes)] Some(\"a\"" ++ c!")") = .ok (.some (.str c!"a")) ∧
    fromStr {} deValue (c!"#![enable(unwrap_variant_newtypes)] Some(\"a\"" ++ (c ++ c!")")) = .ok (.some (.seq [.str c!"a"])) := by
  let _ : Env := asciiEnv true true
  refine ⟨inferInstance, c!"/*,*/", ?_, ?_, ?_⟩
  · exact Layout.block (b := c!",*/") (l := []) (.other (by decide) (by decide) (.closes .done)) .nil
  · decide +kernel
  · decide +kernel

end Ron
