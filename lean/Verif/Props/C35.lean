import Verif.Model.Ser
/-!
# C35: the option builders are independent switches
-/

namespace Ron

/-- A builder call. -/
inductive OptOp
  | add (e : Exts)
  | remove (e : Exts)
  | limit (n : Nat)
  | noLimit

/-- What the builder does. -/
def OptOp.apply (o : Options) : OptOp → Options
  | .add e => o.withDefaultExtension e
  | .remove e => o.withoutDefaultExtension e
  | .limit n => o.withRecursionLimit n
  | .noLimit => o.withoutRecursionLimit

/-- The four flags. -/
inductive Flag
  | unwrapNewtypes | implicitSome | unwrapVariantNewtypes | explicitStructNames

/-- Is the flag in the set? -/
def Flag.on (e : Exts) : Flag → Bool
  | .unwrapNewtypes => e.unwrapNewtypes
  | .implicitSome => e.implicitSome
  | .unwrapVariantNewtypes => e.unwrapVariantNewtypes
  | .explicitStructNames => e.explicitStructNames

theorem Flag.on_union (f : Flag) (a b : Exts) : f.on (a.union b) = (f.on a || f.on b) := by cases f <;> rfl
theorem Flag.on_diff (f : Flag) (a b : Exts) : f.on (a.inter b.compl) = (f.on a && !f.on b) := by cases f <;> rfl

/-- Specification: what a call says about a flag. -/
def OptOp.says (f : Flag) : OptOp → Option Bool
  | .add e => if f.on e then some true else none
  | .remove e => if f.on e then some false else none
  | _ => none

/-- Specification: what a call says about the limit. -/
def OptOp.saysLimit : OptOp → Option (Option Nat)
  | .limit n => some (some n)
  | .noLimit => some none
  | _ => none

/-- After any sequence of builder calls a default extension is set exactly if the last call that mentions it added
it, or no call mentions it and it was set before. -/
theorem C35_extensions (ops : List OptOp) (o : Options) (f : Flag) :
    f.on (ops.foldl OptOp.apply o).defaultExtensions =
      (ops.reverse.findSome? (OptOp.says f)).getD (f.on o.defaultExtensions) := by
  induction ops generalizing o with
  | nil => rfl
  | cons op ops ih =>
    rw [List.foldl_cons, ih, List.reverse_cons, List.findSome?_append]
    cases h : ops.reverse.findSome? (OptOp.says f) with
    | some b => rfl
    | none =>
      cases op with
      | add e =>
        show (f.on (o.defaultExtensions.union e)) = ([OptOp.add e].findSome? (OptOp.says f)).getD _
        rw [Flag.on_union, List.findSome?_cons, OptOp.says]
        by_cases he : f.on e = true
        · rw [if_pos he, he]; simp
        · rw [if_neg he, Bool.eq_false_iff.mpr he]; simp
      | remove e =>
        show (f.on (o.defaultExtensions.inter e.compl)) = ([OptOp.remove e].findSome? (OptOp.says f)).getD _
        rw [Flag.on_diff, List.findSome?_cons, OptOp.says]
        by_cases he : f.on e = true
        · rw [if_pos he, he]; simp
        · rw [if_neg he, Bool.eq_false_iff.mpr he]; simp
      | limit n => rfl
      | noLimit => rfl

/-- The recursion limit is the last one set (or cleared). -/
theorem C35_limit (ops : List OptOp) (o : Options) :
    (ops.foldl OptOp.apply o).recursionLimit = (ops.reverse.findSome? OptOp.saysLimit).getD o.recursionLimit := by
  induction ops generalizing o with
  | nil => rfl
  | cons op ops ih =>
    rw [List.foldl_cons, ih, List.reverse_cons, List.findSome?_append]
    cases ops.reverse.findSome? OptOp.saysLimit with
    | some b => rfl
    | none => cases op <;> rfl

/-- Defaults: limit 128, no extension. -/
theorem C35_default : ({} : Options).recursionLimit = some 128 ∧ ∀ f : Flag, f.on ({} : Options).defaultExtensions = false :=
  ⟨rfl, fun f => by cases f <;> rfl⟩

/-- Non-vacuity: a flag added twice and removed in between, with a limit change mixed in. -/
example : Flag.implicitSome.on ([OptOp.add { implicitSome := true, unwrapNewtypes := true }, .limit 5,
    .remove { implicitSome := true }, .noLimit].foldl OptOp.apply {}).defaultExtensions = false ∧
    ([OptOp.add { implicitSome := true, unwrapNewtypes := true }, .limit 5,
    .remove { implicitSome := true }, .noLimit].reverse.findSome? (OptOp.says .unwrapNewtypes)) = some true := by
  decide

end Ron
