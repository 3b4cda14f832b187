import Verif.Model.Ser
/-! Lemmas about serializer actions with a writer that never fails. -/

set_option linter.unusedSimpArgs false

namespace Ron

@[simp] theorem wbind_apply {α β : Type} (f : W α) (g : α → W β) (s : Ser) :
    (f >>= g) s = match f s with | .ok a s' => g a s' | .err e s' => .err e s' := rfl
@[simp] theorem wpure_apply {α : Type} (a : α) (s : Ser) : (pure a : W α) s = .ok a s := rfl
@[simp] theorem wfail_apply {α : Type} (e : Err) (s : Ser) : (wfail e : W α) s = .err e s := rfl
@[simp] theorem wget_apply (s : Ser) : wget s = .ok s s := rfl
@[simp] theorem wmod_apply (f : Ser → Ser) (s : Ser) : wmod f s = .ok () (f s) := rfl
@[simp] theorem ite_W {α : Type} (c : Prop) [Decidable c] (f g : W α) (s : Ser) :
    (if c then f else g) s = if c then f s else g s := by split <;> rfl

/-- The writer never fails. -/
def Ser.Quiet (s : Ser) : Prop := s.w.fault = fun _ _ => none

/-- Append to the output. -/
def Ser.put (s : Ser) (t : Text) : Ser := { s with w := { s.w with out := s.w.out ++ t } }

@[simp] theorem Ser.put_pretty (s : Ser) (t : Text) : (s.put t).pretty = s.pretty := rfl
@[simp] theorem Ser.put_dflt (s : Ser) (t : Text) : (s.put t).defaultExtensions = s.defaultExtensions := rfl
@[simp] theorem Ser.put_isEmpty (s : Ser) (t : Text) : (s.put t).isEmpty = s.isEmpty := rfl
@[simp] theorem Ser.put_nv (s : Ser) (t : Text) : (s.put t).nv = s.nv := rfl
@[simp] theorem Ser.put_limit (s : Ser) (t : Text) : (s.put t).limit = s.limit := rfl
@[simp] theorem Ser.put_isd (s : Ser) (t : Text) : (s.put t).isd = s.isd := rfl
@[simp] theorem Ser.put_out (s : Ser) (t : Text) : (s.put t).w.out = s.w.out ++ t := rfl
@[simp] theorem Ser.put_put (s : Ser) (t u : Text) : (s.put t).put u = s.put (t ++ u) := by
  simp [Ser.put]
@[simp] theorem Ser.put_nil (s : Ser) : s.put [] = s := by
  simp [Ser.put]
@[simp] theorem Ser.put_numberSuffixes (s : Ser) (t : Text) : (s.put t).numberSuffixes = s.numberSuffixes := rfl
@[simp] theorem Ser.put_extensions (s : Ser) (t : Text) : (s.put t).extensions = s.extensions := rfl
@[simp] theorem Ser.put_structNames (s : Ser) (t : Text) : (s.put t).structNames = s.structNames := rfl
@[simp] theorem Ser.put_escapeStrings (s : Ser) (t : Text) : (s.put t).escapeStrings = s.escapeStrings := rfl
@[simp] theorem Ser.put_compactArrays (s : Ser) (t : Text) : (s.put t).compactArrays = s.compactArrays := rfl
@[simp] theorem Ser.put_compactMaps (s : Ser) (t : Text) : (s.put t).compactMaps = s.compactMaps := rfl
@[simp] theorem Ser.put_compactStructs (s : Ser) (t : Text) : (s.put t).compactStructs = s.compactStructs := rfl
@[simp] theorem Ser.put_compactRanges (s : Ser) (t : Text) : (s.put t).compactRanges = s.compactRanges := rfl
@[simp] theorem Ser.put_separateTupleMembers (s : Ser) (t : Text) :
    (s.put t).separateTupleMembers = s.separateTupleMembers := rfl

theorem Ser.Quiet.put {s : Ser} (h : s.Quiet) (t : Text) : (s.put t).Quiet := h

theorem write_quiet {s : Ser} (h : s.Quiet) (t : Text) : write t s = .ok () (s.put t) := by
  unfold write
  unfold Ser.Quiet at h
  rw [h]; rfl

theorem writeAll_quiet {s : Ser} (h : s.Quiet) (ts : List Text) : writeAll ts s = .ok () (s.put ts.flatten) := by
  induction ts generalizing s with
  | nil => simp [writeAll]
  | cons t ts ih => simp [writeAll, write_quiet h, ih (h.put t)]

/-- Writing text conditionally. -/
theorem writeIf_quiet {s : Ser} (h : s.Quiet) (c : Prop) [Decidable c] (t : Text) :
    (if c then write t else pure ()) s = .ok () (s.put (if c then t else [])) := by
  split <;> simp [write_quiet h]

/-- The action succeeds and appends exactly `w` to the output. -/
def Emits (f : W Unit) (s : Ser) (w : Text) : Prop := ∃ s', f s = .ok () s' ∧ s'.w.out = s.w.out ++ w

theorem Emits.of {f : W Unit} {s : Ser} {w : Text} (h : f s = .ok () (s.put w)) : Emits f s w := ⟨_, h, rfl⟩

end Ron
