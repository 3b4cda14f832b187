import Verif.Spec.Raw
import Verif.Model.Raw
import Verif.Lemmas.SerStep
/-!
# Writing raw values
-/

namespace Ron

variable [Env]

/-- A serializer without a configuration, outside of options, with at least two levels left. -/
structure Ser.Bare (s : Ser) : Prop where
  pretty : s.pretty = none
  quiet : s.Quiet
  isd : s.isd = 0
  limit : ∀ m, s.limit = some m → 2 ≤ m

theorem Ser.Bare.put {s : Ser} (h : s.Bare) (t : Text) : (s.put t).Bare := ⟨h.pretty, h.quiet.put t, h.isd, h.limit⟩

omit [Env] in
theorem guardR_write {s : Ser} (hq : s.Quiet) (hl : s.limit ≠ some 0) (t : Text) : guardR (write t) s = .ok () (s.put t) := by
  have e : guardR (write t) = (guardEnter >>= fun _ => dropCompound (write t)) := rfl
  rw [e, wbind_apply]
  cases s with | mk w pretty dflt isEmpty nv limit isd =>
  match limit, hl with
  | none, _ =>
    rw [show guardEnter _ = .ok () _ from rfl]
    simp only
    unfold dropCompound
    rw [write_quiet hq]
    rfl
  | some (m + 1), _ =>
    rw [show guardEnter _ = .ok () { w := w, pretty := pretty, defaultExtensions := dflt, isEmpty := isEmpty, nv := nv, limit := some m, isd := isd } from rfl]
    simp only
    unfold dropCompound
    rw [write_quiet (s := { w := w, pretty := pretty, defaultExtensions := dflt, isEmpty := isEmpty, nv := nv, limit := some m, isd := isd }) hq]
    rfl

theorem serRaw_bare {s : Ser} (hq : s.Quiet) (hi : s.isd = 0) (hl : s.limit ≠ some 0) (t : Text) : ser (.raw t) s = .ok () (s.put t) := by
  have e : ({ s with isd := 0 } : Ser) = s := by cases s; simp_all
  unfold ser serRaw openSomes closeSomes
  simp only [wbind_apply, wget_apply, wmod_apply, hi, List.replicate_zero, writeAll, wpure_apply, e, guardR_write hq hl]

theorem bare_guarded {s : Ser} (h : s.Bare) (t : Text) : guardQ (ser (.raw t)) s = .ok () (s.put t) := by
  obtain ⟨h1, h2, h3, h4⟩ := h
  cases s with | mk w pretty dflt isEmpty nv limit isd =>
  unfold guardQ guardLeave
  rw [wbind_apply]
  match limit, h4 with
  | none, h4 =>
    rw [show guardEnter _ = .ok () _ from rfl]
    simp only
    rw [wbind_apply, serRaw_bare h2 h3 (by simp)]
    rfl
  | some 0, h4 => exact absurd (h4 0 rfl) (by omega)
  | some 1, h4 => exact absurd (h4 1 rfl) (by omega)
  | some (m + 2), h4 =>
    rw [show guardEnter _ = .ok () { w := w, pretty := pretty, defaultExtensions := dflt, isEmpty := isEmpty, nv := nv, limit := some (m + 1), isd := isd } from rfl]
    simp only
    rw [wbind_apply, serRaw_bare (s := { w := w, pretty := pretty, defaultExtensions := dflt, isEmpty := isEmpty, nv := nv, limit := some (m + 1), isd := isd }) h2 h3 (by simp)]
    rfl

theorem seqElement_raw {s : Ser} (h : s.Bare) (c : Comp) (t : Text) :
    seqElement c (ser (.raw t)) s = .ok { c with rest := true } (s.put ((if c.rest then [','] else []) ++ t)) := by
  have hc : s.compactArrays = false := by unfold Ser.compactArrays; rw [h.pretty]
  have hind : ∀ s : Ser, s.Bare → indent s = .ok () s := fun s h => by
    unfold indent
    simp only [wbind_apply, wget_apply, h.pretty, wpure_apply]
  have hsep : betweenSep false s = .ok () (s.put [',']) := by
    unfold betweenSep
    simp only [wbind_apply, write_quiet h.quiet, wget_apply, Ser.put_pretty, h.pretty, wpure_apply]
  unfold seqElement
  rw [wbind_apply, wget_apply]
  simp only [hc, Bool.not_false, ↓reduceIte, h.pretty, elemIndex]
  cases hr : c.rest with
  | false =>
    simp only [Bool.false_eq_true, ↓reduceIte, wbind_apply, hind s h, wpure_apply, bare_guarded h, List.nil_append]
  | true =>
    simp only [↓reduceIte, wbind_apply, hsep, hind _ (h.put _), wpure_apply, bare_guarded (h.put _), Ser.put_put]

theorem serSeq_raw : ∀ (ts : List Text) {s : Ser} (_ : s.Bare) (c : Comp),
    ∃ c' : Comp, serSeq c (ts.map .raw) s =
      .ok c' (s.put ((if c.rest && !ts.isEmpty then [','] else []) ++ joinComma ts))
  | [], s, h, c => ⟨c, by simp [serSeq, joinComma]⟩
  | t :: ts, s, h, c => by
    obtain ⟨c', hc⟩ := serSeq_raw ts (h.put ((if c.rest then [','] else []) ++ t)) { c with rest := true }
    refine ⟨c', ?_⟩
    rw [List.map_cons]
    unfold serSeq
    simp only [wbind_apply, seqElement_raw h, hc, Ser.put_put]
    cases ts <;> simp [joinComma]

theorem seq_raw_text (o : Options) (ho : ∀ m, o.recursionLimit = some m → 2 ≤ m) (len : Option Nat) (ts : List Text) :
    toText o none (.seq len (ts.map .raw)) = .ok ('[' :: (joinComma ts ++ [']'])) := by
  have hb : (Ser.init o none {}).Bare := ⟨rfl, rfl, rfl, ho⟩
  have hopen : ∃ e, seqOpen len (Ser.init o none {}) = .ok {} { (Ser.init o none {}).put c!"[" with isEmpty := e } := by
    have hc : ∀ s : Ser, s.pretty = none → s.compactArrays = false := fun s h => by unfold Ser.compactArrays; rw [h]
    have hst : ∀ s : Ser, s.pretty = none → startIndent s = .ok () s := fun s h => by
      unfold startIndent
      simp only [wbind_apply, wget_apply, h, wpure_apply]
    have hw : write c!"[" { Ser.init o none {} with nv := false, isd := 0 } = .ok () ((Ser.init o none {}).put c!"[") :=
      write_quiet (s := { Ser.init o none {} with nv := false, isd := 0 }) hb.quiet _
    unfold seqOpen
    cases len with
    | none =>
      refine ⟨none, ?_⟩
      simp only [wbind_apply, wmod_apply, hw, wget_apply]
      rw [hc _ rfl]
      simp only [Bool.not_false, ↓reduceIte, wbind_apply, wpure_apply]
      rw [hst _ rfl]
      rfl
    | some n =>
      refine ⟨some (n == 0), ?_⟩
      simp only [wbind_apply, wmod_apply, hw, wget_apply]
      rw [hc _ rfl]
      simp only [Bool.not_false, ↓reduceIte, wbind_apply, wmod_apply]
      rw [hst _ rfl]
      rfl
  obtain ⟨e, hopen⟩ := hopen
  have hb2 : ({ (Ser.init o none {}).put c!"[" with isEmpty := e } : Ser).Bare := ⟨rfl, rfl, rfl, ho⟩
  obtain ⟨c', hseq⟩ := serSeq_raw ts hb2 {}
  generalize hs : ({ (Ser.init o none {}).put c!"[" with isEmpty := e } : Ser) = s1 at hb2 hopen hseq
  have hend : ∀ s : Ser, s.Bare → seqEnd c' s = .ok () (s.put [']']) := fun s h => by
    have hc : s.compactArrays = false := by unfold Ser.compactArrays; rw [h.pretty]
    have ht : trailingComma c'.rest false s = .ok () s := by
      unfold trailingComma
      simp only [wbind_apply, wget_apply, h.pretty]
      cases c'.rest <;> rfl
    have he : endIndent s = .ok () s := by
      unfold endIndent
      simp only [wbind_apply, wget_apply, h.pretty, wpure_apply]
    unfold seqEnd
    rw [wbind_apply, wget_apply]
    simp only [hc, Bool.not_false, ↓reduceIte, wbind_apply, ht, he, write_quiet h.quiet]
  have hnew : serNew (Ser.init o none {}) = .ok () (Ser.init o none {}) := rfl
  have hfin : s1.w.out = c!"[" := by rw [← hs]; rfl
  unfold toText toWriter
  rw [wbind_apply, hnew]
  simp only
  unfold ser
  simp only [wbind_apply, hopen, dropCompound, hseq, hend _ (hb2.put _), Ser.put_put, Ser.put_out, hfin]
  simp

end Ron
