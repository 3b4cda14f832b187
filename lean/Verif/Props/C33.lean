import Verif.Lemmas.Docs
import Verif.Lemmas.TyDoc
import Verif.Lemmas.Witness
import Verif.Lemmas.Deq
/-! C33: documentation metadata adds comments only and is preserved. -/

set_option linter.unusedSectionVars false

namespace Ron

section
variable [Env]

theorem toWriter_docs (o : Options) (c : PrettyConfig) (v : SVal) :
    Both c c.pathMeta (docsOf c.compactStructs c.compactRanges c.pathMeta v) (toWriter o (some c) {} v)
      (toWriter o (some { c with pathMeta := none }) {} v) :=
  (Sim.bind (d := []) (sim_walk0 c c.pathMeta).serNew fun _ => ser_sim c v c.pathMeta) [] _ _
    ⟨rfl, ⟨0, rfl⟩, [], .nil, rfl⟩

/-- With and without metadata serialization succeeds or fails in the same way, and the only difference in the output are the
documentation lines of the fields, in the order of the fields. -/
theorem C33_comments_only (o : Options) (c : PrettyConfig) (v : SVal) :
    (∃ t t', toText o (some c) v = .ok t ∧ toText o (some { c with pathMeta := none }) v = .ok t' ∧
      Commented c.indentor (docsOf c.compactStructs c.compactRanges c.pathMeta v) t' t) ∨
    ∃ e, toText o (some c) v = .error e ∧ toText o (some { c with pathMeta := none }) v = .error e := by
  rcases (toWriter_docs o c v).ok_inv with ⟨a, s, t, e1, e2, h⟩ | ⟨e, s, t, e1, e2⟩
  · obtain ⟨u, hu, ht⟩ := h.same
    refine .inl ⟨s.w.out, t.w.out, by simp [toText, e1], by simp [toText, e2], ?_⟩
    rw [ht]
    exact hu
  · exact .inr ⟨e, by simp [toText, e1], by simp [toText, e2]⟩

/-- Typed data is read back the same with and without metadata. -/
theorem C33_data (o : Options) (c : PrettyConfig) (D : Nat → Ty) (n f : Nat) (T : Ty) (v : SVal) (t : Text)
    (hT : HasTy D n T v) (hf : n ≤ f) (hv : v.Clean (rgOf o (some c)) (wxOf o (some c)))
    (hk : ∀ m, o.recursionLimit = some m → v.cost ≤ m) (h : toText o (some c) v = .ok t) :
    ∃ t', toText o (some { c with pathMeta := none }) v = .ok t' ∧
      fromStr o (deTy D f T) t = .ok v ∧ fromStr o (deTy D f T) t' = .ok v := by
  rcases C33_comments_only o c v with ⟨t1, t', e1, e2, -⟩ | ⟨e, e1, -⟩
  · rw [h] at e1
    cases e1
    refine ⟨t', e2, ?_, ?_⟩
    · simpa using typed_reads hT hf hv hk h [] [] .nil .nil
    · simpa using typed_reads hT hf (cfg := some { c with pathMeta := none }) hv hk e2 [] [] .nil .nil
  · rw [h] at e1; cases e1

/-- After a value has been serialized the serializer has the same configuration, metadata included, as before. -/
theorem C33_preserved (o : Options) (c : PrettyConfig) (v : SVal) (s : Ser) (h : toWriter o (some c) {} v = .ok () s) :
    ∃ i, s.pretty = some (c, i) := by
  rcases (toWriter_docs o c v).ok_inv with ⟨a, s, t, e1, e2, ht⟩ | ⟨e, s, t, e1, e2⟩
  · rw [h] at e1
    cases e1
    exact ht.conf
  · rw [h] at e1; cases e1

end

/-- Metadata for the fields `a` and `a.b`. -/
def exMeta : MetaField :=
  ⟨c!"", some fun k => if k == c!"a" then some ⟨c!"first\nsecond", some fun k => if k == c!"b" then some ⟨c!"inner", none⟩ else none⟩ else none⟩

/-- Two documented fields. -/
example : ∃ _ : Env,
    toText {} (some { pathMeta := some exMeta }) (.struct c!"S" [(c!"a", .struct c!"T" [(c!"b", .bool true)]), (c!"c", .unit)]) =
      .ok c!"(\n    /// first\n    /// second\n    a: (\n        /// inner\n        b: true,\n    ),\n    c: (),\n)" ∧
    docsOf false false (some exMeta) (.struct c!"S" [(c!"a", .struct c!"T" [(c!"b", .bool true)]), (c!"c", .unit)]) =
      [c!"first", c!"second", c!"inner"] := by
  refine ⟨asciiEnv true true, ?_⟩
  let _ : Env := asciiEnv true true
  exact ⟨by decide +kernel, by decide +kernel⟩

end Ron
