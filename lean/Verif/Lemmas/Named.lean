import Verif.Lemmas.SerRend
import Verif.Lemmas.SerOk
import Verif.Lemmas.Docs
/-! Serialization that succeeds has checked every name. -/

set_option linter.unusedSimpArgs false
set_option linter.unusedSectionVars false

namespace Ron

variable [Env]

/-- If the action succeeds, then `P`. -/
def Says {α : Type} (P : Prop) (f : W α) : Prop := ∀ s a s', f s = .ok a s' → P

namespace Says
variable {α β : Type} {P Q : Prop}

theorem left {f : W α} {g : α → W β} (h : Says P f) : Says P (f >>= g) := by
  intro s b s' e
  obtain ⟨a, s1, h1, -⟩ := wbind_ok e
  exact h _ _ _ h1
theorem right {f : W α} {g : α → W β} (h : ∀ a, Says P (g a)) : Says P (f >>= g) := by
  intro s b s' e
  obtain ⟨a, s1, -, h1⟩ := wbind_ok e
  exact h _ _ _ _ h1
theorem both {f : W α} (h : Says P f) (h' : Says Q f) : Says (P ∧ Q) f := fun s a s' e => ⟨h s a s' e, h' s a s' e⟩
theorem triv {f : W α} (h : P) : Says P f := fun _ _ _ _ => h
theorem imp {f : W α} (h : Says P f) (i : P → Q) : Says Q f := fun s a s' e => i (h s a s' e)
theorem ite {b : Prop} [Decidable b] {f g : W α} (hf : Says P f) (hg : Says P g) : Says P (if b then f else g) := by
  split <;> assumption
theorem guardQ {f : W α} (h : Says P f) : Says P (guardQ f) := by
  intro s a s' e
  obtain ⟨m, m', s2, h1, -⟩ := guardQ_inv e
  exact h _ _ _ h1
theorem guardR {f : W α} (h : Says P f) : Says P (guardR f) := by
  intro s a s' e
  obtain ⟨m, m', s2, h1, -⟩ := guardR_inv e
  exact h _ _ _ h1
theorem drop {f : W α} (h : Says P f) : Says P (dropCompound f) := by
  intro s a s' e
  unfold dropCompound at e
  cases hf : f s with
  | ok b s2 => exact h _ _ _ hf
  | err e' s2 => rw [hf] at e; cases e

theorem validate (n : Text) : Says (RawName n) (validateIdentifier n) := fun _ _ _ h => (validateIdentifier_inv h).1
theorem ident (n : Text) : Says (RawName n) (writeIdentifier n) := .left (.validate n)
theorem name (n : Text) : Says (RawName n) (structName n) := .right fun _ => .ite (.ident n) (.validate n)

end Says

theorem rawName_known {n : Text} (h : n ≠ []) (ha : n.all (fun c => c.toNat < 128 && isAsciiAlpha c) = true) : RawName n := by
  refine ⟨h, fun c hc => ?_⟩
  have h1 := List.all_eq_true.mp ha c hc
  simp only [Bool.and_eq_true, decide_eq_true_eq] at h1
  simp [isIdentRaw, Env.xidCont_ascii c h1.1, h1.2]

theorem Says.field (c : Comp) (k : Text) {P : Prop} {f : W Unit} (h : Says P f) : Says (RawName k ∧ P) (fieldPlain c k f) := by
  unfold fieldPlain
  refine .right fun _ => .right fun s => ?_
  simp only [ite_seq]
  refine .right fun _ => .right fun _ => .both (.left (.ident k)) (.right fun _ => .right fun _ => .right fun _ => .left (.guardQ h))

theorem expectedKey_raw {r : RangeC} (h : ¬ (r.first.isSome && decide (r.maxFields < 2)) = true) : RawName r.expectedKey := by
  rcases r with ⟨kind, first, second, fb⟩
  cases kind <;> cases first <;> simp [RangeC.maxFields] at h <;>
    exact rawName_known (by simp [RangeC.expectedKey]) (by simp [RangeC.expectedKey]; try decide)

theorem Says.structField (c : Comp) (k : Text) {v : SVal} (h : Says v.Named (ser v)) :
    Says (RawName k ∧ v.Named) (structField c k v.asNumber (ser v)) := by
  unfold Ron.structField
  split
  · exact .field _ _ h
  · refine .ite (.field _ _ h) ?_
    split
    · next n hn =>
      obtain rfl := asNumber_inv hn
      by_cases hc : (decide (k ≠ (‹RangeC›).expectedKey) || (‹RangeC›).first.isSome && decide ((‹RangeC›).maxFields < 2) || (‹RangeC›).second.isSome) = true
      · rw [if_pos hc]
        exact .right fun _ => .field _ _ h
      · rw [if_neg hc]
        simp only [Bool.or_eq_true, decide_eq_true_eq, not_or, Decidable.not_not] at hc
        refine .triv ⟨?_, by simp [SVal.Named]⟩
        rw [hc.1.1]
        exact expectedKey_raw hc.1.2
    · exact .right fun _ => .field _ _ h

theorem rangeKind_raw {n : Text} {l : Nat} {k : RangeKind} (h : rangeKindOf n l = some k) : RawName n := by
  rcases rangeKindOf_one h with ⟨-, ⟨-, rfl⟩ | ⟨-, rfl⟩⟩ | ⟨-, ⟨-, rfl⟩ | ⟨-, rfl⟩ | ⟨-, rfl⟩⟩ <;>
    exact rawName_known (by simp) (by decide)

mutual
theorem ser_says : ∀ v : SVal, Says v.Named (ser v)
  | .bool _ => .triv (by simp [SVal.Named])
  | .num _ => .triv (by simp [SVal.Named])
  | .char _ => .triv (by simp [SVal.Named])
  | .str _ => .triv (by simp [SVal.Named])
  | .bytes _ => .triv (by simp [SVal.Named])
  | .none => .triv (by simp [SVal.Named])
  | .unit => .triv (by simp [SVal.Named])
  | .raw _ => .triv (by simp [SVal.Named])
  | .some v => by
    have ih := ser_says v
    unfold ser SVal.Named
    exact .right fun _ => .ite (.right fun _ => .left (.guardQ ih)) (.right fun _ => .right fun _ => .left (.guardQ ih))
  | .unitStruct n => by
    unfold ser SVal.Named
    refine .right fun s => ?_
    by_cases h : (s.compactRanges && n == c!"RangeFull") = true
    · rw [if_pos h]
      have : n = c!"RangeFull" := by simp at h; exact h.2
      subst this
      exact .triv (rawName_known (by simp) (by decide))
    · rw [if_neg h]
      exact .ite (.ident n) (.left (.validate n))
  | .unitVariant n m => by
    unfold ser SVal.Named
    exact .both (.left (.validate n)) (.right fun _ => .ident m)
  | .newtypeStruct n v => by
    have ih := ser_says v
    unfold ser SVal.Named
    unfold serNewtypeStruct
    simp only [ite_seq2]
    exact .right fun _ => .ite (.right fun _ => .both (.left (.validate n)) (.right fun _ => .guardR ih))
      (.both (.left (.ite (.ident n) (.validate n))) (.right fun _ => .right fun _ => .right fun _ => .left (.guardQ ih)))
  | .newtypeVariant n m v => by
    have ih := ser_says v
    unfold ser SVal.Named
    exact .both (.left (.validate n)) (.right fun _ => .both (.left (.ident m)) (.right fun _ => .right fun _ => .right fun _ => .left (.guardQ ih)))
  | .seq _ vs => by
    have ih := seq_says vs
    unfold ser SVal.Named
    exact .right fun _ => .drop (.left (ih _))
  | .tuple vs => by
    have ih := tuple_says vs
    unfold ser SVal.Named
    exact .right fun _ => .drop (.left (ih _))
  | .tupleStruct n vs => by
    have ih := tuple_says vs
    unfold ser SVal.Named
    exact .both (.left (.name n)) (.right fun _ => .right fun _ => .drop (.left (ih _)))
  | .tupleVariant n m vs => by
    have ih := tuple_says vs
    unfold ser SVal.Named
    exact .both (.left (.right fun _ => .left (.validate n))) (.both (.left (.right fun _ => .right fun _ => .left (.ident m)))
      (.right fun _ => .drop (.left (ih _))))
  | .map _ kvs => by
    have ih := map_says kvs
    unfold ser SVal.Named
    exact .right fun _ => .drop (.left (ih _))
  | .struct n fs => by
    have ih := fields_says fs
    unfold ser SVal.Named
    refine .both (.left ?_) (.right fun _ => .drop (.left (ih _)))
    unfold structOpen
    refine .right fun s => ?_
    split
    · next h => exact .triv (rangeKind_raw h)
    · unfold structOpenPlain
      simp only [ite_seq2]
      refine .right fun _ => .right fun _ => ?_
      intro s a s' e
      split at e
      · exact (Says.left (.validate n)) _ _ _ e
      · exact (Says.left (.ite (.ident n) (.validate n))) _ _ _ e
  | .structVariant n m fs => by
    have ih := fields_says fs
    unfold ser SVal.Named
    exact .both (.left (.right fun _ => .left (.validate n))) (.both (.left (.right fun _ => .right fun _ => .left (.ident m)))
      (.right fun _ => .drop (.left (ih _))))
theorem seq_says : ∀ vs : List SVal, ∀ c, Says (NamedAll vs) (serSeq c vs)
  | [], c => .triv (by simp [NamedAll])
  | v :: vs, c => by
    have h1 := ser_says v
    have h2 := seq_says vs
    unfold serSeq NamedAll
    refine .both (.left ?_) (.right fun _ => h2 _)
    unfold seqElement
    refine .right fun _ => ?_
    simp only [ite_seq, ite_seq2]
    exact .right fun _ => .right fun _ => .right fun _ => .left (.guardQ h1)
theorem tuple_says : ∀ vs : List SVal, ∀ c, Says (NamedAll vs) (serTuple c vs)
  | [], c => .triv (by simp [NamedAll])
  | v :: vs, c => by
    have h1 := ser_says v
    have h2 := tuple_says vs
    unfold serTuple NamedAll
    refine .both (.left ?_) (.right fun _ => h2 _)
    unfold tupleElement
    refine .right fun _ => ?_
    simp only [ite_seq, ite_seq2]
    exact .right fun _ => .right fun _ => .left (.guardQ h1)
theorem map_says : ∀ kvs : List (SVal × SVal), ∀ c, Says (NamedEntries kvs) (serMap c kvs)
  | [], c => .triv (by simp [NamedEntries])
  | (k, v) :: kvs, c => by
    have h1 := ser_says k
    have h1' := ser_says v
    have h2 := map_says kvs
    unfold serMap NamedEntries
    refine .both (.left ?_) (.right fun _ => h2 _)
    unfold mapEntry
    refine .right fun _ => ?_
    simp only [ite_seq, ite_seq2]
    exact .right fun _ => .right fun _ => .both (.left (.guardR h1)) (.right fun _ => .right fun _ => .right fun _ => .left (.guardQ h1'))
theorem fields_says : ∀ fs : List (Text × SVal), ∀ c, Says (NamedFields fs) (serFields c fs)
  | [], c => .triv (by simp [NamedFields])
  | (k, v) :: fs, c => by
    have h1 := ser_says v
    have h2 := fields_says fs
    unfold serFields NamedFields
    exact .both (.left (.structField _ _ h1)) (.right fun _ => h2 _)
end

/-- Data that was serialized has valid names. -/
theorem toText_named {o : Options} {cfg : Option PrettyConfig} {v : SVal} {t : Text} (h : toText o cfg v = .ok t) : v.Named := by
  unfold toText at h
  cases hw : toWriter o cfg {} v with
  | ok a s => exact (Says.right fun _ => ser_says v) _ _ _ hw
  | err e s => rw [hw] at h; cases h

end Ron
