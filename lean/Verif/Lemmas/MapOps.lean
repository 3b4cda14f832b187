import Verif.Lemmas.ValueOrd
import Verif.Spec.FinMap
/-!
# `Map` operations refine operations on partial functions
-/
set_option linter.unusedSimpArgs false

namespace Ron

/-- `Map` run on an operation: the value returned and the new entries. -/
def runOp [Env] : MapOp → List (Value × Value) → Option Value × List (Value × Value)
  | .insert k v, m => mapInsert m k v
  | .remove k, m => mapRemove m k
  | .modify k f, m => (none, mapModify m k f)
  | .retain keep, m => (none, (mapRetain (fun (_ : Unit) k v => ((keep k v).1, (keep k v).2, ())) () m).1)

/-- `Map` after a sequence of operations (the last operation first) on the empty map. -/
def runOps [Env] : List MapOp → List (Value × Value)
  | [] => []
  | op :: ops => (runOp op (runOps ops)).2

/-- Keys strictly ascending. -/
def Sorted (m : List (Value × Value)) : Prop := (m.map Prod.fst).Pairwise (fun a b => a.cmp b = .lt)
/-- Keys distinct. -/
def NodupKeys (m : List (Value × Value)) : Prop := (m.map Prod.fst).Nodup

open Classical in
/-- A list without repetitions is not longer than a list that contains all its members. -/
theorem length_le_of_nodup {α : Type} (a b : List α) (ha : a.Nodup) (hab : ∀ x, x ∈ a → x ∈ b) :
    a.length ≤ b.length := by
  induction a generalizing b with
  | nil => simp
  | cons x a ih =>
    rw [List.nodup_cons] at ha
    have hx := hab x List.mem_cons_self
    have := ih (b.erase x) ha.2 fun y hy => (List.mem_erase_of_ne (by rintro rfl; exact ha.1 hy)).2
      (hab y (List.mem_cons_of_mem _ hy))
    rw [List.length_erase_of_mem hx] at this
    have : 0 < b.length := List.length_pos_of_mem hx
    simp only [List.length_cons]; omega

theorem Sorted.nodup {m : List (Value × Value)} (h : Sorted m) : NodupKeys m := by
  refine List.Pairwise.imp ?_ h
  intro a b hab he
  subst he
  rw [Value.cmp_refl] at hab; cases hab

theorem sorted_cons {k v : Value} {m : List (Value × Value)} :
    Sorted ((k, v) :: m) ↔ (∀ k' ∈ m.map Prod.fst, k.cmp k' = .lt) ∧ Sorted m := by
  simp only [Sorted, List.map_cons, List.pairwise_cons]

theorem nodup_cons {k v : Value} {m : List (Value × Value)} :
    NodupKeys ((k, v) :: m) ↔ k ∉ m.map Prod.fst ∧ NodupKeys m := by
  simp only [NodupKeys, List.map_cons, List.nodup_cons]

theorem ixGet_cons (k' v' k : Value) (m : List (Value × Value)) :
    ixGet ((k', v') :: m) k = if k'.eqv k then some v' else ixGet m k := rfl

theorem ixGet_none {m : List (Value × Value)} {k : Value} (h : k ∉ m.map Prod.fst) : ixGet m k = none := by
  induction m with
  | nil => rfl
  | cons e m ih =>
    obtain ⟨k', v'⟩ := e
    simp only [List.map_cons, List.mem_cons, not_or] at h
    rw [ixGet_cons, if_neg (by rw [Value.eqv_iff]; exact fun e => h.1 e.symm), ih h.2]

theorem ixGet_mem {m : List (Value × Value)} (hm : NodupKeys m) {k v : Value} :
    ixGet m k = some v ↔ (k, v) ∈ m := by
  induction m with
  | nil => simp [ixGet]
  | cons e m ih =>
    obtain ⟨k', v'⟩ := e
    rw [nodup_cons] at hm
    rw [ixGet_cons]
    by_cases he : k' = k
    · subst he
      rw [if_pos (Value.eqv_refl _)]
      simp only [Option.some.injEq, List.mem_cons, Prod.mk.injEq, true_and]
      constructor
      · intro h; exact .inl h.symm
      · rintro (h | h)
        · exact h.symm
        · exact absurd (List.mem_map_of_mem h) hm.1
    · rw [if_neg (by rw [Value.eqv_iff]; exact he), ih hm.2]
      simp only [List.mem_cons, Prod.mk.injEq]
      constructor
      · exact .inr
      · rintro (h | h)
        · exact absurd h.1.symm he
        · exact h

theorem ixGet_isSome {m : List (Value × Value)} {k : Value} : (ixGet m k).isSome = true ↔ k ∈ m.map Prod.fst := by
  induction m with
  | nil => simp [ixGet]
  | cons e m ih =>
    obtain ⟨k', v'⟩ := e
    rw [ixGet_cons]
    by_cases he : k' = k
    · subst he; simp [Value.eqv_refl]
    · rw [if_neg (by rw [Value.eqv_iff]; exact he), ih]
      simp only [List.map_cons, List.mem_cons]
      constructor
      · exact .inr
      · rintro (h | h)
        · exact absurd h.symm he
        · exact h

/-- On ascending keys the lookups of the two maps agree. -/
theorem btGet_eq {m : List (Value × Value)} (hm : Sorted m) (k : Value) : btGet m k = ixGet m k := by
  induction m with
  | nil => rfl
  | cons e m ih =>
    obtain ⟨k', v'⟩ := e
    rw [sorted_cons] at hm
    rw [btGet, ixGet_cons]
    cases h : k.cmp k' with
    | lt =>
      have hne : k' ≠ k := by rintro rfl; rw [Value.cmp_refl] at h; cases h
      rw [if_neg (by rw [Value.eqv_iff]; exact hne)]
      rw [ixGet_none]
      intro hk
      have := hm.1 k hk
      rw [Value.cmp_swap, h] at this; cases this
    | eq =>
      have := Value.cmp_eq h; subst this
      rw [if_pos (Value.eqv_refl _)]
    | gt =>
      have hne : k' ≠ k := by rintro rfl; rw [Value.cmp_refl] at h; cases h
      rw [if_neg (by rw [Value.eqv_iff]; exact hne)]
      exact ih hm.2

theorem ixInsert_fst (m : List (Value × Value)) (k v : Value) : (ixInsert m k v).1 = ixGet m k := by
  induction m with
  | nil => rfl
  | cons e m ih =>
    obtain ⟨k', v'⟩ := e
    rw [ixInsert, ixGet_cons]; split
    · rfl
    · exact ih

theorem btInsert_fst (m : List (Value × Value)) (k v : Value) : (btInsert m k v).1 = btGet m k := by
  induction m with
  | nil => rfl
  | cons e m ih =>
    obtain ⟨k', v'⟩ := e
    rw [btInsert, btGet]; split
    · rfl
    · rfl
    · exact ih

theorem ixRemove_fst (m : List (Value × Value)) (k : Value) : (ixRemove m k).1 = ixGet m k := by
  induction m with
  | nil => rfl
  | cons e m ih =>
    obtain ⟨k', v'⟩ := e
    rw [ixRemove, ixGet_cons]; split
    · rfl
    · exact ih

theorem btRemove_fst (m : List (Value × Value)) (k : Value) : (btRemove m k).1 = btGet m k := by
  induction m with
  | nil => rfl
  | cons e m ih =>
    obtain ⟨k', v'⟩ := e
    rw [btRemove, btGet]; split
    · rfl
    · rfl
    · exact ih

open Classical in
theorem ixInsert_get (m : List (Value × Value)) (k v x : Value) :
    ixGet (ixInsert m k v).2 x = if x = k then some v else ixGet m x := by
  induction m with
  | nil =>
    by_cases h : x = k
    · subst h; simp [ixInsert, ixGet, Value.eqv_refl]
    · have : ¬ (k.eqv x = true) := by rw [Value.eqv_iff]; exact fun e => h e.symm
      simp [ixInsert, ixGet, h, this]
  | cons e m ih =>
    obtain ⟨k', v'⟩ := e
    rw [ixInsert]
    by_cases he : k' = k
    · subst he
      rw [if_pos (Value.eqv_refl _)]
      simp only [ixGet_cons, Value.eqv_iff]
      by_cases h : x = k'
      · subst h; simp
      · have : k' ≠ x := fun e => h e.symm
        simp [h, this]
    · rw [if_neg (by rw [Value.eqv_iff]; exact he)]
      simp only [ixGet_cons, Value.eqv_iff, ih]
      by_cases h : x = k
      · subst h; simp [he]
      · simp [h]

open Classical in
theorem ixInsert_keys (m : List (Value × Value)) (k v : Value) :
    (ixInsert m k v).2.map Prod.fst = if (ixGet m k).isSome then m.map Prod.fst else m.map Prod.fst ++ [k] := by
  induction m with
  | nil => rfl
  | cons e m ih =>
    obtain ⟨k', v'⟩ := e
    rw [ixInsert, ixGet_cons]
    by_cases he : k'.eqv k = true
    · rw [if_pos he, if_pos he]; rfl
    · rw [if_neg he, if_neg he]
      simp only [List.map_cons, ih]
      split <;> rfl

open Classical in
theorem ixRemove_entries (m : List (Value × Value)) (hm : NodupKeys m) (k : Value) :
    (ixRemove m k).2 = m.filter (fun e => decide (e.1 ≠ k)) := by
  induction m with
  | nil => rfl
  | cons e m ih =>
    obtain ⟨k', v'⟩ := e
    rw [nodup_cons] at hm
    rw [ixRemove]
    by_cases he : k' = k
    · subst he
      rw [if_pos (Value.eqv_refl _)]
      rw [List.filter_cons_of_neg (by simp)]
      symm
      rw [List.filter_eq_self]
      intro a ha
      simp only [decide_eq_true_eq]
      rintro rfl
      exact hm.1 (List.mem_map_of_mem ha)
    · rw [if_neg (by rw [Value.eqv_iff]; exact he)]
      rw [List.filter_cons_of_pos (by simpa using he), ← ih hm.2]

open Classical in
theorem ixGet_filter (m : List (Value × Value)) (k x : Value) :
    ixGet (m.filter (fun e => decide (e.1 ≠ k))) x = if x = k then none else ixGet m x := by
  induction m with
  | nil => simp [ixGet]
  | cons e m ih =>
    obtain ⟨k', v'⟩ := e
    by_cases he : k' = k
    · subst he
      rw [List.filter_cons_of_neg (by simp), ih, ixGet_cons]; simp only [Value.eqv_iff]
      by_cases h : x = k'
      · simp [h]
      · have : k' ≠ x := fun e => h e.symm
        simp [h, this]
    · rw [List.filter_cons_of_pos (by simpa using he), ixGet_cons, ixGet_cons, ih]; simp only [Value.eqv_iff]
      by_cases h : x = k
      · subst h; simp [he]
      · simp [h]

theorem map_filter_keys (m : List (Value × Value)) (p : Value → Bool) :
    (m.filter (fun e => p e.1)).map Prod.fst = (m.map Prod.fst).filter p := by
  rw [List.filter_map]; rfl

open Classical in
theorem ixModify_get (m : List (Value × Value)) (k x : Value) (f : Value → Value) :
    ixGet (ixModify m k f) x = if x = k then (ixGet m x).map f else ixGet m x := by
  induction m with
  | nil => simp [ixModify, ixGet]
  | cons e m ih =>
    obtain ⟨k', v'⟩ := e
    rw [ixModify]
    by_cases he : k' = k
    · subst he
      rw [if_pos (Value.eqv_refl _)]
      simp only [ixGet_cons, Value.eqv_iff]
      by_cases h : x = k'
      · subst h; simp
      · have : k' ≠ x := fun e => h e.symm
        simp [h, this]
    · rw [if_neg (by rw [Value.eqv_iff]; exact he)]
      simp only [ixGet_cons, Value.eqv_iff, ih]
      by_cases h : x = k
      · subst h; simp [he]
      · simp [h]

theorem ixModify_keys (m : List (Value × Value)) (k : Value) (f : Value → Value) :
    (ixModify m k f).map Prod.fst = m.map Prod.fst := by
  induction m with
  | nil => rfl
  | cons e m ih =>
    obtain ⟨k', v'⟩ := e
    rw [ixModify]; split
    · rfl
    · simp [ih]

/-- On ascending keys `get_mut` of the two maps agree. -/
theorem btModify_eq {m : List (Value × Value)} (hm : Sorted m) (k : Value) (f : Value → Value) :
    btModify m k f = ixModify m k f := by
  induction m with
  | nil => rfl
  | cons e m ih =>
    obtain ⟨k', v'⟩ := e
    rw [sorted_cons] at hm
    rw [btModify, ixModify]
    cases h : k.cmp k' with
    | lt =>
      have hne : k' ≠ k := by rintro rfl; rw [Value.cmp_refl] at h; cases h
      have hn : k ∉ m.map Prod.fst := by
        intro hk
        have := hm.1 k hk
        rw [Value.cmp_swap, h] at this; cases this
      have hid : ∀ n : List (Value × Value), k ∉ n.map Prod.fst → ixModify n k f = n := by
        intro n
        induction n with
        | nil => intro _; rfl
        | cons e n ih =>
          obtain ⟨a, b⟩ := e
          intro h
          simp only [List.map_cons, List.mem_cons, not_or] at h
          rw [ixModify, if_neg (by rw [Value.eqv_iff]; exact fun e => h.1 e.symm), ih h.2]
      rw [if_neg (by rw [Value.eqv_iff]; exact hne), hid m hn]
    | eq =>
      have := Value.cmp_eq h; subst this
      rw [if_pos (Value.eqv_refl _)]
    | gt =>
      have hne : k' ≠ k := by rintro rfl; rw [Value.cmp_refl] at h; cases h
      rw [if_neg (by rw [Value.eqv_iff]; exact hne)]
      simp only [ih hm.2]

/-- On ascending keys `remove` of the two maps agree. -/
theorem btRemove_eq {m : List (Value × Value)} (hm : Sorted m) (k : Value) : btRemove m k = ixRemove m k := by
  induction m with
  | nil => rfl
  | cons e m ih =>
    obtain ⟨k', v'⟩ := e
    rw [sorted_cons] at hm
    rw [btRemove, ixRemove]
    cases h : k.cmp k' with
    | lt =>
      have hne : k' ≠ k := by rintro rfl; rw [Value.cmp_refl] at h; cases h
      have hn : k ∉ m.map Prod.fst := by
        intro hk
        have := hm.1 k hk
        rw [Value.cmp_swap, h] at this; cases this
      have hid : ∀ n : List (Value × Value), k ∉ n.map Prod.fst → ixRemove n k = (none, n) := by
        intro n
        induction n with
        | nil => intro _; rfl
        | cons e n ih =>
          obtain ⟨a, b⟩ := e
          intro h
          simp only [List.map_cons, List.mem_cons, not_or] at h
          rw [ixRemove, if_neg (by rw [Value.eqv_iff]; exact fun e => h.1 e.symm), ih h.2]
      rw [if_neg (by rw [Value.eqv_iff]; exact hne), hid m hn]
    | eq =>
      have := Value.cmp_eq h; subst this
      rw [if_pos (Value.eqv_refl _)]
    | gt =>
      have hne : k' ≠ k := by rintro rfl; rw [Value.cmp_refl] at h; cases h
      rw [if_neg (by rw [Value.eqv_iff]; exact hne)]
      simp only [ih hm.2]

open Classical in
theorem btInsert_get {m : List (Value × Value)} (hm : Sorted m) (k v x : Value) :
    ixGet (btInsert m k v).2 x = if x = k then some v else ixGet m x := by
  induction m with
  | nil => exact ixInsert_get [] k v x
  | cons e m ih =>
    obtain ⟨k', v'⟩ := e
    rw [sorted_cons] at hm
    rw [btInsert]
    cases h : k.cmp k' with
    | lt =>
      simp only [ixGet_cons, Value.eqv_iff]
      by_cases hx : x = k
      · simp [hx]
      · have : k ≠ x := fun e => hx e.symm
        simp [hx, this]
    | eq =>
      have := Value.cmp_eq h; subst this
      simp only [ixGet_cons, Value.eqv_iff]
      by_cases hx : x = k
      · simp [hx]
      · have : k ≠ x := fun e => hx e.symm
        simp [hx, this]
    | gt =>
      have hne : k' ≠ k := by rintro rfl; rw [Value.cmp_refl] at h; cases h
      simp only [ixGet_cons, Value.eqv_iff, ih hm.2]
      by_cases hx : x = k
      · subst hx; simp [hne]
      · simp [hx]

theorem btInsert_keys_sub (m : List (Value × Value)) (k v x : Value) (hx : x ∈ (btInsert m k v).2.map Prod.fst) :
    x = k ∨ x ∈ m.map Prod.fst := by
  induction m with
  | nil => simp [btInsert] at hx; exact .inl hx
  | cons e m ih =>
    obtain ⟨k', v'⟩ := e
    rw [btInsert] at hx
    cases h : k.cmp k' <;> rw [h] at hx <;> simp only [List.map_cons, List.mem_cons] at hx ⊢
    · exact hx
    · exact .inr hx
    · rcases hx with hx | hx
      · exact .inr (.inl hx)
      · rcases ih hx with h | h
        · exact .inl h
        · exact .inr (.inr h)

theorem btInsert_sorted {m : List (Value × Value)} (hm : Sorted m) (k v : Value) : Sorted (btInsert m k v).2 := by
  induction m with
  | nil => simp [btInsert, Sorted]
  | cons e m ih =>
    obtain ⟨k', v'⟩ := e
    have hm0 := hm
    rw [sorted_cons] at hm
    rw [btInsert]
    cases h : k.cmp k' with
    | lt =>
      simp only
      rw [sorted_cons]
      refine ⟨?_, hm0⟩
      intro x hx
      simp only [List.map_cons, List.mem_cons] at hx
      rcases hx with rfl | hx
      · exact h
      · exact Value.lt_trans h (hm.1 x hx)
    | eq => simp only; rw [sorted_cons]; exact hm
    | gt =>
      simp only
      rw [sorted_cons]
      refine ⟨?_, ih hm.2⟩
      intro x hx
      rcases btInsert_keys_sub m k v x hx with rfl | hx
      · exact (Value.cmp_gt_iff _ _).1 h
      · exact hm.1 x hx

theorem retain_unit (keep : Value → Value → Bool × Value) (m : List (Value × Value)) :
    (mapRetain (fun (_ : Unit) k v => ((keep k v).1, (keep k v).2, ())) () m).1 =
      m.filterMap fun e => if (keep e.1 e.2).1 then some (e.1, (keep e.1 e.2).2) else none := by
  induction m with
  | nil => rfl
  | cons e m ih =>
    obtain ⟨k, v⟩ := e
    simp only [mapRetain, ih, List.filterMap_cons]
    by_cases h : (keep k v).1 = true <;> simp [h]

theorem filterMap_keys (keep : Value → Value → Bool × Value) (m : List (Value × Value)) :
    (m.filterMap fun e => if (keep e.1 e.2).1 then some (e.1, (keep e.1 e.2).2) else none).map Prod.fst =
      (m.filter fun e => (keep e.1 e.2).1).map Prod.fst := by
  induction m with
  | nil => rfl
  | cons e m ih =>
    obtain ⟨k, v⟩ := e
    by_cases h : (keep k v).1 = true
    · simp only [List.filterMap_cons, h, if_true, List.map_cons, ih, List.filter_cons]
    · simp only [Bool.not_eq_true] at h
      simp [List.filterMap_cons, h, ih, List.filter_cons]

theorem filterMap_get (keep : Value → Value → Bool × Value) (m : List (Value × Value)) (hm : NodupKeys m) (x : Value) :
    ixGet (m.filterMap fun e => if (keep e.1 e.2).1 then some (e.1, (keep e.1 e.2).2) else none) x =
      (ixGet m x).bind fun v => if (keep x v).1 then some (keep x v).2 else none := by
  induction m with
  | nil => rfl
  | cons e m ih =>
    obtain ⟨k, v⟩ := e
    rw [nodup_cons] at hm
    by_cases hx : k = x
    · subst hx
      rw [ixGet_cons, if_pos (Value.eqv_refl _), Option.bind_some]
      by_cases h : (keep k v).1 = true
      · rw [List.filterMap_cons]; simp only [h, if_true]; rw [ixGet_cons, if_pos (Value.eqv_refl _)]
      · simp only [Bool.not_eq_true] at h
        rw [List.filterMap_cons]; simp only [h]
        have := ih hm.2
        rw [ixGet_none hm.1] at this
        simpa using this
    · have he : ¬ (k.eqv x = true) := by rw [Value.eqv_iff]; exact hx
      rw [ixGet_cons, if_neg he, ← ih hm.2, List.filterMap_cons]
      by_cases h : (keep k v).1 = true
      · simp only [h, if_true]; rw [ixGet_cons, if_neg he]
      · simp only [Bool.not_eq_true] at h; simp [h]

variable [Env]

/-- The invariant of the map type selected by the `indexmap` feature. -/
def MapInv (m : List (Value × Value)) : Prop := if Env.indexmap then NodupKeys m else Sorted m

theorem MapInv.nodup {m : List (Value × Value)} (h : MapInv m) : NodupKeys m := by
  unfold MapInv at h; split at h
  · exact h
  · exact h.nodup

theorem mapGet_eq {m : List (Value × Value)} (h : MapInv m) (k : Value) : mapGet m k = ixGet m k := by
  unfold MapInv at h; unfold mapGet
  split at h <;> rename_i hx <;> simp only [hx, if_true, if_false]
  exact btGet_eq h k

theorem runOp_inv (op : MapOp) {m : List (Value × Value)} (h : MapInv m) : MapInv (runOp op m).2 := by
  have hn := h.nodup
  cases op with
  | insert k v =>
    simp only [runOp, mapInsert]
    unfold MapInv at h ⊢
    split at h <;> rename_i hx <;> simp only [hx, if_true, if_false]
    · simp only [NodupKeys, ixInsert_keys]
      split
      · exact h
      · rename_i hk
        rw [List.nodup_append]
        refine ⟨h, by simp, ?_⟩
        intro a ha b hb
        simp only [List.mem_singleton] at hb
        subst hb
        rintro rfl
        exact hk (ixGet_isSome.2 ha)
    · exact btInsert_sorted h k v
  | remove k =>
    simp only [runOp, mapRemove]
    unfold MapInv at h ⊢
    split at h <;> rename_i hx <;> simp only [hx, if_true, if_false]
    · rw [ixRemove_entries m hn]
      exact List.Pairwise.sublist (List.Sublist.map _ List.filter_sublist) h
    · simp only [Bool.false_eq_true, if_false] 
      rw [btRemove_eq h, ixRemove_entries m hn]
      exact List.Pairwise.sublist (List.Sublist.map _ List.filter_sublist) h
  | modify k f =>
    simp only [runOp, mapModify]
    unfold MapInv at h ⊢
    split at h <;> rename_i hx <;> simp only [hx, if_true, if_false]
    · simp only [NodupKeys, ixModify_keys]; exact h
    · simp only [Bool.false_eq_true, if_false] 
      rw [btModify_eq h]; simp only [Sorted, ixModify_keys]; exact h
  | retain keep =>
    simp only [runOp, retain_unit]
    unfold MapInv at h ⊢
    split at h <;> rename_i hx <;> simp only [hx, if_true, if_false]
    · simp only [NodupKeys, filterMap_keys]
      exact List.Pairwise.sublist (List.Sublist.map _ List.filter_sublist) h
    · simp only [Bool.false_eq_true, if_false, Sorted, filterMap_keys]
      exact List.Pairwise.sublist (List.Sublist.map _ List.filter_sublist) h

theorem runOp_get (op : MapOp) {m : List (Value × Value)} (h : MapInv m) (x : Value) :
    ixGet (runOp op m).2 x = op.apply (ixGet m) x := by
  have hn := h.nodup
  cases op with
  | insert k v =>
    simp only [runOp, mapInsert, MapOp.apply]
    unfold MapInv at h
    split at h <;> rename_i hx <;> simp only [hx, if_true, if_false]
    · exact ixInsert_get m k v x
    · exact btInsert_get h k v x
  | remove k =>
    simp only [runOp, mapRemove, MapOp.apply]
    unfold MapInv at h
    split at h <;> rename_i hx <;> simp only [hx, if_true, if_false]
    · rw [ixRemove_entries m hn, ixGet_filter]
    · simp only [Bool.false_eq_true, if_false]
      rw [btRemove_eq h, ixRemove_entries m hn, ixGet_filter]
  | modify k f =>
    simp only [runOp, mapModify, MapOp.apply]
    unfold MapInv at h
    split at h <;> rename_i hx <;> simp only [hx, if_true, if_false]
    · exact ixModify_get m k x f
    · simp only [Bool.false_eq_true, if_false]
      rw [btModify_eq h]; exact ixModify_get m k x f
  | retain keep =>
    simp only [runOp, retain_unit, MapOp.apply]
    exact filterMap_get keep m hn x

theorem runOps_inv (ops : List MapOp) : MapInv (runOps ops) := by
  induction ops with
  | nil => simp only [runOps, MapInv]; split <;> simp [NodupKeys, Sorted]
  | cons op ops ih => exact runOp_inv op ih

theorem runOps_get (ops : List MapOp) : ixGet (runOps ops) = specMap ops := by
  induction ops with
  | nil => rfl
  | cons op ops ih =>
    funext x
    simp only [runOps, specMap]
    rw [runOp_get op (runOps_inv ops), ih]

theorem runOps_keys (ops : List MapOp) (hi : Env.indexmap = true) : (runOps ops).map Prod.fst = specKeys ops := by
  induction ops with
  | nil => rfl
  | cons op ops ih =>
    have hinv := runOps_inv ops
    have hn := hinv.nodup
    simp only [runOps, specKeys]
    cases op with
    | insert k v =>
      simp only [runOp, mapInsert, hi, if_true, MapOp.keys, ixInsert_keys, ← runOps_get, ih]
    | remove k =>
      simp only [runOp, mapRemove, hi, if_true, MapOp.keys]
      rw [ixRemove_entries _ hn, ← ih]
      classical
      exact map_filter_keys _ (fun a => decide (a ≠ k))
    | modify k f => simp only [runOp, mapModify, hi, if_true, MapOp.keys, ixModify_keys, ih]
    | retain keep =>
      simp only [runOp, retain_unit, MapOp.keys, filterMap_keys]
      rw [← ih, ← runOps_get, ← map_filter_keys]
      congr 1
      apply List.filter_congr
      intro e he
      rw [(ixGet_mem hn).2 he]

end Ron
