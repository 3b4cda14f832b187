import Verif.Lemmas.MapOps
import Verif.Lemmas.Witness
/-!
# C28: Map is a finite map

Operation sequences are lists with the last operation first.
-/
set_option linter.unusedSimpArgs false

namespace Ron

variable [Env]

/-- After any sequence of operations on an empty map, `get` is the partial function the operations describe. -/
theorem C28_get (ops : List MapOp) (k : Value) : mapGet (runOps ops) k = specMap ops k := by
  rw [mapGet_eq (runOps_inv ops), runOps_get]

/-- `insert` and `remove` return the value the key had before. -/
theorem C28_returns (ops : List MapOp) (op : MapOp) : (runOp op (runOps ops)).1 = op.returns (specMap ops) := by
  rw [← runOps_get]
  have h := runOps_inv ops
  unfold MapInv at h
  cases op with
  | insert k v =>
    simp only [runOp, mapInsert, MapOp.returns]
    split at h <;> rename_i hx <;> simp only [hx, if_true, if_false]
    · exact ixInsert_fst _ _ _
    · simp only [Bool.false_eq_true, if_false]; rw [btInsert_fst, btGet_eq h]
  | remove k =>
    simp only [runOp, mapRemove, MapOp.returns]
    split at h <;> rename_i hx <;> simp only [hx, if_true, if_false]
    · exact ixRemove_fst _ _
    · simp only [Bool.false_eq_true, if_false]; rw [btRemove_fst, btGet_eq h]
  | modify _ _ => rfl
  | retain _ => rfl

/-- Iteration yields exactly the live entries, each key once; so the length is the number of live keys. -/
theorem C28_iter (ops : List MapOp) :
    (∀ k v, (k, v) ∈ runOps ops ↔ specMap ops k = some v) ∧ ((runOps ops).map Prod.fst).Nodup ∧
    (∀ ks : List Value, ks.Nodup → (∀ k, k ∈ ks ↔ (specMap ops k).isSome = true) → (runOps ops).length = ks.length) := by
  have hn := (runOps_inv ops).nodup
  refine ⟨fun k v => ?_, hn, fun ks hks h => ?_⟩
  · rw [← runOps_get, ixGet_mem hn]
  · rw [← List.length_map (f := Prod.fst)]
    refine Nat.le_antisymm (length_le_of_nodup _ _ hn fun x hx => ?_) (length_le_of_nodup _ _ hks fun x hx => ?_)
    · rw [h, ← runOps_get]; exact ixGet_isSome.2 hx
    · rw [h, ← runOps_get] at hx; exact ixGet_isSome.1 hx

/-- By default iteration is in strictly ascending key order. -/
theorem C28_key_order (ops : List MapOp) (h : Env.indexmap = false) :
    ((runOps ops).map Prod.fst).Pairwise (fun a b => a.cmp b = .lt) := by
  have := runOps_inv ops
  simp only [MapInv, h] at this
  exact this

/-- With the `indexmap` feature iteration is in insertion order: an inserted new key goes last, replacing a value keeps
the place, removal keeps the order of the others. -/
theorem C28_insertion_order (ops : List MapOp) (h : Env.indexmap = true) :
    (runOps ops).map Prod.fst = specKeys ops := runOps_keys ops h

omit [Env] in
/-- `retain` shows every entry to its predicate, once, in iteration order. -/
theorem C28_retain_visits (keep : Value → Value → Bool × Value) (m log : List (Value × Value)) :
    (mapRetain (fun (log : List (Value × Value)) k v => ((keep k v).1, (keep k v).2, log ++ [(k, v)])) log m).2 =
      log ++ m := by
  induction m generalizing log with
  | nil => simp [mapRetain]
  | cons e m ih => obtain ⟨k, v⟩ := e; simp [mapRetain, ih]

/-- Collecting entries keeps the last value of each key. -/
theorem C28_collect (kvs : List (Value × Value)) :
    mapOfList kvs = runOps (kvs.reverse.map fun e => .insert e.1 e.2) := by
  have : ∀ (l : List (Value × Value)), l.reverse.foldl (fun m kv => (mapInsert m kv.1 kv.2).2) [] =
      runOps (l.map fun e => .insert e.1 e.2) := by
    intro l
    induction l with
    | nil => rfl
    | cons e l ih => rw [List.reverse_cons, List.foldl_append, ih]; rfl
  have := this kvs.reverse
  rw [List.reverse_reverse] at this
  exact this

/-- Non-vacuity: insert `2`, insert `1`, replace `2`, remove `1`, with both kinds of map. -/
example (i : Bool) :
    letI := asciiEnv true i
    runOps [.remove (.char '1'), .insert (.char '2') (.bool true), .insert (.char '1') .unit, .insert (.char '2') .unit]
      = [(.char '2', .bool true)] ∧
    (runOps [.insert (.char '1') .unit, .insert (.char '2') .unit]).map Prod.fst =
      if i then [.char '2', .char '1'] else [.char '1', .char '2'] := by
  cases i <;> exact ⟨rfl, rfl⟩

end Ron
