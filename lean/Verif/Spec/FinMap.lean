import Verif.Model.Value
/-!
# Specification of `Map`: a partial function and the order of its keys
-/

namespace Ron

/-- The operations on a map.  `modify k f` stands for `get_mut`/`IndexMut` (and `iter_mut`, key by key). -/
inductive MapOp
  | insert (k v : Value)
  | remove (k : Value)
  | modify (k : Value) (f : Value → Value)
  | retain (keep : Value → Value → Bool × Value)

open Classical in
/-- What an operation does to the contents, seen as a partial function. -/
noncomputable def MapOp.apply : MapOp → (Value → Option Value) → (Value → Option Value)
  | .insert k v, m => fun x => if x = k then some v else m x
  | .remove k, m => fun x => if x = k then none else m x
  | .modify k f, m => fun x => if x = k then (m x).map f else m x
  | .retain keep, m => fun x => (m x).bind fun v => if (keep x v).1 then some (keep x v).2 else none

/-- What an operation returns: the value the key had. -/
def MapOp.returns : MapOp → (Value → Option Value) → Option Value
  | .insert k _, m => m k
  | .remove k, m => m k
  | _, _ => none

open Classical in
/-- The keys in insertion order: a new key goes to the end, an existing one keeps its place. -/
noncomputable def MapOp.keys : MapOp → (Value → Option Value) → List Value → List Value
  | .insert k _, m, ks => if (m k).isSome then ks else ks ++ [k]
  | .remove k, _, ks => ks.filter (· ≠ k)
  | .modify _ _, _, ks => ks
  | .retain keep, m, ks => ks.filter fun k => match m k with
    | some v => (keep k v).1
    | none => false

/-- The contents after a sequence of operations on the empty map. -/
noncomputable def specMap : List MapOp → Value → Option Value
  | [] => fun _ => none
  | op :: ops => op.apply (specMap ops)

/-- The keys in insertion order after a sequence of operations (the last operation first) on the empty map. -/
noncomputable def specKeys : List MapOp → List Value
  | [] => []
  | op :: ops => op.keys (specMap ops) (specKeys ops)

end Ron
