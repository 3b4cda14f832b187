import Verif.Spec.Buffer
import Verif.Spec.Rend
import Verif.Model.Flatten
/-!
# Structs with flattened fields as text

The items of the text: a plain field with data of its type, or an entry that goes through serde's buffer.
-/

namespace Ron

variable [Env]

/-- What stands in an entry. -/
inductive FlatItem
  | typed (T : Ty) (v : SVal)
  | buffered (c : Content)

/-- The data belong to a struct with flattened fields, and which entries they amount to if they are written under the extensions `x`.  Keys of flattened maps are strings. -/
def FlatHas (x : Exts) (D : Nat → Ty) (n : Nat) : List (Text × FlatTy) → List (Text × SVal) → List (Text × FlatItem) → Prop
  | [], [], its => its = []
  | (k, .plain T) :: fields, (k', v) :: fs, its => k = k' ∧ HasTy D n T v ∧ ∃ r, its = (k, .typed T v) :: r ∧ FlatHas x D n fields fs r
  | (k, .struct name gs) :: fields, (k', v) :: fs, its => k = k' ∧ ∃ vs r, v = .struct name vs ∧ (gs.map Prod.fst).Nodup ∧
      All2 (fun F f => F.1 = f.1 ∧ HasTy D n F.2 f.2) gs vs ∧ its = vs.map (fun e => (e.1, .buffered (e.2.content x))) ++ r ∧ FlatHas x D n fields fs r
  | (k, .map K V) :: fields, (k', v) :: fs, its => k = k' ∧ ∃ (es : List (Text × SVal)) (r : List (Text × FlatItem)), v = .map (some es.length) (es.map fun e => (.str e.1, e.2)) ∧
      (∀ e ∈ es, HasTy D n K (.str e.1) ∧ HasTy D n V e.2) ∧ its = es.map (fun e => (e.1, .buffered (e.2.content x))) ++ r ∧ FlatHas x D n fields fs r
  | _, _, _ => False

/-- The data of flattened fields survive serde's buffer. -/
def FlatBuffers (x : Exts) : List (Text × FlatTy) → List (Text × SVal) → Prop
  | (_, .plain _) :: fields, _ :: fs => FlatBuffers x fields fs
  | (_, .struct _ _) :: fields, (_, .struct _ vs) :: fs => BuffersFields x vs ∧ FlatBuffers x fields fs
  | (_, .map _ _) :: fields, (_, .map _ kvs) :: fs => BuffersEntries x kvs ∧ FlatBuffers x fields fs
  | _, _ => True

/-- Only plain fields follow a flattened map. -/
def MapLast : List (Text × FlatTy) → Prop
  | [] => True
  | (_, .map _ _) :: fields => ∀ e ∈ fields, ∃ T, e.2 = .plain T
  | _ :: fields => MapLast fields

/-- No field is a flattened map. -/
def NoMap (fields : List (Text × FlatTy)) : Prop := ∀ e ∈ fields, ∀ K V, e.2 ≠ .map K V

/-- The entries of the flattened map. -/
def mapItems (x : Exts) : List (Text × FlatTy) → List (Text × SVal) → List (Text × FlatItem)
  | (_, .map _ _) :: _, (_, .map _ kvs) :: _ => kvs.filterMap fun e => match e.1 with
    | .str k => some (k, .buffered (e.2.content x))
    | _ => none
  | _ :: fields, _ :: fs => mapItems x fields fs
  | _, _ => []

/-- The text of an entry: the key is a string. -/
def FlatText (x : Exts) (sfx : Bool) (e : Text) (it : Text × FlatItem) : Prop :=
  ∃ kt vt, StrLit kt it.1 ∧ Entry kt vt e ∧ match it.2 with
    | .typed _ v => Rend x sfx false v vt
    | .buffered c => CText c vt

/-- The levels of nesting that reading an entry takes. -/
def FlatItem.levels : FlatItem → Nat
  | .typed _ v => v.cost
  | .buffered c => c.levels

/-- The levels of nesting that reading all entries takes. -/
def flatLevels : List (Text × FlatItem) → Nat
  | [] => 0
  | it :: its => max (it.2.levels + 1) (flatLevels its)

end Ron
