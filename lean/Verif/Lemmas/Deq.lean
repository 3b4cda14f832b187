import Verif.Lemmas.ValueOrd
import Verif.Lemmas.Witness
import Verif.Model.De
/-!
Decidable equality of values and results, for examples and counterexamples.
-/

namespace Ron

instance : DecidableEq Value := fun a b => decidable_of_iff (a.cmp b = .eq) (Value.cmp_eq_iff a b)

instance decEqExcept {ε α : Type} [DecidableEq ε] [DecidableEq α] : DecidableEq (Except ε α)
  | .ok a, .ok b => decidable_of_iff (a = b) ⟨fun h => by rw [h], fun h => by cases h; rfl⟩
  | .error a, .error b => decidable_of_iff (a = b) ⟨fun h => by rw [h], fun h => by cases h; rfl⟩
  | .ok _, .error _ => isFalse nofun
  | .error _, .ok _ => isFalse nofun

mutual
/-- Equality of data. -/
def SVal.eqb : SVal → SVal → Bool
  | .bool a, .bool b => a == b
  | .num a, .num b => a = b
  | .char a, .char b => a == b
  | .str a, .str b => a == b
  | .bytes a, .bytes b => a == b
  | .none, .none => true
  | .some a, .some b => a.eqb b
  | .unit, .unit => true
  | .unitStruct a, .unitStruct b => a == b
  | .unitVariant a x, .unitVariant b y => a == b && x == y
  | .newtypeStruct a x, .newtypeStruct b y => a == b && x.eqb y
  | .newtypeVariant a v x, .newtypeVariant b w y => a == b && v == w && x.eqb y
  | .seq l a, .seq m b => l == m && eqbs a b
  | .tuple a, .tuple b => eqbs a b
  | .tupleStruct n a, .tupleStruct m b => n == m && eqbs a b
  | .tupleVariant n v a, .tupleVariant m w b => n == m && v == w && eqbs a b
  | .map l a, .map m b => l == m && eqbKvs a b
  | .struct n a, .struct m b => n == m && eqbFs a b
  | .structVariant n v a, .structVariant m w b => n == m && v == w && eqbFs a b
  | .raw a, .raw b => a == b
  | _, _ => false
/-- Equality of lists of data. -/
def eqbs : List SVal → List SVal → Bool
  | [], [] => true
  | a :: as, b :: bs => a.eqb b && eqbs as bs
  | _, _ => false
/-- Equality of entries. -/
def eqbKvs : List (SVal × SVal) → List (SVal × SVal) → Bool
  | [], [] => true
  | a :: as, b :: bs => eqbKv a b && eqbKvs as bs
  | _, _ => false
/-- Equality of an entry. -/
def eqbKv : SVal × SVal → SVal × SVal → Bool
  | (k, a), (l, b) => k.eqb l && a.eqb b
/-- Equality of fields. -/
def eqbFs : List (Text × SVal) → List (Text × SVal) → Bool
  | [], [] => true
  | a :: as, b :: bs => eqbF a b && eqbFs as bs
  | _, _ => false
/-- Equality of a field. -/
def eqbF : Text × SVal → Text × SVal → Bool
  | (k, a), (l, b) => k == l && a.eqb b
end

mutual
theorem SVal.eqb_eq (a : SVal) : ∀ b : SVal, a.eqb b = true → a = b := by
  cases a with
  | some a => intro b h; cases b <;> simp only [SVal.eqb, Bool.false_eq_true] at h; rw [SVal.eqb_eq a _ h]
  | newtypeStruct n a =>
    intro b h; cases b <;> simp only [SVal.eqb, Bool.false_eq_true, Bool.and_eq_true, beq_iff_eq] at h; rw [h.1, SVal.eqb_eq a _ h.2]
  | newtypeVariant n v a =>
    intro b h; cases b <;> simp only [SVal.eqb, Bool.false_eq_true, Bool.and_eq_true, beq_iff_eq] at h; rw [h.1.1, h.1.2, SVal.eqb_eq a _ h.2]
  | seq n a =>
    intro b h; cases b <;> simp only [SVal.eqb, Bool.false_eq_true, Bool.and_eq_true, beq_iff_eq] at h; rw [h.1, eqbs_eq a _ h.2]
  | tuple a => intro b h; cases b <;> simp only [SVal.eqb, Bool.false_eq_true] at h; rw [eqbs_eq a _ h]
  | tupleStruct n a =>
    intro b h; cases b <;> simp only [SVal.eqb, Bool.false_eq_true, Bool.and_eq_true, beq_iff_eq] at h; rw [h.1, eqbs_eq a _ h.2]
  | tupleVariant n v a =>
    intro b h; cases b <;> simp only [SVal.eqb, Bool.false_eq_true, Bool.and_eq_true, beq_iff_eq] at h; rw [h.1.1, h.1.2, eqbs_eq a _ h.2]
  | map n a =>
    intro b h; cases b <;> simp only [SVal.eqb, Bool.false_eq_true, Bool.and_eq_true, beq_iff_eq] at h; rw [h.1, eqbKvs_eq a _ h.2]
  | struct n a =>
    intro b h; cases b <;> simp only [SVal.eqb, Bool.false_eq_true, Bool.and_eq_true, beq_iff_eq] at h; rw [h.1, eqbFs_eq a _ h.2]
  | structVariant n v a =>
    intro b h; cases b <;> simp only [SVal.eqb, Bool.false_eq_true, Bool.and_eq_true, beq_iff_eq] at h; rw [h.1.1, h.1.2, eqbFs_eq a _ h.2]
  | _ => intro b h; cases b <;> simp_all [SVal.eqb]
theorem eqbs_eq (a : List SVal) : ∀ b, eqbs a b = true → a = b := by
  cases a with
  | nil => intro b h; cases b <;> simp_all [eqbs]
  | cons a as =>
    intro b h; cases b <;> simp only [eqbs, Bool.false_eq_true, Bool.and_eq_true] at h; rw [SVal.eqb_eq a _ h.1, eqbs_eq as _ h.2]
theorem eqbKvs_eq (a : List (SVal × SVal)) : ∀ b, eqbKvs a b = true → a = b := by
  cases a with
  | nil => intro b h; cases b <;> simp_all [eqbKvs]
  | cons a as =>
    intro b h; cases b <;> simp only [eqbKvs, Bool.false_eq_true, Bool.and_eq_true] at h; rw [eqbKv_eq a _ h.1, eqbKvs_eq as _ h.2]
theorem eqbKv_eq (a : SVal × SVal) : ∀ b, eqbKv a b = true → a = b := by
  cases a with
  | mk k a =>
    intro b h
    cases b with
    | mk l b => simp only [eqbKv, Bool.and_eq_true] at h; rw [SVal.eqb_eq k _ h.1, SVal.eqb_eq a _ h.2]
theorem eqbFs_eq (a : List (Text × SVal)) : ∀ b, eqbFs a b = true → a = b := by
  cases a with
  | nil => intro b h; cases b <;> simp_all [eqbFs]
  | cons a as =>
    intro b h; cases b <;> simp only [eqbFs, Bool.false_eq_true, Bool.and_eq_true] at h; rw [eqbF_eq a _ h.1, eqbFs_eq as _ h.2]
theorem eqbF_eq (a : Text × SVal) : ∀ b, eqbF a b = true → a = b := by
  cases a with
  | mk k a =>
    intro b h
    cases b with
    | mk l b => simp only [eqbF, Bool.and_eq_true, beq_iff_eq] at h; rw [h.1, SVal.eqb_eq a _ h.2]
end

mutual
theorem SVal.eqb_refl (a : SVal) : a.eqb a = true := by
  cases a with
  | some a => simp [SVal.eqb, SVal.eqb_refl a]
  | newtypeStruct n a => simp [SVal.eqb, SVal.eqb_refl a]
  | newtypeVariant n v a => simp [SVal.eqb, SVal.eqb_refl a]
  | seq l a => simp [SVal.eqb, eqbs_refl a]
  | tuple a => simp [SVal.eqb, eqbs_refl a]
  | tupleStruct n a => simp [SVal.eqb, eqbs_refl a]
  | tupleVariant n v a => simp [SVal.eqb, eqbs_refl a]
  | map l a => simp [SVal.eqb, eqbKvs_refl a]
  | struct n a => simp [SVal.eqb, eqbFs_refl a]
  | structVariant n v a => simp [SVal.eqb, eqbFs_refl a]
  | _ => simp [SVal.eqb]
theorem eqbs_refl (a : List SVal) : eqbs a a = true := by
  cases a with
  | nil => simp [eqbs]
  | cons a as => simp [eqbs, SVal.eqb_refl a, eqbs_refl as]
theorem eqbKvs_refl (a : List (SVal × SVal)) : eqbKvs a a = true := by
  cases a with
  | nil => simp [eqbKvs]
  | cons a as => simp [eqbKvs, eqbKv_refl a, eqbKvs_refl as]
theorem eqbKv_refl (a : SVal × SVal) : eqbKv a a = true := by
  cases a with
  | mk k a => simp [eqbKv, SVal.eqb_refl k, SVal.eqb_refl a]
theorem eqbFs_refl (a : List (Text × SVal)) : eqbFs a a = true := by
  cases a with
  | nil => simp [eqbFs]
  | cons a as => simp [eqbFs, eqbF_refl a, eqbFs_refl as]
theorem eqbF_refl (a : Text × SVal) : eqbF a a = true := by
  cases a with
  | mk k a => simp [eqbF, SVal.eqb_refl a]
end

instance : DecidableEq SVal := fun a b => decidable_of_iff (a.eqb b = true) ⟨SVal.eqb_eq a b, fun h => h ▸ SVal.eqb_refl a⟩

end Ron
