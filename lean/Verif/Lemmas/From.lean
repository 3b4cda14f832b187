import Verif.Spec.From
import Verif.Lemmas.Through
import Verif.Lemmas.Typed
/-!
# Lemmas on conversions into `Value`
-/
set_option linter.unusedSimpArgs false

namespace Ron

variable [Env]

theorem rvalues_length : ∀ vs : List RData, (rvalues vs).length = vs.length
  | [] => rfl
  | _ :: vs => by simp [rvalues, rvalues_length vs]
theorem rentries_length : ∀ kvs : List (RData × RData), (rentries kvs).length = kvs.length
  | [] => rfl
  | _ :: kvs => by simp [rentries, rentries_length kvs]

mutual
/-- Kept data are given to the serializer alike. -/
theorem value_toS : ∀ r : RData, r.Kept → r.value.toS = r.data
  | .bool _, _ | .char _, _ | .num _, _ | .none, _ | .str _, _ | .unit, _ => by simp [RData.value, RData.data, Value.toS]
  | .map _, _ => by simp [RData.value, RData.data]
  | .byteArray _, h => h.elim
  | .some v, h => by
    simp only [RData.value, RData.data, Value.toS]
    rw [value_toS v h]
  | .seq vs, h => by
    simp only [RData.value, RData.data, Value.toS, rvalues_length]
    rw [values_toS vs h]
  | .pairs kvs, h => by
    simp only [RData.value, RData.data, Value.toS, mapOfList_inv h.1, rentries_length]
    rw [entries_toS kvs h.2]
theorem values_toS : ∀ vs : List RData, keptAll vs → valuesToS (rvalues vs) = rdatas vs
  | [], _ => rfl
  | v :: vs, h => by simp only [rvalues, valuesToS, rdatas]; rw [value_toS v h.1, values_toS vs h.2]
theorem entries_toS : ∀ kvs : List (RData × RData), keptEntries kvs → entriesToS (rentries kvs) = rdataEntries kvs
  | [], _ => rfl
  | (k, v) :: kvs, h => by
    simp only [rentries, entriesToS, rdataEntries]
    rw [value_toS k h.1.1, value_toS v h.1.2, entries_toS kvs h.2]
end

theorem holdsEntries_mem {p : Number → Prop} {m : List (Value × Value)} :
    HoldsEntries p m ↔ ∀ e ∈ m, e.1.Holds p ∧ e.2.Holds p := by
  induction m with
  | nil => simp [HoldsEntries]
  | cons e m ih => obtain ⟨k, v⟩ := e; simp [HoldsEntries, ih]

mutual
/-- What conversions give is a value the API builds. -/
theorem value_holds {p : Number → Prop} : ∀ r : RData, r.Real p → r.value.Holds p
  | .bool _, _ | .char _, _ | .none, _ | .str _, _ | .unit, _ | .byteArray _, _ => by simp [RData.value, Value.Holds]
  | .num _, h => by simpa [RData.value, Value.Holds, RData.Real] using h
  | .map _, h => by simpa [RData.value, RData.Real] using h
  | .some v, h => by
    simp only [RData.value, Value.Holds]
    exact value_holds v h
  | .seq vs, h => by
    simp only [RData.value, Value.Holds]
    exact values_hold vs h
  | .pairs kvs, h => by
    simp only [RData.value, Value.Holds]
    have := mapOfList_ok (A := fun V => V.Holds p) (B := fun V => V.Holds p) (rentries kvs) (holdsEntries_mem.1 (entries_hold kvs h))
    exact ⟨this.1, holdsEntries_mem.2 this.2⟩
theorem values_hold {p : Number → Prop} : ∀ vs : List RData, realAll p vs → HoldsAll p (rvalues vs)
  | [], _ => trivial
  | v :: vs, h => ⟨value_holds v h.1, values_hold vs h.2⟩
theorem entries_hold {p : Number → Prop} : ∀ kvs : List (RData × RData), realEntries p kvs → HoldsEntries p (rentries kvs)
  | [], _ => trivial
  | (k, v) :: kvs, h => ⟨⟨value_holds k h.1.1, value_holds v h.1.2⟩, entries_hold kvs h.2⟩
end

theorem valuesToS_all2 {R : Value → SVal → Prop} : ∀ vs : List Value, (∀ V ∈ vs, R V V.toS) → All2 R vs (valuesToS vs)
  | [], _ => trivial
  | v :: vs, h => ⟨h v (by simp), valuesToS_all2 vs fun V hV => h V (by simp [hV])⟩
theorem entriesToS_all2 {R : Value × Value → SVal × SVal → Prop} : ∀ m : List (Value × Value),
    (∀ e ∈ m, R e (e.1.toS, e.2.toS)) → All2 R m (entriesToS m)
  | [], _ => trivial
  | (k, v) :: m, h => ⟨h (k, v) (by simp), entriesToS_all2 m fun e he => h e (by simp [he])⟩
theorem mem_valuesToS : ∀ (vs : List Value), ∀ V ∈ vs, V.toS ∈ valuesToS vs
  | v :: vs, V, h => by
    simp only [valuesToS, List.mem_cons] at h ⊢
    rcases h with rfl | h
    · exact .inl rfl
    · exact .inr (mem_valuesToS vs V h)
theorem mem_entriesToS : ∀ (m : List (Value × Value)), ∀ e ∈ m, (e.1.toS, e.2.toS) ∈ entriesToS m
  | (k, v) :: m, e, h => by
    simp only [entriesToS, List.mem_cons] at h ⊢
    rcases h with rfl | h
    · exact .inl rfl
    · exact .inr (mem_entriesToS m e h)

/-- A value whose data belong to a type converts to them. -/
theorem into_own (D : Nat → Ty) : ∀ (n f : Nat) (T : Ty) (V : Value), n ≤ f → HasTy D n T V.toS → Value.into D f T V = .ok V.toS := by
  intro n
  induction n with
  | zero => intro f T V _ h; simp [HasTy] at h
  | succ n ih0 =>
    intro f T V hf hT
    obtain ⟨f, rfl⟩ : ∃ m, f = m + 1 := ⟨f - 1, by omega⟩
    have ih : ∀ T V, HasTy D n T V.toS → Value.into D f T V = .ok V.toS := fun T V => ih0 f T V (by omega)
    cases T with
    | value => simp [HasTy] at hT
    | raw => simp [HasTy] at hT
    | ref i => exact ih _ _ hT
    | enum name vs =>
      obtain ⟨id, k, -, -, h⟩ := hT
      cases k <;> cases V <;> simp [Value.toS] at h
    | option t =>
      rcases hT with h | ⟨u, h, h1⟩
      · cases V <;> simp [Value.toS] at h; rfl
      · cases V <;> simp [Value.toS] at h
        subst h
        show (Value.into D f t _).map SVal.some = _
        rw [ih _ _ h1]; rfl
    | int t =>
      obtain ⟨i, h, h1, h2⟩ := hT
      cases V <;> simp [Value.toS] at h
      subst h
      have hna : ¬ ((t = .i128 ∨ t = .u128) ∧ Env.int128 = false) := by rintro ⟨a, b⟩; rw [h1 a] at b; cases b
      simp only [Value.into, if_neg hna, Value.visit, numTo, Value.toS]
      rw [if_pos ⟨h2, id⟩]
    | seq t =>
      obtain ⟨us, h, h1⟩ := hT
      cases V <;> simp [Value.toS] at h
      obtain ⟨hl, rfl⟩ := h
      rename_i Vs
      have h3 : All2 (fun V v => Value.into D f t V = .ok v) Vs (valuesToS Vs) :=
        valuesToS_all2 Vs fun V hV => ih t V (h1 _ (mem_valuesToS Vs V hV))
      simp only [Value.into]
      refine visit_seq_ok _ ?_
      have := collectSeq_takes (fin := fun vs => SVal.seq (Option.some vs.length) vs) Vs (valuesToS Vs) [] (Vs.length + 1) h3 (by omega)
      simpa only [List.reverse_nil, List.nil_append, Value.toS, hl] using this
    | map k w =>
      obtain ⟨us, h, h1⟩ := hT
      cases V <;> simp [Value.toS] at h
      obtain ⟨hl, rfl⟩ := h
      rename_i es
      have h3 : All2 (fun (e : Value × Value) (b : SVal × SVal) => Value.into D f k e.1 = .ok b.1 ∧ Value.into D f w e.2 = .ok b.2) es
          (entriesToS es) :=
        entriesToS_all2 es fun e he => ⟨ih k _ (h1 _ (mem_entriesToS es e he)).1, ih w _ (h1 _ (mem_entriesToS es e he)).2⟩
      simp only [Value.into]
      refine visit_map_ok _ ?_
      have := collectMap_takes (ins := fun es a b => es ++ [(a, b)]) (fin := fun es => SVal.map (Option.some es.length) es) es
        (entriesToS es) [] (es.length + 1) Option.none h3 (by omega)
      have hfold : ∀ (l acc : List (SVal × SVal)), l.foldl (fun a b => a ++ [(b.1, b.2)]) acc = acc ++ l := by
        intro l
        induction l with
        | nil => simp
        | cons a l ihl => intro acc; rw [List.foldl_cons, ihl]; simp
      rw [hfold] at this
      simpa only [List.nil_append, Value.toS, hl] using this
    | bool => obtain ⟨b, h⟩ := hT; cases V <;> simp [Value.toS] at h; rfl
    | char => obtain ⟨b, h⟩ := hT; cases V <;> simp [Value.toS] at h; rfl
    | str => obtain ⟨b, h⟩ := hT; cases V <;> simp [Value.toS] at h; rfl
    | bytes => obtain ⟨b, h⟩ := hT; cases V <;> simp [Value.toS] at h; rfl
    | f32 => obtain ⟨b, h, -⟩ := hT; cases V <;> simp [Value.toS] at h; subst h; rfl
    | f64 => obtain ⟨b, h, -⟩ := hT; cases V <;> simp [Value.toS] at h; subst h; rfl
    | unit => simp only [HasTy] at hT; cases V <;> simp [Value.toS] at hT; rfl
    | unitStruct => simp only [HasTy] at hT; cases V <;> simp [Value.toS] at hT
    | newtype => obtain ⟨u, h, -⟩ := hT; cases V <;> simp [Value.toS] at h
    | tuple => obtain ⟨u, h, -⟩ := hT; cases V <;> simp [Value.toS] at h
    | tupleStruct => obtain ⟨u, h, -⟩ := hT; cases V <;> simp [Value.toS] at h
    | struct => obtain ⟨u, h, -⟩ := hT; cases V <;> simp [Value.toS] at h

end Ron
