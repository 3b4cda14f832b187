import Verif.Spec.Reread
import Verif.Lemmas.Doc
import Verif.Lemmas.SerOk
/-! Values as serialized data. -/

set_option linter.unusedSimpArgs false

namespace Ron

variable [Env]

/-! ### Maps -/

omit [Env] in
theorem ixInsert_new (m : List (Value × Value)) (k v : Value) (h : k ∉ m.map Prod.fst) : (ixInsert m k v).2 = m ++ [(k, v)] := by
  induction m with
  | nil => rfl
  | cons p m ih =>
    obtain ⟨k', v'⟩ := p
    simp only [List.map_cons, List.mem_cons, not_or] at h
    have hne : k'.eqv k = false := by
      apply Bool.eq_false_iff.mpr
      intro he
      exact h.1 ((Value.eqv_iff k' k).mp he).symm
    simp only [ixInsert, hne, Bool.false_eq_true, ↓reduceIte, ih h.2, List.cons_append]

omit [Env] in
theorem btInsert_new (m : List (Value × Value)) (k v : Value) (h : ∀ k' ∈ m.map Prod.fst, k'.cmp k = .lt) :
    (btInsert m k v).2 = m ++ [(k, v)] := by
  induction m with
  | nil => rfl
  | cons p m ih =>
    obtain ⟨k', v'⟩ := p
    simp only [List.map_cons, List.mem_cons, forall_eq_or_imp] at h
    have hgt : k.cmp k' = .gt := by rw [Value.cmp_swap, h.1]; rfl
    simp only [btInsert, hgt, ih h.2, List.cons_append]

theorem mapOfList_inv {m : List (Value × Value)} (h : MapInv m) : mapOfList m = m := by
  have key : ∀ (m acc : List (Value × Value)), MapInv (acc ++ m) →
      m.foldl (fun m kv => (mapInsert m kv.1 kv.2).2) acc = acc ++ m := by
    intro m
    induction m with
    | nil => intro acc _; simp
    | cons p m ih =>
      intro acc h
      obtain ⟨k, v⟩ := p
      have hi : (mapInsert acc k v).2 = acc ++ [(k, v)] := by
        unfold mapInsert
        unfold MapInv at h
        split
        · rename_i hx
          rw [if_pos hx] at h
          refine ixInsert_new _ _ _ ?_
          intro hm
          unfold NodupKeys at h
          rw [List.map_append, List.nodup_append] at h
          exact h.2.2 k hm k (by simp) rfl
        · rename_i hx
          rw [if_neg hx] at h
          refine btInsert_new _ _ _ ?_
          intro k' hk'
          unfold Sorted at h
          rw [List.map_append, List.pairwise_append] at h
          exact h.2.2 k' hk' k (by simp)
      simp only [List.foldl_cons, hi]
      rw [ih _ (by simpa using h)]
      simp
  exact key m [] (by simpa using h)

/-! ### What a serialized value reads as -/

/-- The number that a written number is read as. -/
def reNum (sfx : Bool) (n : Number) : Number := if sfx then n.canon else n.untyped

mutual
theorem selfDesc_value {x : Exts} (hx : x.implicitSome = false) {sfx : Bool} :
    ∀ (V V' : Value), SelfDesc x sfx V.toS V' → V' = V.mapNum (reNum sfx)
  | .bool _, _, h => by simpa [Value.toS, SelfDesc, Value.mapNum] using h
  | .char _, _, h => by simpa [Value.toS, SelfDesc, Value.mapNum] using h
  | .map m, V', h => by
    simp only [Value.toS, SelfDesc] at h
    obtain ⟨es, h1, rfl⟩ := h
    rw [selfDesc_entries hx m es h1, Value.mapNum]
  | .num _, _, h => by simpa [Value.toS, SelfDesc, Value.mapNum, reNum] using h
  | .none, _, h => by simpa [Value.toS, SelfDesc, Value.mapNum] using h
  | .some v, V', h => by
    simp only [Value.toS, SelfDesc, hx, Bool.false_eq_true, false_and, or_false] at h
    obtain ⟨V, h1, rfl⟩ := h
    rw [selfDesc_value hx v V h1, Value.mapNum]
  | .str _, _, h => by simpa [Value.toS, SelfDesc, Value.mapNum] using h
  | .bytes _, _, h => by simpa [Value.toS, SelfDesc, Value.mapNum] using h
  | .seq vs, V', h => by
    simp only [Value.toS, SelfDesc] at h
    obtain ⟨es, h1, rfl⟩ := h
    rw [selfDesc_values hx vs es h1, Value.mapNum]
  | .unit, _, h => by simpa [Value.toS, SelfDesc, Value.mapNum] using h
theorem selfDesc_values {x : Exts} (hx : x.implicitSome = false) {sfx : Bool} :
    ∀ (vs Vs : List Value), SelfDescAll x sfx (valuesToS vs) Vs → Vs = mapNumAll (reNum sfx) vs
  | [], [], _ => by simp [mapNumAll]
  | v :: vs, V :: Vs, h => by
    simp only [valuesToS, SelfDescAll] at h
    rw [mapNumAll, selfDesc_value hx v V h.1, selfDesc_values hx vs Vs h.2]
  | [], _ :: _, h => by simp [valuesToS, SelfDescAll] at h
  | _ :: _, [], h => by simp [valuesToS, SelfDescAll] at h
theorem selfDesc_entries {x : Exts} (hx : x.implicitSome = false) {sfx : Bool} :
    ∀ (m es : List (Value × Value)), SelfDescEntries x sfx (entriesToS m) es → es = mapNumEntries (reNum sfx) m
  | [], [], _ => by simp [mapNumEntries]
  | (k, v) :: m, (K, V) :: es, h => by
    simp only [entriesToS, SelfDescEntries] at h
    rw [mapNumEntries, selfDesc_value hx k K h.1.1, selfDesc_value hx v V h.1.2, selfDesc_entries hx m es h.2]
  | [], _ :: _, h => by simp [entriesToS, SelfDescEntries] at h
  | _ :: _, [], h => by simp [entriesToS, SelfDescEntries] at h
end

/-! ### Conditions -/

mutual
theorem clean_value {p : Number → Prop} (hp : ∀ n, p n → n.WF) (rg : Ranges) (wx : Bool) : ∀ V : Value, V.Holds p → V.toS.Clean rg wx
  | .bool _, _ => by simp [Value.toS, SVal.Clean]
  | .char _, _ => by simp [Value.toS, SVal.Clean]
  | .map m, h => by simp only [Value.Holds] at h; simp only [Value.toS, SVal.Clean]; exact clean_entries hp rg wx m h.2
  | .num n, h => by simp only [Value.Holds] at h; simp only [Value.toS, SVal.Clean]; exact hp n h
  | .none, _ => by simp [Value.toS, SVal.Clean]
  | .some v, h => by simp only [Value.Holds] at h; simp only [Value.toS, SVal.Clean]; exact clean_value hp rg wx v h
  | .str _, _ => by simp [Value.toS, SVal.Clean]
  | .bytes _, _ => by simp [Value.toS, SVal.Clean]
  | .seq vs, h => by simp only [Value.Holds] at h; simp only [Value.toS, SVal.Clean]; exact clean_values hp rg wx vs h
  | .unit, _ => by simp [Value.toS, SVal.Clean]
theorem clean_values {p : Number → Prop} (hp : ∀ n, p n → n.WF) (rg : Ranges) (wx : Bool) : ∀ vs : List Value, HoldsAll p vs → CleanAll rg wx (valuesToS vs)
  | [], _ => by simp [valuesToS, CleanAll]
  | v :: vs, h => by
    simp only [HoldsAll] at h
    simp only [valuesToS, CleanAll]
    exact ⟨clean_value hp rg wx v h.1, clean_values hp rg wx vs h.2⟩
theorem clean_entries {p : Number → Prop} (hp : ∀ n, p n → n.WF) (rg : Ranges) (wx : Bool) :
    ∀ m : List (Value × Value), HoldsEntries p m → CleanEntries rg wx (entriesToS m)
  | [], _ => by simp [entriesToS, CleanEntries]
  | (k, v) :: m, h => by
    simp only [HoldsEntries] at h
    simp only [entriesToS, CleanEntries]
    exact ⟨⟨clean_value hp rg wx k h.1.1, clean_value hp rg wx v h.1.2⟩, clean_entries hp rg wx m h.2⟩
end

mutual
theorem named_value : ∀ V : Value, V.toS.Named
  | .bool _ => by simp [Value.toS, SVal.Named]
  | .char _ => by simp [Value.toS, SVal.Named]
  | .map m => by simp only [Value.toS, SVal.Named]; exact named_entries m
  | .num n => by simp [Value.toS, SVal.Named]
  | .none => by simp [Value.toS, SVal.Named]
  | .some v => by simp only [Value.toS, SVal.Named]; exact named_value v
  | .str _ => by simp [Value.toS, SVal.Named]
  | .bytes _ => by simp [Value.toS, SVal.Named]
  | .seq vs => by simp only [Value.toS, SVal.Named]; exact named_values vs
  | .unit => by simp [Value.toS, SVal.Named]
theorem named_values : ∀ vs : List Value, NamedAll (valuesToS vs)
  | [] => by simp [valuesToS, NamedAll]
  | v :: vs => by simp only [valuesToS, NamedAll]; exact ⟨named_value v, named_values vs⟩
theorem named_entries : ∀ m : List (Value × Value), NamedEntries (entriesToS m)
  | [] => by simp [entriesToS, NamedEntries]
  | (k, v) :: m => by simp only [entriesToS, NamedEntries]; exact ⟨⟨named_value k, named_value v⟩, named_entries m⟩
end

mutual
theorem levels_value (x : Exts) : ∀ V : Value, V.toS.levels x = V.levels
  | .bool _ => by simp [Value.toS, SVal.levels, Value.levels]
  | .char _ => by simp [Value.toS, SVal.levels, Value.levels]
  | .map m => by simp only [Value.toS, SVal.levels, Value.levels]; exact levels_entries x m
  | .num n => by simp [Value.toS, SVal.levels, Value.levels]
  | .none => by simp [Value.toS, SVal.levels, Value.levels]
  | .some v => by simp only [Value.toS, SVal.levels, Value.levels]; rw [levels_value x v]
  | .str _ => by simp [Value.toS, SVal.levels, Value.levels]
  | .bytes _ => by simp [Value.toS, SVal.levels, Value.levels]
  | .seq vs => by simp only [Value.toS, SVal.levels, Value.levels]; exact levels_values x vs
  | .unit => by simp [Value.toS, SVal.levels, Value.levels]
theorem levels_values (x : Exts) : ∀ vs : List Value, levelsAll x (valuesToS vs) = valueLevels vs
  | [] => by simp [valuesToS, levelsAll, valueLevels]
  | v :: vs => by simp only [valuesToS, levelsAll, valueLevels]; rw [levels_value x v, levels_values x vs]
theorem levels_entries (x : Exts) : ∀ m : List (Value × Value), levelsEntries x (entriesToS m) = entryLevels m
  | [] => by simp [entriesToS, levelsEntries, entryLevels]
  | (k, v) :: m => by
    simp only [entriesToS, levelsEntries, entryLevels]; rw [levels_value x k, levels_value x v, levels_entries x m]
end

mutual
/-- Writing takes no more budget than reading. -/
theorem nesting_le (x : Exts) (hn : x.unwrapNewtypes = false) : ∀ v : SVal, v.Clean .structs false → v.nesting ≤ v.levels x
  | .some v, h => by
    have := nesting_le x hn v (by simpa [SVal.Clean] using h)
    simp only [SVal.nesting, SVal.levels]; omega
  | .newtypeStruct _ v, h => by
    have := nesting_le x hn v (by simpa [SVal.Clean] using h)
    simp only [SVal.nesting, SVal.levels, hn, Bool.false_eq_true, ↓reduceIte]; omega
  | .newtypeVariant _ _ v, h => by
    have := nesting_le x hn v (by simpa [SVal.Clean] using h)
    simp only [SVal.nesting, SVal.levels]; omega
  | .seq _ vs, h => by
    simp only [SVal.nesting, SVal.levels]; exact nestingAll_le x hn vs (by simpa [SVal.Clean] using h)
  | .tuple vs, h => by
    simp only [SVal.nesting, SVal.levels]; exact nestingAll_le x hn vs (by simpa [SVal.Clean] using h)
  | .tupleStruct _ vs, h => by
    simp only [SVal.nesting, SVal.levels]; exact nestingAll_le x hn vs (by simpa [SVal.Clean] using h)
  | .tupleVariant _ _ vs, h => by
    simp only [SVal.nesting, SVal.levels]; exact nestingAll_le x hn vs (by simpa [SVal.Clean] using h)
  | .map _ kvs, h => by
    simp only [SVal.nesting, SVal.levels]; exact nestingEntries_le x hn kvs (by simpa [SVal.Clean] using h)
  | .struct _ fs, h => by
    simp only [SVal.nesting, SVal.levels]; exact nestingFields_le x hn fs (by simpa [SVal.Clean] using h)
  | .structVariant _ _ fs, h => by
    simp only [SVal.nesting, SVal.levels]; exact nestingFields_le x hn fs (by simpa [SVal.Clean] using h)
  | .raw _, h => by simp [SVal.Clean] at h
  | .bool _, _ => by simp [SVal.nesting]
  | .num _, _ => by simp [SVal.nesting]
  | .char _, _ => by simp [SVal.nesting]
  | .str _, _ => by simp [SVal.nesting]
  | .bytes _, _ => by simp [SVal.nesting]
  | .none, _ => by simp [SVal.nesting]
  | .unit, _ => by simp [SVal.nesting]
  | .unitStruct _, _ => by simp [SVal.nesting]
  | .unitVariant _ _, _ => by simp [SVal.nesting]
theorem nestingAll_le (x : Exts) (hn : x.unwrapNewtypes = false) : ∀ vs : List SVal, CleanAll .structs false vs → nestingAll vs ≤ levelsAll x vs
  | [], _ => by simp [nestingAll]
  | v :: vs, h => by
    simp only [CleanAll] at h
    have h1 := nesting_le x hn v h.1
    have h2 := nestingAll_le x hn vs h.2
    simp only [nestingAll, levelsAll]; omega
theorem nestingEntries_le (x : Exts) (hn : x.unwrapNewtypes = false) :
    ∀ kvs : List (SVal × SVal), CleanEntries .structs false kvs → nestingEntries kvs ≤ levelsEntries x kvs
  | [], _ => by simp [nestingEntries]
  | (k, v) :: kvs, h => by
    simp only [CleanEntries] at h
    have h0 := nesting_le x hn k h.1.1
    have h1 := nesting_le x hn v h.1.2
    have h2 := nestingEntries_le x hn kvs h.2
    simp only [nestingEntries, levelsEntries]; omega
theorem nestingFields_le (x : Exts) (hn : x.unwrapNewtypes = false) :
    ∀ fs : List (Text × SVal), CleanFields .structs false fs → nestingFields fs ≤ levelsFields x fs
  | [], _ => by simp [nestingFields]
  | (_, v) :: fs, h => by
    simp only [CleanFields] at h
    have h1 := nesting_le x hn v h.1
    have h2 := nestingFields_le x hn fs h.2
    simp only [nestingFields, levelsFields]; omega
end

end Ron

namespace Ron

variable [Env]

mutual
theorem mapNum_id {p : Number → Prop} {f : Number → Number} (hp : ∀ n, p n → f n = n) :
    ∀ V : Value, V.Holds p → V.mapNum f = V
  | .bool _, _ => by simp [Value.mapNum]
  | .char _, _ => by simp [Value.mapNum]
  | .map m, h => by
    simp only [Value.Holds] at h
    rw [Value.mapNum, mapNum_ids hp m h.2, mapOfList_inv h.1]
  | .num n, h => by simp only [Value.Holds] at h; rw [Value.mapNum, hp n h]
  | .none, _ => by simp [Value.mapNum]
  | .some v, h => by simp only [Value.Holds] at h; rw [Value.mapNum, mapNum_id hp v h]
  | .str _, _ => by simp [Value.mapNum]
  | .bytes _, _ => by simp [Value.mapNum]
  | .seq vs, h => by simp only [Value.Holds] at h; rw [Value.mapNum, mapNum_idAll hp vs h]
  | .unit, _ => by simp [Value.mapNum]
theorem mapNum_idAll {p : Number → Prop} {f : Number → Number} (hp : ∀ n, p n → f n = n) :
    ∀ vs : List Value, HoldsAll p vs → mapNumAll f vs = vs
  | [], _ => by simp [mapNumAll]
  | v :: vs, h => by
    simp only [HoldsAll] at h
    rw [mapNumAll, mapNum_id hp v h.1, mapNum_idAll hp vs h.2]
theorem mapNum_ids {p : Number → Prop} {f : Number → Number} (hp : ∀ n, p n → f n = n) :
    ∀ m : List (Value × Value), HoldsEntries p m → mapNumEntries f m = m
  | [], _ => by simp [mapNumEntries]
  | (k, v) :: m, h => by
    simp only [HoldsEntries] at h
    rw [mapNumEntries, mapNum_id hp k h.1.1, mapNum_id hp v h.1.2, mapNum_ids hp m h.2]
end

theorem nesting_value {p : Number → Prop} (hp : ∀ n, p n → n.WF) (V : Value) (h : V.Holds p) : V.toS.nesting ≤ V.levels := by
  rw [← levels_value {} V]
  exact nesting_le {} rfl _ (clean_value hp .structs false V h)

/-- Serialization succeeds: a blank configuration, possible names, nesting within the limit. -/
theorem toText_goes {o : Options} {cfg : Option PrettyConfig} {v : SVal} (hb : ∀ c, cfg = some c → c.Blank)
    (hv : v.Named) (hk : ∀ m, o.recursionLimit = some m → v.nesting ≤ m) : ∃ t, toText o cfg v = .ok t := by
  have h0 := serNew_quiet (s := Ser.init o cfg {}) rfl (by
    intro c i e
    cases cfg with
    | none => cases e
    | some c' =>
      simp only [Ser.init, Option.map_some, Option.some.injEq, Prod.mk.injEq] at e
      rw [← e.1]; exact hb _ rfl)
  generalize hs : (Ser.init o cfg {}).put _ = s1 at h0
  obtain ⟨a, s2, h1, -⟩ := ser_goes v hv s1 (by rw [← hs]; rfl) (by rw [← hs]; exact hk)
  refine ⟨s2.w.out, ?_⟩
  unfold toText toWriter
  simp only [wbind_apply, h0, h1]

/-- Serialized data, surrounded by layout, reads as a `Value` that it may read as. -/
theorem serialized_reads {o : Options} {cfg : Option PrettyConfig} {v : SVal} {t : Text} (hv : v.Clean (rgOf o cfg) false)
    (hx : (extsOf o cfg).unwrapVariantNewtypes = false)
    (hk : ∀ m, o.recursionLimit = some m → v.levels (extsOf o cfg) ≤ m)
    (h : toText o cfg v = .ok t) :
    ∃ V, SelfDesc (extsOf o cfg) (sfxOf cfg) v V ∧
      ∀ l l', Layout l → Layout l' → fromStr o deValue (l ++ (t ++ l')) = .ok V := by
  obtain ⟨hdr, w, e, rfl, h1, h2, h3⟩ := toText_rend (by rw [show wxOf o cfg = false by simp [wxOf, hx]]; exact hv) h
  obtain ⟨V, h4, h5⟩ := rend_den hx v h3
  refine ⟨V, h4, fun l l' hl hl' => ?_⟩
  rw [List.append_assoc]
  exact doc_reads (deValue_reads hx h5) hl h1 h2 hk hl'

/-- The general round trip of a `Value`. -/
theorem value_roundtrip {o : Options} {cfg : Option PrettyConfig} {V : Value} (hb : ∀ c, cfg = some c → c.Blank)
    (hi : (extsOf o cfg).implicitSome = false) (hx : (extsOf o cfg).unwrapVariantNewtypes = false)
    (hV : V.Holds Number.WF) (hk : ∀ m, o.recursionLimit = some m → V.levels ≤ m) :
    ∃ t, toText o cfg V.toS = .ok t ∧
      ∀ l l', Layout l → Layout l' → fromStr o deValue (l ++ (t ++ l')) = .ok (V.mapNum (reNum (sfxOf cfg))) := by
  obtain ⟨t, ht⟩ := toText_goes hb (named_value V)
    (fun m hm => Nat.le_trans (nesting_value (fun _ h => h) V hV) (hk m hm))
  obtain ⟨V', h1, h2⟩ := serialized_reads (clean_value (fun _ h => h) _ _ V hV) hx
    (fun m hm => by rw [levels_value]; exact hk m hm) ht
  rw [selfDesc_value hi V V' h1] at h2
  exact ⟨t, ht, h2⟩

mutual
theorem Value.Holds.imp {p q : Number → Prop} (hp : ∀ n, p n → q n) : ∀ {V : Value}, V.Holds p → V.Holds q
  | .num n, h => by simp only [Value.Holds] at *; exact hp n h
  | .some v, h => by simp only [Value.Holds] at *; exact h.imp hp
  | .seq vs, h => by simp only [Value.Holds] at *; exact holdsAll_imp hp h
  | .map m, h => by simp only [Value.Holds] at *; exact ⟨h.1, holdsEntries_imp hp h.2⟩
  | .bool _, _ => by simp [Value.Holds]
  | .char _, _ => by simp [Value.Holds]
  | .none, _ => by simp [Value.Holds]
  | .str _, _ => by simp [Value.Holds]
  | .bytes _, _ => by simp [Value.Holds]
  | .unit, _ => by simp [Value.Holds]
theorem holdsAll_imp {p q : Number → Prop} (hp : ∀ n, p n → q n) : ∀ {vs : List Value}, HoldsAll p vs → HoldsAll q vs
  | [], _ => by simp [HoldsAll]
  | _ :: _, h => by simp only [HoldsAll] at *; exact ⟨h.1.imp hp, holdsAll_imp hp h.2⟩
theorem holdsEntries_imp {p q : Number → Prop} (hp : ∀ n, p n → q n) :
    ∀ {m : List (Value × Value)}, HoldsEntries p m → HoldsEntries q m
  | [], _ => by simp [HoldsEntries]
  | (_, _) :: _, h => by simp only [HoldsEntries] at *; exact ⟨⟨h.1.1.imp hp, h.1.2.imp hp⟩, holdsEntries_imp hp h.2⟩
end

end Ron
