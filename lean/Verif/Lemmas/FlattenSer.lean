import Verif.Lemmas.Flatten
import Verif.Lemmas.TyDoc
import Verif.Lemmas.TaggedSer
/-! Structs with flattened fields: any order, and what is written. -/

set_option linter.unusedSectionVars false
set_option linter.unusedVariables false

namespace Ron

variable [Env]

/-! ### Items and plain fields -/

theorem flat_plain {x : Exts} {D : Nat → Ty} {n : Nat} : ∀ (fields : List (Text × FlatTy)) (fs : List (Text × SVal)) (its : List (Text × FlatItem)),
    FlatHas x D n fields fs its → All2 (fun F f => F.1 = f.1 ∧ (F.1, FlatItem.typed F.2 f.2) ∈ its) (flatPlain fields) (flatVals fields fs) ∧
      (∀ k T v, (k, .typed T v) ∈ its → (k, T) ∈ flatPlain fields ∧ HasTy D n T v)
  | [], [], its, h => by
    simp only [FlatHas] at h
    subst h
    exact ⟨trivial, by simp⟩
  | (k, .plain T) :: fields, (k', v) :: fs, its, h => by
    simp only [FlatHas] at h
    obtain ⟨rfl, h1, r, rfl, h2⟩ := h
    obtain ⟨g1, g2⟩ := flat_plain fields fs r h2
    refine ⟨⟨⟨rfl, by simp⟩, g1.imp fun F f h => ⟨h.1, by simp [h.2]⟩⟩, ?_⟩
    intro j T' v' hm
    rcases List.mem_cons.mp hm with e | hm
    · cases e; exact ⟨by simp [flatPlain], h1⟩
    · obtain ⟨m1, m2⟩ := g2 j T' v' hm
      exact ⟨by simp [flatPlain, m1], m2⟩
  | (k, .struct name gs) :: fields, (k', v) :: fs, its, h => by
    simp only [FlatHas] at h
    obtain ⟨rfl, vs, r, rfl, hg, hT, rfl, h2⟩ := h
    obtain ⟨g1, g2⟩ := flat_plain fields fs r h2
    refine ⟨g1.imp fun F f h => ⟨h.1, by simp [h.2]⟩, ?_⟩
    intro j T' v' hm
    rcases List.mem_append.mp hm with e | hm
    · obtain ⟨_, _, e⟩ := List.mem_map.mp e; cases e
    · exact g2 j T' v' hm
  | (k, .map K V) :: fields, (k', v) :: fs, its, h => by
    simp only [FlatHas] at h
    obtain ⟨rfl, vs, r, rfl, hT, rfl, h2⟩ := h
    obtain ⟨g1, g2⟩ := flat_plain fields fs r h2
    refine ⟨g1.imp fun F f h => ⟨h.1, by simp [h.2]⟩, ?_⟩
    intro j T' v' hm
    rcases List.mem_append.mp hm with e | hm
    · obtain ⟨_, _, e⟩ := List.mem_map.mp e; cases e
    · exact g2 j T' v' hm
  | [], _ :: _, _, h => by simp [FlatHas] at h
  | (_, .plain _) :: _, [], _, h => by simp [FlatHas] at h
  | (_, .struct _ _) :: _, [], _, h => by simp [FlatHas] at h
  | (_, .map _ _) :: _, [], _, h => by simp [FlatHas] at h

theorem flat_plainNames {x : Exts} {D : Nat → Ty} {n : Nat} : ∀ (fields : List (Text × FlatTy)) (fs : List (Text × SVal)) (its : List (Text × FlatItem)),
    FlatHas x D n fields fs its → ((flatPlain fields).map Prod.fst).Sublist (its.map Prod.fst)
  | [], [], its, h => by simp [flatPlain]
  | (k, .plain T) :: fields, (k', v) :: fs, its, h => by
    simp only [FlatHas] at h
    obtain ⟨rfl, h1, r, rfl, h2⟩ := h
    exact (flat_plainNames fields fs r h2).cons_cons k
  | (k, .struct name gs) :: fields, (k', v) :: fs, its, h => by
    simp only [FlatHas] at h
    obtain ⟨rfl, vs, r, rfl, hg, hT, rfl, h2⟩ := h
    rw [List.map_append]
    exact (flat_plainNames fields fs r h2).trans (List.sublist_append_right _ _)
  | (k, .map K V) :: fields, (k', v) :: fs, its, h => by
    simp only [FlatHas] at h
    obtain ⟨rfl, vs, r, rfl, hT, rfl, h2⟩ := h
    rw [List.map_append]
    exact (flat_plainNames fields fs r h2).trans (List.sublist_append_right _ _)
  | [], _ :: _, _, h => by simp [FlatHas] at h
  | (_, .plain _) :: _, [], _, h => by simp [FlatHas] at h
  | (_, .struct _ _) :: _, [], _, h => by simp [FlatHas] at h
  | (_, .map _ _) :: _, [], _, h => by simp [FlatHas] at h

theorem flatBufs_keys (its : List (Text × FlatItem)) : ((flatBufs its).map Prod.fst).Sublist (its.map Prod.fst) := by
  induction its with
  | nil => exact .slnil
  | cons it its ih =>
    obtain ⟨k, it⟩ := it
    cases it with
    | typed T v => exact ih.cons k
    | buffered c => exact ih.cons_cons k

theorem flatTyped_keys (its : List (Text × FlatItem)) : (keysOf (flatTyped its)).Sublist (its.map Prod.fst) := by
  induction its with
  | nil => exact .slnil
  | cons it its ih =>
    obtain ⟨k, it⟩ := it
    cases it with
    | typed T v => exact ih.cons_cons k
    | buffered c => exact ih.cons k

omit [Env] in
theorem nodup_key {α : Type} {l : List (Text × α)} (hn : (l.map Prod.fst).Nodup) {k : Text} {a b : α} (ha : (k, a) ∈ l) (hb : (k, b) ∈ l) : a = b := by
  have h1 := find_field hn ha
  have h2 := find_field hn hb
  simp only at h1 h2
  rw [h1] at h2
  cases h2
  rfl

/-- The entries may stand in any order; entries that no field takes are ignored. -/
theorem flat_anyOrder {x : Exts} (hx : x.unwrapVariantNewtypes = false) {sfx : Bool} {D : Nat → Ty} {n f : Nat} (hf : n ≤ f) {name : Text}
    {fields : List (Text × FlatTy)} {fs : List (Text × SVal)} {its ds : List (Text × FlatItem)} {extra : List (Text × Content)} {y : Exts}
    (hH : FlatHas y D n fields fs its) (hb : FlatBuffers y fields fs) (hp : ds.Perm (its ++ extra.map fun e => (e.1, .buffered e.2)))
    (hn : (its.map Prod.fst).Nodup) (hex : ∀ e ∈ extra, e.1 ∉ its.map Prod.fst) (hl : MapLast fields) (hm : extra = [] ∨ NoMap fields)
    (hs : (mapItems y fields fs).Sublist ds) {ts : List Text} {w : Text} (hE : All2 (FlatText x sfx) ts ds) (hD : Delim '{' '}' ts w) :
    Reads x (flatLevels ds + 1) (deFlat D f name fields) w (.struct name fs) := by
  obtain ⟨hP1, hP2⟩ := flat_plain fields fs its hH
  have hnames := flat_plainNames fields fs its hH
  have hpn := hn.sublist hnames
  have hmemP : ∀ k ∈ (flatPlain fields).map Prod.fst, ∃ T v, (k, FlatItem.typed T v) ∈ its := by
    intro k hk
    obtain ⟨F, hF, rfl⟩ := List.mem_map.mp hk
    have hP1' := hP1
    clear hP2 hnames hpn hE hs hp
    generalize flatPlain fields = ps at hP1' hF
    generalize flatVals fields fs = vs at hP1'
    induction ps generalizing vs with
    | nil => simp at hF
    | cons p ps ih => cases vs with
      | nil => exact hP1'.elim
      | cons v vs =>
        rcases List.mem_cons.mp hF with rfl | hF
        · exact ⟨_, _, hP1'.1.2⟩
        · exact ih hF vs hP1'.2
  have hbuf0 := hp.filterMap (fun it => match it.2 with
    | FlatItem.typed _ _ => none
    | .buffered c => some (it.1, c))
  have hbuf : (flatBufs ds).Perm (flatBufs its ++ extra) := by
    have h1 := flatBufs_buffered extra (fun e => e.1) (fun e => e.2)
    have h2 : extra.map (fun e => (e.1, e.2)) = extra := by
      have : (fun e : Text × Content => (e.1, e.2)) = id := rfl
      rw [this, List.map_id]
    rw [h2] at h1
    have : flatBufs (its ++ extra.map fun e => (e.1, .buffered e.2)) = flatBufs its ++ extra := by rw [flatBufs_append, h1]
    rw [← this]
    exact hbuf0
  have htyp : (flatTyped ds).Perm (flatTyped its ++ flatTyped (extra.map fun e => (e.1, .buffered e.2))) := by
    have := hp.map (fun it : Text × FlatItem => match it.2 with
      | .typed _ v => some (it.1, v)
      | .buffered _ => none)
    rwa [List.map_append] at this
  have hkx : keysOf (flatTyped (extra.map fun e => (e.1, .buffered e.2))) = [] := by
    clear hp hex hm hbuf0 hbuf htyp
    induction extra with
    | nil => rfl
    | cons e es ih => exact ih
  have hkeys : (keysOf (flatTyped ds)).Perm (keysOf (flatTyped its)) := by
    have := (htyp.filterMap id).map Prod.fst
    rw [List.filterMap_append, List.map_append] at this
    have h2 : ((flatTyped (extra.map fun e => (e.1, FlatItem.buffered e.2))).filterMap id).map Prod.fst = [] := hkx
    rw [h2, List.append_nil] at this
    exact this
  have hkn : (keysOf (flatTyped ds)).Nodup := hkeys.nodup_iff.mpr (hn.sublist (flatTyped_keys its))
  refine flat_reads hx hf hE hD ?_ hkn (ps := flatVals fields fs) ?_ ?_
  · intro it hit
    rcases List.mem_append.mp (hp.mem_iff.mp hit) with h | h
    · obtain ⟨k, it⟩ := it
      cases it with
      | typed T v =>
        obtain ⟨h1, h2⟩ := hP2 k T v h
        exact ⟨find_field hpn h1, h2⟩
      | buffered c =>
        intro hk
        obtain ⟨T, v, h'⟩ := hmemP k hk
        have := nodup_key hn h h'
        cases this
    · obtain ⟨e, he, rfl⟩ := List.mem_map.mp h
      exact fun hk => hex e he (hnames.subset hk)
  · refine collectFields_ok (hP1.imp fun F v h => ⟨h.1, .inl ?_⟩)
    refine gotOf_mem _ _ _ _ hkn ?_
    refine htyp.mem_iff.mpr (List.mem_append_left _ ?_)
    exact List.mem_map.mpr ⟨_, h.2, rfl⟩
  · rw [flatRest_bufs]
    refine flat_walk hf fields fs its (flatBufs ds) extra hH hb hbuf (hn.sublist (flatBufs_keys its))
      (fun e he h => hex e he ((flatBufs_keys its).subset h)) hl hm ?_
    exact hs.filterMap _

/-! ### What is written -/

/-- The compact form is a rendering. -/
theorem rend_compact {D : Nat → Ty} {n : Nat} {T : Ty} {v : SVal} {x : Exts} (hu : x.unwrapVariantNewtypes = false) (hT : HasTy D n T v) (hv : v.Named) :
    Rend x false false v (compact x false 0 v) := by
  have hc := HasTy.clean D n T v hT
  let o : Options := { defaultExtensions := x, recursionLimit := none }
  have ht : toText o none v = .ok (compact x false 0 v) := C52_written o v hv (fun m hm => by cases hm)
  have h1 : crOf none = false := rfl
  have h2 : wxOf o none = false := by
    have : (extsOf o none).unwrapVariantNewtypes = false := by simpa [extsOf, o, Exts.union] using hu
    unfold wxOf
    rw [this]
    simp
  obtain ⟨s1, e, h0, hx1, hn1, hcr, hid, ha, hu⟩ := toText_start (o := o) (cfg := none) (fun c h => by cases h)
  have h0' : serNew (Ser.init o none {}) = .ok () (Ser.init o none {}) := rfl
  rw [h0'] at h0
  cases h0
  have hrd : Ready (rgOf o none) (wxOf o none) (Ser.init o none {}) := by
    refine ⟨hid.good, ?_, ?_, ?_⟩
    · rw [hcr]; rfl
    · intro e; rw [rgOf_structs h1] at e; cases e
    · rw [hx1]; rfl
  have hv' : v.Clean (rgOf o none) (wxOf o none) := by rw [rgOf_structs h1, h2]; exact hc
  unfold toText toWriter at ht
  simp only [wbind_apply, h0'] at ht
  cases hse : ser v (Ser.init o none {}) with
  | err e s => rw [hse] at ht; cases ht
  | ok a s2 =>
    rw [hse] at ht
    simp only [Except.ok.injEq] at ht
    obtain ⟨-, -, w, hst, hrend⟩ := (writes_of v hv').elem hid hrd hse
    rw [hx1, hn1] at hrend
    have hout := hst.out
    rw [ht] at hout
    have hw : compact x false 0 v = w := by simpa [Ser.init] using hout
    rw [hw]
    have : extsOf o none = x := by simp [extsOf, o, Exts.union]
    rw [this] at hrend
    exact hrend

theorem compactEntries_append (x : Exts) (a b : List (SVal × SVal)) : compactEntries x (a ++ b) = compactEntries x a ++ compactEntries x b := by
  induction a with
  | nil => rfl
  | cons e a ih => obtain ⟨k, v⟩ := e; simp only [List.cons_append, compactEntries, ih]

omit [Env] in
theorem All2.append {α β : Type} {R : α → β → Prop} : ∀ {as as' : List α} {bs bs' : List β}, All2 R as bs → All2 R as' bs' → All2 R (as ++ as') (bs ++ bs')
  | [], _, [], _, _, h => h
  | _ :: _, _, _ :: _, _, h, h' => ⟨h.1, All2.append h.2 h'⟩
  | [], _, _ :: _, _, h, _ => h.elim
  | _ :: _, _, [], _, h, _ => h.elim

theorem namedEntries_append : ∀ {a b : List (SVal × SVal)}, NamedEntries (a ++ b) → NamedEntries a ∧ NamedEntries b
  | [], _, h => ⟨by simp [NamedEntries], h⟩
  | (k, v) :: a, b, h => by
    simp only [List.cons_append, NamedEntries] at h ⊢
    exact ⟨⟨h.1, (namedEntries_append h.2).1⟩, (namedEntries_append h.2).2⟩

theorem flatText_buffered {D : Nat → Ty} {x : Exts} (hu : x.unwrapVariantNewtypes = false) : ∀ {vs : List (Text × SVal)}, (∀ e ∈ vs, IsTyped D e.2 ∧ e.2.Buffers x) →
    NamedEntries (vs.map fun e => (.str e.1, e.2)) →
    All2 (FlatText x false) (compactEntries x (vs.map fun e => (.str e.1, e.2))) (vs.map fun e => (e.1, .buffered (e.2.content x)))
  | [], _, _ => trivial
  | (k, v) :: vs, h1, h2 => by
    simp only [List.map_cons, NamedEntries] at h2
    simp only [List.map_cons, compactEntries]
    exact ⟨⟨_, _, compact_strLit x k, .mk (l := []) (l' := []) .nil .nil, typed_ctext hu (h1 (k, v) (by simp)).1 (h1 (k, v) (by simp)).2 h2.1.2⟩,
      flatText_buffered hu (fun e he => h1 e (by simp [he])) h2.2⟩

/-- What is written for the fields are the entries of the data. -/
theorem flat_compact {D : Nat → Ty} {n : Nat} {x : Exts} (hu : x.unwrapVariantNewtypes = false) : ∀ (fields : List (Text × FlatTy)) (fs : List (Text × SVal)) (its : List (Text × FlatItem)) (kvs : List (SVal × SVal)),
    FlatHas x D n fields fs its → FlatBuffers x fields fs → flatEntries fields fs = some kvs → NamedEntries kvs →
    All2 (FlatText x false) (compactEntries x kvs) its
  | [], [], its, kvs, h, _, hk, _ => by
    simp only [FlatHas] at h
    simp only [flatEntries, Option.some.injEq] at hk
    subst h hk
    trivial
  | (k, .plain T) :: fields, (k', v) :: fs, its, kvs, h, hb, hk, hN => by
    simp only [FlatHas] at h
    obtain ⟨rfl, h1, r, rfl, h2⟩ := h
    simp only [flatEntries, Option.map_eq_some_iff] at hk
    obtain ⟨kvs, hk, rfl⟩ := hk
    simp only [NamedEntries] at hN
    simp only [FlatBuffers] at hb
    simp only [compactEntries]
    exact ⟨⟨_, _, compact_strLit x k, .mk (l := []) (l' := []) .nil .nil, rend_compact hu h1 hN.1.2⟩, flat_compact hu fields fs r kvs h2 hb hk hN.2⟩
  | (k, .struct name gs) :: fields, (k', v) :: fs, its, kvs, h, hb, hk, hN => by
    simp only [FlatHas] at h
    obtain ⟨rfl, vs, r, rfl, hg, hT, rfl, h2⟩ := h
    simp only [flatEntries, Option.map_eq_some_iff] at hk
    obtain ⟨kvs, hk, rfl⟩ := hk
    obtain ⟨hN1, hN2⟩ := namedEntries_append hN
    simp only [FlatBuffers] at hb
    rw [compactEntries_append]
    refine (flatText_buffered hu (D := D) (fun e he => ⟨all2_forall hT (Q := fun f => IsTyped D f.2) (fun F f h => ⟨_, _, h.2⟩) e he, buffersFields_mem hb.1 e he⟩) hN1).append ?_
    exact flat_compact hu fields fs r kvs h2 hb.2 hk hN2
  | (k, .map K V) :: fields, (k', v) :: fs, its, kvs, h, hb, hk, hN => by
    simp only [FlatHas] at h
    obtain ⟨rfl, vs, r, rfl, hT, rfl, h2⟩ := h
    simp only [flatEntries, Option.map_eq_some_iff] at hk
    obtain ⟨kvs, hk, rfl⟩ := hk
    obtain ⟨hN1, hN2⟩ := namedEntries_append hN
    simp only [FlatBuffers] at hb
    rw [compactEntries_append]
    refine (flatText_buffered hu (D := D) (fun e he => ⟨⟨_, _, (hT e he).2⟩, (buffersEntries_mem hb.1 (.str e.1, e.2) (List.mem_map.mpr ⟨e, he, rfl⟩)).2⟩) hN1).append ?_
    exact flat_compact hu fields fs r kvs h2 hb.2 hk hN2
  | [], _ :: _, _, _, h, _, _, _ => by simp [FlatHas] at h
  | (_, .plain _) :: _, [], _, _, h, _, _, _ => by simp [FlatHas] at h
  | (_, .struct _ _) :: _, [], _, _, h, _, _, _ => by simp [FlatHas] at h
  | (_, .map _ _) :: _, [], _, _, h, _, _, _ => by simp [FlatHas] at h

/-- The entries of the flattened map are in their order. -/
theorem flat_mapItems {x : Exts} {D : Nat → Ty} {n : Nat} : ∀ (fields : List (Text × FlatTy)) (fs : List (Text × SVal)) (its : List (Text × FlatItem)),
    FlatHas x D n fields fs its → (mapItems x fields fs).Sublist its
  | [], [], its, h => by simp [mapItems]
  | (k, .plain T) :: fields, (k', v) :: fs, its, h => by
    simp only [FlatHas] at h
    obtain ⟨rfl, h1, r, rfl, h2⟩ := h
    simp only [mapItems]
    exact (flat_mapItems fields fs r h2).cons _
  | (k, .struct name gs) :: fields, (k', v) :: fs, its, h => by
    simp only [FlatHas] at h
    obtain ⟨rfl, vs, r, rfl, hg, hT, rfl, h2⟩ := h
    simp only [mapItems]
    exact (flat_mapItems fields fs r h2).trans (List.sublist_append_right _ _)
  | (k, .map K V) :: fields, (k', v) :: fs, its, h => by
    simp only [FlatHas] at h
    obtain ⟨rfl, vs, r, rfl, hT, rfl, h2⟩ := h
    rw [mapItems_map]
    exact List.sublist_append_left _ _
  | [], _ :: _, _, h => by simp [FlatHas] at h
  | (_, .plain _) :: _, [], _, h => by simp [FlatHas] at h
  | (_, .struct _ _) :: _, [], _, h => by simp [FlatHas] at h
  | (_, .map _ _) :: _, [], _, h => by simp [FlatHas] at h

end Ron
