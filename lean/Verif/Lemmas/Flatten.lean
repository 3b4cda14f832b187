import Verif.Spec.Flatten
import Verif.Lemmas.Fold
import Verif.Lemmas.Buffer
import Verif.Lemmas.TyThm
/-! Reading structs with flattened fields. -/

set_option linter.unusedSectionVars false
set_option linter.unusedVariables false

namespace Ron

variable [Env]

theorem flatKey_reads {x : Exts} {n w : Text} (h : StrLit w n) : Reads x 0 string w n := by
  refine ⟨(ctext_plainly (.str n) w (by simp only [CText]; exact .inl h)).start, fun d l q hp hd hl hq => ?_⟩
  obtain ⟨s', h1, h2, h3⟩ := string_ok hd h
  exact ⟨s', l, h1, h2, hl, h3.toD⟩

/-- The plain fields among the items. -/
def flatTyped (its : List (Text × FlatItem)) : List (Option (Text × SVal)) := its.map fun it => match it.2 with
  | .typed _ v => some (it.1, v)
  | .buffered _ => none

/-- The other items. -/
def flatRest (its : List (Text × FlatItem)) : List (Content × Content) := its.filterMap fun it => match it.2 with
  | .typed _ _ => none
  | .buffered c => some (.str it.1, c)

/-- An item fits the plain fields. -/
def FlatFits (D : Nat → Ty) (n : Nat) (plain : List (Text × Ty)) (it : Text × FlatItem) : Prop :=
  match it.2 with
  | .typed T v => plain.find? (fun e => e.1 = it.1) = some (it.1, T) ∧ HasTy D n T v
  | .buffered _ => it.1 ∉ plain.map Prod.fst

theorem find_none {α : Type} {plain : List (Text × α)} {k : Text} (h : k ∉ plain.map Prod.fst) : plain.find? (fun e => e.1 = k) = none := by
  rw [List.find?_eq_none]
  intro e he
  simp only [decide_eq_true_eq]
  exact fun h' => h (h' ▸ List.mem_map_of_mem he)

theorem flat_fold {x : Exts} (hx : x.unwrapVariantNewtypes = false) {sfx : Bool} {D : Nat → Ty} {n f m : Nat} (hf : n ≤ f) {plain : List (Text × Ty)} :
    ∀ (ts : List Text) (its : List (Text × FlatItem)) (got : Text → Option SVal) (acc : List (Content × Content)),
    All2 (FlatText x sfx) ts its → (∀ it ∈ its, FlatFits D n plain it) → (∀ it ∈ its, it.2.levels ≤ m) →
    (keysOf (flatTyped its)).Nodup → (∀ k ∈ keysOf (flatTyped its), got k = none) →
    FoldReads x m string (flatCheck plain) (flatVal D f plain) ts (got, acc) (gotOf (flatTyped its) got, acc ++ flatRest its)
  | [], [], got, acc, _, _, _, _, _ => by simp [FoldReads, flatTyped, flatRest, gotOf]
  | e :: ts, (k, it) :: its, got, acc, h, hfit, hlev, hn, hg => by
    obtain ⟨kt, vt, h1, h2, h3⟩ := h.1
    have hfit1 := hfit (k, it) (by simp)
    have hlev1 := hlev (k, it) (by simp)
    have ih := flat_fold hx (sfx := sfx) (D := D) hf (m := m) (plain := plain) ts its
    cases it with
    | typed T v =>
      obtain ⟨hT1, hT2⟩ := hfit1
      have hkeys : keysOf (flatTyped ((k, .typed T v) :: its)) = k :: keysOf (flatTyped its) := rfl
      rw [hkeys] at hn hg
      rw [List.nodup_cons] at hn
      have hg0 : got k = none := hg k (by simp)
      refine ⟨kt, vt, k, (fun j => if j = k then some v else got j, acc), (flatKey_reads h1).mono (Nat.zero_le m), ?_, ?_, h2, ?_⟩
      · unfold flatCheck
        simp only [hg0, Option.isSome_none, Bool.false_eq_true, ↓reduceIte, ite_self]
      · unfold flatVal
        simp only at hT1
        rw [hT1]
        exact (((ty_reads D n f T v hf hT2).1 vt h3).bind_pure fun v => (((fun j => if j = k then some v else got j), acc) : FlatSt)).mono hlev1
      · exact ih _ acc h.2 (fun it hit => hfit it (by simp [hit])) (fun it hit => hlev it (by simp [hit])) hn.2 (fun j hj => by
          have : j ≠ k := fun e => hn.1 (e ▸ hj)
          simp only [this, ↓reduceIte]
          exact hg j (by simp [hj]))
    | buffered c =>
      have hT1 : plain.find? (fun e => e.1 = k) = none := find_none hfit1
      refine ⟨kt, vt, k, (got, acc ++ [(.str k, c)]), (flatKey_reads h1).mono (Nat.zero_le m), ?_, ?_, h2, ?_⟩
      · unfold flatCheck
        have : (plain.map Prod.fst).contains k = false := by
          rw [← Bool.not_eq_true, List.contains_iff_mem]
          exact hfit1
        simp only [this, Bool.false_eq_true, ↓reduceIte]
      · unfold flatVal
        rw [hT1]
        exact ((deContent_reads hx h3).bind_pure fun c => ((got, acc ++ [(.str k, c)]) : FlatSt)).mono hlev1
      · have := ih got (acc ++ [(.str k, c)]) h.2 (fun it hit => hfit it (by simp [hit])) (fun it hit => hlev it (by simp [hit])) hn hg
        rw [List.append_assoc] at this
        exact this
  | [], _ :: _, _, _, h, _, _, _, _ => h.elim
  | _ :: _, [], _, _, h, _, _, _, _ => h.elim

theorem flatLevels_mem {its : List (Text × FlatItem)} : ∀ it ∈ its, it.2.levels + 1 ≤ flatLevels its := by
  induction its with
  | nil => simp
  | cons i its ih =>
    intro it h
    simp only [flatLevels]
    rcases List.mem_cons.mp h with rfl | h
    · omega
    · have := ih it h; omega

/-- What the text gives. -/
theorem flat_reads {x : Exts} (hx : x.unwrapVariantNewtypes = false) {sfx : Bool} {D : Nat → Ty} {n f : Nat} (hf : n ≤ f) {name : Text}
    {fields : List (Text × FlatTy)} {ts : List Text} {its : List (Text × FlatItem)} {w : Text} (hE : All2 (FlatText x sfx) ts its) (hD : Delim '{' '}' ts w)
    (hfit : ∀ it ∈ its, FlatFits D n (flatPlain fields) it) (hn : (keysOf (flatTyped its)).Nodup) {ps fs : List (Text × SVal)}
    (hps : collectFields (fieldOf D f) (gotOf (flatTyped its) fun _ => none) (flatPlain fields) = .ok ps) (hfs : flatWalk D f fields ps (flatRest its) = .ok fs) :
    Reads x (flatLevels its + 1) (deFlat D f name fields) w (.struct name fs) := by
  obtain ⟨w', rfl, hin⟩ := delim_inner hD
  refine ⟨⟨_, _, rfl, by decide, by decide⟩, fun d l q hp hd hl hq => ?_⟩
  have hfold := flat_fold hx hf (m := flatLevels its - 1) (plain := flatPlain fields) ts its (fun _ => none) [] hE hfit
    (fun it hit => by have := flatLevels_mem it hit; omega) hn (fun _ _ => rfl)
  obtain ⟨s', h1, h2, h3, h4⟩ := deMap_ok (k := flatLevels its) (visit := flatVisit D f name fields) (v := .struct name fs) (d := d) (w := w') (r := l ++ q)
    hp.exts hp.budget (by rw [hd]; rfl) (fun d hp hd => by
      have hpos : ts ≠ [] → 1 ≤ flatLevels its := by
        intro h
        cases its with
        | nil => cases ts with
          | nil => exact absurd rfl h
          | cons => exact hE.elim
        | cons it its => have := flatLevels_mem it (List.mem_cons_self (l := its)); omega
      have hb : (if ts = [] then 0 else flatLevels its - 1 + 1) ≤ flatLevels its := by
        have := budget_all (ts := ts) hpos
        omega
      obtain ⟨s1, g1, g2, g3⟩ := foldMap_inner (by simp) hin hfold (hp.mono hb) hd
      refine ⟨s1, ?_, g2, g3⟩
      unfold flatVisit
      simp only [bind_apply, g1, hps, List.nil_append, hfs, liftE, pure_apply])
  exact ⟨s', l, h1, h2, hl, h3⟩

/-! ### What the fields get -/

omit [Env] in
theorem perm_of_map {α β : Type} {g : α → β} : ∀ {l l' : List β}, l.Perm l' → ∀ m : List α, l' = m.map g → ∃ m' : List α, m'.Perm m ∧ l = m'.map g := by
  intro l l' h
  induction h with
  | nil =>
    intro m hm
    exact ⟨[], by rw [List.map_eq_nil_iff.mp hm.symm], rfl⟩
  | cons a _ ih =>
    intro m hm
    cases m with
    | nil => simp at hm
    | cons b m =>
      simp only [List.map_cons, List.cons.injEq] at hm
      obtain ⟨m', h1, h2⟩ := ih m hm.2
      exact ⟨b :: m', h1.cons b, by rw [h2, hm.1, List.map_cons]⟩
  | swap a b l =>
    intro m hm
    match m, hm with
    | [], hm => simp at hm
    | [_], hm => simp at hm
    | c :: d :: m, hm =>
      simp only [List.map_cons, List.cons.injEq] at hm
      exact ⟨d :: c :: m, .swap _ _ _, by rw [hm.1, hm.2.1, hm.2.2]; rfl⟩
  | trans _ _ ih1 ih2 =>
    intro m hm
    obtain ⟨m1, h1, h2⟩ := ih2 m hm
    obtain ⟨m2, h3, h4⟩ := ih1 m1 h2
    exact ⟨m2, h3.trans h1, h4⟩

/-- The items that go through the buffer. -/
def flatBufs (its : List (Text × FlatItem)) : List (Text × Content) := its.filterMap fun it => match it.2 with
  | .typed _ _ => none
  | .buffered c => some (it.1, c)

/-- The plain fields of the data. -/
def flatVals : List (Text × FlatTy) → List (Text × SVal) → List (Text × SVal)
  | (k, .plain _) :: fields, (_, v) :: fs => (k, v) :: flatVals fields fs
  | _ :: fields, _ :: fs => flatVals fields fs
  | _, _ => []

theorem flatRest_bufs (its : List (Text × FlatItem)) : flatRest its = (flatBufs its).map fun e => (.str e.1, e.2) := by
  unfold flatRest flatBufs
  rw [List.map_filterMap]
  congr 1
  funext it
  obtain ⟨k, it⟩ := it
  cases it <;> rfl

theorem flatBufs_append (a b : List (Text × FlatItem)) : flatBufs (a ++ b) = flatBufs a ++ flatBufs b := List.filterMap_append ..

theorem flatBufs_buffered {α : Type} (vs : List α) (g : α → Text) (c : α → Content) :
    flatBufs (vs.map fun e => (g e, .buffered (c e))) = vs.map fun e => (g e, c e) := by
  induction vs with
  | nil => rfl
  | cons v vs ih => simpa only [flatBufs, List.map_cons, List.filterMap_cons, List.cons.injEq, true_and] using ih

/-- The entries of the flattened map. -/
def mapBufs (x : Exts) (fields : List (Text × FlatTy)) (fs : List (Text × SVal)) : List (Text × Content) := flatBufs (mapItems x fields fs)

theorem mapItems_map {x : Exts} {k k' : Text} {K V : Ty} {fields : List (Text × FlatTy)} {m : Option Nat} {fs : List (Text × SVal)} (es : List (Text × SVal)) :
    mapItems x ((k, .map K V) :: fields) ((k', .map m (es.map fun e => (.str e.1, e.2))) :: fs) = es.map fun e => (e.1, .buffered (e.2.content x)) := by
  simp only [mapItems]
  induction es with
  | nil => rfl
  | cons e es ih => simp only [List.map_cons, List.filterMap_cons, ih]

theorem flat_names {D : Nat → Ty} {n : Nat} {gs : List (Text × Ty)} {vs : List (Text × SVal)}
    (h : All2 (fun F f => F.1 = f.1 ∧ HasTy D n F.2 f.2) gs vs) : gs.map Prod.fst = vs.map Prod.fst := by
  induction gs generalizing vs with
  | nil => cases vs with
    | nil => rfl
    | cons => exact h.elim
  | cons g gs ih => cases vs with
    | nil => exact h.elim
    | cons v vs => simp only [List.map_cons, h.1.1, ih h.2]

/-- Only plain fields are left. -/
theorem flat_plainOnly {x : Exts} {D : Nat → Ty} {n f : Nat} : ∀ (fields : List (Text × FlatTy)) (fs : List (Text × SVal)) (its : List (Text × FlatItem))
    (es : List (Content × Content)), FlatHas x D n fields fs its → (∀ e ∈ fields, ∃ T, e.2 = .plain T) →
    flatBufs its = [] ∧ flatWalk D f fields (flatVals fields fs) es = .ok fs
  | [], [], its, es, h, _ => by
    simp only [FlatHas] at h
    subst h
    exact ⟨rfl, rfl⟩
  | (k, .plain T) :: fields, (k', v) :: fs, its, es, h, hp => by
    simp only [FlatHas] at h
    obtain ⟨rfl, h1, r, rfl, h2⟩ := h
    obtain ⟨g1, g2⟩ := flat_plainOnly (f := f) fields fs r es h2 (fun e he => hp e (by simp [he]))
    refine ⟨g1, ?_⟩
    simp only [flatVals, flatWalk, g2]
    rfl
  | (k, .struct a b) :: _, _, _, _, _, hp => by obtain ⟨T, h⟩ := hp (k, .struct a b) (by simp); cases h
  | (k, .map a b) :: _, _, _, _, _, hp => by obtain ⟨T, h⟩ := hp (k, .map a b) (by simp); cases h
  | [], _ :: _, _, _, h, _ => by simp [FlatHas] at h
  | (_, .plain _) :: _, [], _, _, h, _ => by simp [FlatHas] at h

omit [Env] in
theorem filter_all {α : Type} {l : List α} {p : α → Bool} (h : ∀ a ∈ l, p a = true) : l.filter p = l := List.filter_eq_self.mpr h

/-- The entries of the flattened map are among the buffered items. -/
theorem flat_mapBufs {x : Exts} {D : Nat → Ty} {n : Nat} : ∀ (fields : List (Text × FlatTy)) (fs : List (Text × SVal)) (its : List (Text × FlatItem)),
    FlatHas x D n fields fs its → ∀ a ∈ mapBufs x fields fs, a ∈ flatBufs its
  | [], [], its, h, a, ha => by simp [mapBufs, mapItems, flatBufs] at ha
  | (k, .plain T) :: fields, (k', v) :: fs, its, h, a, ha => by
    simp only [FlatHas] at h
    obtain ⟨rfl, h1, r, rfl, h2⟩ := h
    exact flat_mapBufs fields fs r h2 a (by simpa only [mapBufs, mapItems] using ha)
  | (k, .struct name gs) :: fields, (k', v) :: fs, its, h, a, ha => by
    simp only [FlatHas] at h
    obtain ⟨rfl, vs, r, rfl, hg, hT, rfl, h2⟩ := h
    rw [flatBufs_append]
    exact List.mem_append_right _ (flat_mapBufs fields fs r h2 a (by simpa only [mapBufs, mapItems] using ha))
  | (k, .map K V) :: fields, (k', v) :: fs, its, h, a, ha => by
    simp only [FlatHas] at h
    obtain ⟨rfl, vs, r, rfl, hT, rfl, h2⟩ := h
    rw [flatBufs_append]
    simp only [mapBufs, mapItems_map] at ha
    exact List.mem_append_left _ ha
  | [], _ :: _, _, h, _, _ => by simp [FlatHas] at h
  | (_, .plain _) :: _, [], _, h, _, _ => by simp [FlatHas] at h
  | (_, .struct _ _) :: _, [], _, h, _, _ => by simp [FlatHas] at h
  | (_, .map _ _) :: _, [], _, h, _, _ => by simp [FlatHas] at h

theorem flat_walk {D : Nat → Ty} {n f : Nat} (hf : n ≤ f) {x : Exts} : ∀ (fields : List (Text × FlatTy)) (fs : List (Text × SVal)) (its : List (Text × FlatItem))
    (es extra : List (Text × Content)), FlatHas x D n fields fs its → FlatBuffers x fields fs → es.Perm (flatBufs its ++ extra) →
    ((flatBufs its).map Prod.fst).Nodup → (∀ e ∈ extra, e.1 ∉ (flatBufs its).map Prod.fst) → MapLast fields → (extra = [] ∨ NoMap fields) →
    (mapBufs x fields fs).Sublist es →
    flatWalk D f fields (flatVals fields fs) (es.map fun e => (.str e.1, e.2)) = .ok fs
  | [], [], its, es, extra, h, _, _, _, _, _, _, _ => rfl
  | (k, .plain T) :: fields, (k', v) :: fs, its, es, extra, h, hb, hp, hn, hx, hl, hm, hs => by
    simp only [FlatHas] at h
    obtain ⟨rfl, h1, r, rfl, h2⟩ := h
    have := flat_walk hf fields fs r es extra h2 (by simpa only [FlatBuffers] using hb) hp hn hx (by simpa only [MapLast] using hl)
      (hm.imp id fun h e he => h e (by simp [he])) (by simpa only [mapBufs, mapItems] using hs)
    simp only [flatVals, flatWalk, this]
    rfl
  | (k, .struct name gs) :: fields, (k', v) :: fs, its, es, extra, h, hb, hp, hn, hx, hl, hm, hs => by
    simp only [FlatHas] at h
    obtain ⟨rfl, vs, r, rfl, hg, hT, rfl, h2⟩ := h
    simp only [FlatBuffers] at hb
    rw [flatBufs_append, flatBufs_buffered] at hp hn hx
    have hnames := flat_names hT
    have htake : ∀ j, flatTakes gs (.str j) = true ↔ j ∈ vs.map Prod.fst := by
      intro j
      simp only [flatTakes, List.contains_iff_mem, hnames]
    have hfst : (vs.map fun e => (e.1, (e.2.content x))).map Prod.fst = vs.map Prod.fst := by
      rw [List.map_map]; rfl
    rw [List.map_append, hfst] at hn hx
    rw [List.nodup_append] at hn
    -- the entries that the struct takes
    have hyes : (es.filter fun e => flatTakes gs (.str e.1)).Perm (vs.map fun e => (e.1, (e.2.content x))) := by
      have := hp.filter fun e => flatTakes gs (.str e.1)
      rw [List.filter_append, List.filter_append] at this
      have e1 : (vs.map fun e => (e.1, (e.2.content x))).filter (fun e => flatTakes gs (.str e.1)) = vs.map fun e => (e.1, (e.2.content x)) :=
        filter_all fun a ha => (htake _).mpr (by rw [← hfst]; exact List.mem_map_of_mem ha)
      have e2 : (flatBufs r).filter (fun e => flatTakes gs (.str e.1)) = [] := by
        rw [List.filter_eq_nil_iff]
        intro a ha h
        exact hn.2.2 a.1 ((htake _).mp h) a.1 (List.mem_map_of_mem ha) rfl
      have e3 : extra.filter (fun e => flatTakes gs (.str e.1)) = [] := by
        rw [List.filter_eq_nil_iff]
        intro a ha h
        exact hx a ha (List.mem_append_left _ ((htake _).mp h))
      rw [e1, e2, e3, List.append_nil, List.append_nil] at this
      exact this
    have hno : (es.filter fun e => !flatTakes gs (.str e.1)).Perm (flatBufs r ++ extra) := by
      have := hp.filter fun e => !flatTakes gs (.str e.1)
      rw [List.filter_append, List.filter_append] at this
      have e1 : (vs.map fun e => (e.1, (e.2.content x))).filter (fun e => !flatTakes gs (.str e.1)) = [] := by
        rw [List.filter_eq_nil_iff]
        intro a ha
        have := (htake a.1).mpr (by rw [← hfst]; exact List.mem_map_of_mem ha)
        simp [this]
      have e2 : (flatBufs r).filter (fun e => !flatTakes gs (.str e.1)) = flatBufs r := by
        refine filter_all fun a ha => ?_
        rw [Bool.not_eq_true', ← Bool.not_eq_true]
        exact fun h => hn.2.2 a.1 ((htake _).mp h) a.1 (List.mem_map_of_mem ha) rfl
      have e3 : extra.filter (fun e => !flatTakes gs (.str e.1)) = extra := by
        refine filter_all fun a ha => ?_
        rw [Bool.not_eq_true', ← Bool.not_eq_true]
        exact fun h => hx a ha (List.mem_append_left _ ((htake _).mp h))
      rw [e1, e2, e3, List.nil_append] at this
      exact this
    obtain ⟨ds, hds, hes⟩ := perm_of_map hyes vs rfl
    have hstruct := contentStructOf_perm (isOption := fieldOf D f) (rec := Content.into true D f) (deny := false) hds hg hT fun t v hm h => by
      obtain ⟨d, hd, rfl⟩ := List.mem_map.mp hm
      exact into_content true D n f t d.2 hf h (buffersFields_mem hb.1 d hd)
    have ih := flat_walk hf fields fs r _ extra h2 hb.2 hno hn.2.1 (fun e he h => hx e he (List.mem_append_right _ h)) (by simpa only [MapLast] using hl)
      (hm.imp id fun h e he => h e (by simp [he])) (by
        have hs' : (mapBufs x fields fs).Sublist es := by simpa only [mapBufs, mapItems] using hs
        have := hs'.filter fun e => !flatTakes gs (.str e.1)
        rw [filter_all (l := mapBufs x fields fs)] at this
        · exact this
        · intro a ha
          rw [Bool.not_eq_true', ← Bool.not_eq_true]
          intro h
          have hmem : a ∈ flatBufs r := flat_mapBufs fields fs r h2 a ha
          exact hn.2.2 a.1 ((htake _).mp h) a.1 (List.mem_map_of_mem hmem) rfl)
    have ef1 : (es.map fun e => ((.str e.1, e.2) : Content × Content)).filter (fun e => flatTakes gs e.1) = contentFieldsOf x ds := by
      rw [List.filter_map, contentFieldsOf_map]
      have : ((fun e : Content × Content => flatTakes gs e.1) ∘ fun e : Text × Content => (.str e.1, e.2)) = fun e => flatTakes gs (.str e.1) := rfl
      rw [this, hes, List.map_map]
      rfl
    have ef2 : (es.map fun e => ((.str e.1, e.2) : Content × Content)).filter (fun e => !flatTakes gs e.1) =
        (es.filter fun e => !flatTakes gs (.str e.1)).map fun e => (.str e.1, e.2) := by
      rw [List.filter_map]
      rfl
    simp only [flatVals, flatWalk, ef1, ef2, hstruct, ih]
    rfl
  | (k, .map K V) :: fields, (k', v) :: fs, its, es, extra, h, hb, hp, hn, hx, hl, hm, hs => by
    simp only [FlatHas] at h
    obtain ⟨rfl, vs, r, rfl, hT, rfl, h2⟩ := h
    simp only [FlatBuffers] at hb
    simp only [MapLast] at hl
    obtain ⟨hr, hw⟩ := flat_plainOnly (f := f) fields fs r (es.map fun e => (.str e.1, e.2)) h2 hl
    have hex : extra = [] := hm.resolve_right fun h => h (k, .map K V) (by simp) K V rfl
    rw [flatBufs_append, flatBufs_buffered, hr, hex, List.append_nil, List.append_nil] at hp
    simp only [mapBufs, mapItems_map, flatBufs_buffered] at hs
    have hes := hs.eq_of_length hp.length_eq.symm
    have hc : (es.map fun e => ((.str e.1, e.2) : Content × Content)) = contentEntries x (vs.map fun e => (.str e.1, e.2)) := by
      rw [← hes, contentEntries_map, List.map_map, List.map_map]
      rfl
    have hpairs : contentPairs (Content.into false D f K) (Content.into false D f V) (es.map fun e => (.str e.1, e.2)) =
        .ok (vs.map fun e => (.str e.1, e.2)) := by
      rw [hc]
      refine contentPairs_ok fun e he => ?_
      obtain ⟨d, hd, rfl⟩ := List.mem_map.mp he
      have hbd := buffersEntries_mem hb.1 _ he
      exact ⟨into_content false D n f K _ hf (hT d hd).1 hbd.1, into_content false D n f V _ hf (hT d hd).2 hbd.2⟩
    simp only [flatVals, flatWalk, hpairs, hw]
    simp only [bind, Except.bind, List.length_map]
  | [], _ :: _, _, _, _, h, _, _, _, _, _, _, _ => by simp [FlatHas] at h
  | (_, .plain _) :: _, [], _, _, _, h, _, _, _, _, _, _, _ => by simp [FlatHas] at h
  | (_, .struct _ _) :: _, [], _, _, _, h, _, _, _, _, _, _, _ => by simp [FlatHas] at h
  | (_, .map _ _) :: _, [], _, _, _, h, _, _, _, _, _, _, _ => by simp [FlatHas] at h

end Ron
