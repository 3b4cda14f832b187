import Verif.Lemmas.FlattenSer
import Verif.Lemmas.Fields
import Verif.Lemmas.Repeated
/-! Structs with flattened fields: errors. -/

set_option linter.unusedSectionVars false
set_option linter.unusedVariables false

namespace Ron

variable [Env]

theorem flatLevels_pos {x : Exts} {sfx : Bool} {ts : List Text} {its : List (Text × FlatItem)} (hE : All2 (FlatText x sfx) ts its) :
    (if ts = [] then 0 else flatLevels its - 1 + 1) ≤ flatLevels its := by
  have := budget_all (ts := ts) (m := flatLevels its) (by
    intro h
    cases its with
    | nil => cases ts with
      | nil => exact absurd rfl h
      | cons => exact hE.elim
    | cons it its => have := flatLevels_mem it (List.mem_cons_self (l := its)); omega)
  omega

/-- The entries are read, and then the fields are not what the struct needs. -/
theorem flat_failsAfter {x : Exts} (hx : x.unwrapVariantNewtypes = false) {sfx : Bool} {D : Nat → Ty} {n f : Nat} (hf : n ≤ f) {name : Text}
    {fields : List (Text × FlatTy)} {ts : List Text} {its : List (Text × FlatItem)} {w : Text} (hE : All2 (FlatText x sfx) ts its) (hD : Delim '{' '}' ts w)
    (hfit : ∀ it ∈ its, FlatFits D n (flatPlain fields) it) (hn : (keysOf (flatTyped its)).Nodup) {err : Err}
    (h : (do
      let ps ← collectFields (fieldOf D f) (gotOf (flatTyped its) fun _ => none) (flatPlain fields)
      flatWalk D f fields ps (flatRest its)) = .error err) :
    FailsAt x (flatLevels its + 1) (deFlat D f name fields) w err := by
  obtain ⟨w', rfl, hin⟩ := delim_inner hD
  refine ⟨⟨_, _, rfl, by decide, by decide⟩, fun d r hp hd => ?_⟩
  have hfold := flat_fold hx hf (m := flatLevels its - 1) (plain := flatPlain fields) ts its (fun _ => none) [] hE hfit
    (fun it hit => by have := flatLevels_mem it hit; omega) hn (fun _ _ => rfl)
  refine deMap_fails hp (by rw [hd]; rfl) fun d hp hd => ?_
  obtain ⟨s1, g1, g2, g3⟩ := foldMap_inner (by simp) hin hfold (hp.mono (flatLevels_pos hE)) hd
  refine ⟨s1, ?_⟩
  unfold flatVisit
  simp only [bind_apply, g1, List.nil_append]
  cases hps : collectFields (fieldOf D f) (gotOf (flatTyped its) fun _ => none) (flatPlain fields) with
  | error e =>
    rw [hps] at h
    cases h
    rfl
  | ok ps =>
    rw [hps] at h
    have h' : flatWalk D f fields ps (flatRest its) = .error err := h
    simp only [liftE, pure_apply, h']
    rfl

omit [Env] in
theorem collectFields_lacks {isOption : Ty → Bool} {got : Text → Option SVal} {k : Text} {T : Ty} {post : List (Text × Ty)} (hk : got k = none) (hT : isOption T = false) :
    ∀ (pre : List (Text × Ty)), (∀ e ∈ pre, (got e.1).isSome ∨ isOption e.2 = true) →
    collectFields isOption got (pre ++ (k, T) :: post) = .error (.missingStructField k none)
  | [], _ => by simp [collectFields, hk, hT]
  | (j, U) :: pre, h => by
    have ih := collectFields_lacks (post := post) hk hT pre (fun e he => h e (by simp [he]))
    have h1 := h (j, U) (by simp)
    simp only [List.cons_append, collectFields, ih]
    cases hj : got j with
    | some v => rfl
    | none =>
      rw [hj] at h1
      simp only [Option.isSome_none, Bool.false_eq_true, false_or] at h1
      simp only [h1, ↓reduceIte]
      rfl

/-- A plain field that occurs a second time. -/
theorem flat_foldFails {x : Exts} (hx : x.unwrapVariantNewtypes = false) {sfx : Bool} {D : Nat → Ty} {n f m : Nat} (hf : n ≤ f) {plain : List (Text × Ty)}
    {k : Text} (hk : k ∈ plain.map Prod.fst) {it : FlatItem} :
    ∀ (a : List (Text × FlatItem)) (ts : List Text) (b : List (Text × FlatItem)) (got : Text → Option SVal) (acc : List (Content × Content)),
    All2 (FlatText x sfx) ts (a ++ (k, it) :: b) → (∀ it ∈ a, FlatFits D n plain it) → (∀ it ∈ a, it.2.levels ≤ m) →
    (keysOf (flatTyped a)).Nodup → (∀ j ∈ keysOf (flatTyped a), got j = none) → ((got k).isSome ∨ k ∈ keysOf (flatTyped a)) →
    FoldFails x m string (flatCheck plain) (flatVal D f plain) (.duplicateStructField k none) ts (got, acc) := by
  have start : ∀ e (i : Text × FlatItem), FlatText x sfx e i → TokStart e := by
    rintro e i ⟨kt, vt, h1, h2, -⟩
    cases h2 with
    | mk _ _ => exact (flatKey_reads (x := x) h1).1.append _
  have starts : ∀ (ts : List Text) (is : List (Text × FlatItem)), All2 (FlatText x sfx) ts is → ∀ t ∈ ts, TokStart t := by
    intro ts
    induction ts with
    | nil => simp
    | cons e ts ih =>
      intro is h t ht
      cases is with
      | nil => exact h.elim
      | cons i is =>
        rcases List.mem_cons.mp ht with rfl | ht
        · exact start _ i h.1
        · exact ih is h.2 t ht
  intro a
  induction a with
  | nil =>
    intro ts b got acc h _ _ _ _ hgot
    cases ts with
    | nil => exact h.elim
    | cons e ts =>
      obtain ⟨kt, vt, h1, h2, -⟩ := h.1
      refine ⟨start e _ h.1, starts ts b h.2, .inl ⟨kt, vt, k, (flatKey_reads h1).mono (Nat.zero_le m), ?_, h2⟩⟩
      have hc : (plain.map Prod.fst).contains k = true := List.contains_iff_mem.mpr hk
      have hg : (got k).isSome = true := hgot.resolve_right (by simp [flatTyped, keysOf])
      simp only [flatCheck, hc, hg, ↓reduceIte]
  | cons i a ih =>
    obtain ⟨j, i⟩ := i
    intro ts b got acc h hfit hlev hn hg hgot
    cases ts with
    | nil => exact h.elim
    | cons e ts =>
      obtain ⟨kt, vt, h1, h2, h3⟩ := h.1
      have hfit1 := hfit (j, i) (by simp)
      have hlev1 := hlev (j, i) (by simp)
      refine ⟨start e _ h.1, starts ts _ h.2, .inr (.inr ?_)⟩
      cases i with
      | typed T v =>
        obtain ⟨hT1, hT2⟩ := hfit1
        have hkeys : keysOf (flatTyped ((j, .typed T v) :: a)) = j :: keysOf (flatTyped a) := rfl
        rw [hkeys] at hn hg hgot
        rw [List.nodup_cons] at hn
        have hg0 : got j = none := hg j (by simp)
        refine ⟨kt, vt, j, (fun i => if i = j then some v else got i, acc), (flatKey_reads h1).mono (Nat.zero_le m), ?_, ?_, h2, ?_⟩
        · unfold flatCheck
          simp only [hg0, Option.isSome_none, Bool.false_eq_true, ↓reduceIte, ite_self]
        · unfold flatVal
          simp only at hT1
          rw [hT1]
          exact (((ty_reads D n f T v hf hT2).1 vt h3).bind_pure fun v => (((fun i => if i = j then some v else got i), acc) : FlatSt)).mono hlev1
        · refine ih ts b _ acc h.2 (fun it hit => hfit it (by simp [hit])) (fun it hit => hlev it (by simp [hit])) hn.2 (fun i hi => ?_) ?_
          · have : i ≠ j := fun e => hn.1 (e ▸ hi)
            simp only [this, ↓reduceIte]
            exact hg i (by simp [hi])
          · by_cases hkj : k = j
            · left; simp [hkj]
            · simp only [hkj, ↓reduceIte]
              rcases hgot with h | h
              · exact .inl h
              · exact .inr ((List.mem_cons.mp h).resolve_left hkj)
      | buffered c =>
        have hT1 : plain.find? (fun e => e.1 = j) = none := find_none hfit1
        refine ⟨kt, vt, j, (got, acc ++ [(.str j, c)]), (flatKey_reads h1).mono (Nat.zero_le m), ?_, ?_, h2, ?_⟩
        · unfold flatCheck
          have : (plain.map Prod.fst).contains j = false := by
            rw [← Bool.not_eq_true, List.contains_iff_mem]
            exact hfit1
          simp only [this, Bool.false_eq_true, ↓reduceIte]
        · unfold flatVal
          rw [hT1]
          exact ((deContent_reads hx h3).bind_pure fun c => ((got, acc ++ [(.str j, c)]) : FlatSt)).mono hlev1
        · exact ih ts b got _ h.2 (fun it hit => hfit it (by simp [hit])) (fun it hit => hlev it (by simp [hit])) hn hg hgot

theorem flat_fails {x : Exts} {D : Nat → Ty} {f m : Nat} {name : Text} {fields : List (Text × FlatTy)} {ts : List Text} {w : Text} {err : Err}
    (hD : Delim '{' '}' ts w)
    (h : FoldFails x m string (flatCheck (flatPlain fields)) (flatVal D f (flatPlain fields)) err ts (fun _ => none, [])) :
    FailsAt x (m + 2) (deFlat D f name fields) w err := by
  obtain ⟨w', rfl, hin⟩ := delim_inner hD
  refine ⟨⟨_, _, rfl, by decide, by decide⟩, fun d r hp hd => ?_⟩
  refine deMap_fails hp (by rw [hd]; rfl) fun d hp hd => ?_
  obtain ⟨s1, g1⟩ := foldMap_fails (by simp) hin h hp hd
  refine ⟨s1, ?_⟩
  unfold flatVisit
  rw [bind_apply, g1]

/-! ### The fields of flattened structs -/

/-- How often an entry has this key. -/
def keyCount (j : Text) (es : List (Text × Content)) : Nat := es.countP fun e => decide (e.1 = j)

theorem keyCount_names (j : Text) (es : List (Text × Content)) :
    (es.map fun e => ((.str e.1, e.2) : Content × Content)).countP (NamesField j) = keyCount j es := by
  unfold keyCount
  rw [List.countP_map]
  rfl

/-- A field of a flattened struct that is read is named once among the entries it takes, or it is optional and not named. -/
theorem contentStructOf_once {isOption : Ty → Bool} {rec : Ty → Content → Except Err SVal} {gs : List (Text × Ty)} {es : List (Text × Content)}
    {vs : List (Text × SVal)} (h : contentStructOf isOption rec false gs (es.map fun e => (.str e.1, e.2)) = .ok vs) {j : Text} {T : Ty} (hj : (j, T) ∈ gs) :
    keyCount j es = 1 ∨ (isOption T = true ∧ keyCount j es = 0) := by
  unfold contentStructOf at h
  cases hg : contentFields rec false gs (es.map fun e => (.str e.1, e.2)) (fun _ => none) with
  | error e => rw [hg] at h; cases h
  | ok got =>
    rw [hg] at h
    have h1 := contentFields_taken (List.mem_map_of_mem (f := Prod.fst) hj) _ _ _ hg
    simp only [Option.isSome_none, Bool.false_eq_true, ↓reduceIte, Nat.add_zero] at h1
    rw [keyCount_names] at h1
    have h2 : collectFields isOption got gs = .ok vs := h
    rw [collectFields_iff] at h2
    have h3 : (got j).isSome ∨ isOption T = true := by
      clear hg h h1
      induction gs generalizing vs with
      | nil => simp at hj
      | cons g gs ih => cases vs with
        | nil => exact h2.elim
        | cons v vs =>
          rcases List.mem_cons.mp hj with rfl | hj
          · rcases h2.1.2 with h | ⟨-, h, -⟩
            · simp only at h; exact .inl (by rw [h]; rfl)
            · exact .inr h
          · exact ih hj h2.2
    by_cases h0 : keyCount j es = 0
    · refine .inr ⟨h3.resolve_left fun h => ?_, h0⟩
      rcases contentFields_named es _ _ hg h with h | h
      · simp at h
      · obtain ⟨e, he, rfl⟩ := List.mem_map.mp h
        unfold keyCount at h0
        rw [List.countP_eq_zero] at h0
        exact h0 e he (by simp)
    · omega

theorem keyCount_filter {j : Text} {p : Text → Bool} (hp : p j = true) (es : List (Text × Content)) : keyCount j (es.filter fun e => p e.1) = keyCount j es := by
  unfold keyCount
  rw [List.countP_filter]
  refine List.countP_congr fun e _ => ?_
  simp only [Bool.and_eq_true, decide_eq_true_eq]
  exact ⟨fun h => h.1, fun h => ⟨h, by rw [h]; exact hp⟩⟩

theorem filter_takes (gs : List (Text × Ty)) (es : List (Text × Content)) (b : Bool) :
    (es.map fun e => ((.str e.1, e.2) : Content × Content)).filter (fun e => b ^^ flatTakes gs e.1) =
      (es.filter fun e => b ^^ flatTakes gs (.str e.1)).map fun e => (.str e.1, e.2) := by
  rw [List.filter_map]
  rfl

/-- If the fields are read, every field of a flattened struct that no struct before it takes was named once, or it is optional. -/
theorem flatWalk_once {D : Nat → Ty} {f : Nat} {k name : Text} {gs : List (Text × Ty)} {post : List (Text × FlatTy)} {j : Text} {T : Ty} (hj : (j, T) ∈ gs) :
    ∀ (pre : List (Text × FlatTy)) (ps fs : List (Text × SVal)) (es : List (Text × Content)),
    (∀ k' name' gs', (k', .struct name' gs') ∈ pre → j ∉ gs'.map Prod.fst) →
    flatWalk D f (pre ++ (k, .struct name gs) :: post) ps (es.map fun e => (.str e.1, e.2)) = .ok fs →
    keyCount j es = 1 ∨ (fieldOf D f T = true ∧ keyCount j es = 0)
  | [], ps, fs, es, _, h => by
    have hj' : flatTakes gs (.str j) = true := by
      simp only [flatTakes, List.contains_iff_mem]
      exact List.mem_map_of_mem (f := Prod.fst) hj
    have hft := filter_takes gs es false
    simp only [Bool.false_bne] at hft
    simp only [List.nil_append, flatWalk, hft] at h
    cases hs : contentStructOf (fieldOf D f) (Content.into true D f) false gs ((es.filter fun e => flatTakes gs (.str e.1)).map fun e => (.str e.1, e.2)) with
    | error e => rw [hs] at h; cases h
    | ok vs =>
      have := contentStructOf_once hs hj
      rwa [keyCount_filter (p := fun i => flatTakes gs (.str i)) hj'] at this
  | (k', .plain U) :: pre, ps, fs, es, hno, h => by
    cases ps with
    | nil => simp only [List.cons_append, flatWalk] at h; cases h
    | cons p ps =>
      simp only [List.cons_append, flatWalk] at h
      cases hw : flatWalk D f (pre ++ (k, .struct name gs) :: post) ps (es.map fun e => (.str e.1, e.2)) with
      | error e => rw [hw] at h; cases h
      | ok fs' => exact flatWalk_once hj pre ps fs' es (fun a b c hm => hno a b c (by simp [hm])) hw
  | (k', .struct name' gs') :: pre, ps, fs, es, hno, h => by
    have hj' : (!flatTakes gs' (.str j)) = true := by
      rw [Bool.not_eq_true', ← Bool.not_eq_true]
      simp only [flatTakes, List.contains_iff_mem]
      exact hno k' name' gs' (by simp)
    have hft := filter_takes gs' es true
    simp only [Bool.true_bne] at hft
    simp only [List.cons_append, flatWalk, hft] at h
    generalize contentStructOf _ _ _ _ _ = c at h
    cases c with
    | error e => cases h
    | ok vs =>
      cases hw : flatWalk D f (pre ++ (k, .struct name gs) :: post) ps ((es.filter fun e => !flatTakes gs' (.str e.1)).map fun e => (.str e.1, e.2)) with
      | error e => rw [hw] at h; cases h
      | ok fs' =>
        have := flatWalk_once hj pre ps fs' _ (fun a b c hm => hno a b c (by simp [hm])) hw
        rwa [keyCount_filter (p := fun i => !flatTakes gs' (.str i)) hj'] at this
  | (k', .map K V) :: pre, ps, fs, es, hno, h => by
    simp only [List.cons_append, flatWalk] at h
    generalize contentPairs _ _ _ = c at h
    cases c with
    | error e => cases h
    | ok vs =>
      cases hw : flatWalk D f (pre ++ (k, .struct name gs) :: post) ps (es.map fun e => (.str e.1, e.2)) with
      | error e => rw [hw] at h; cases h
      | ok fs' => exact flatWalk_once hj pre ps fs' es (fun a b c hm => hno a b c (by simp [hm])) hw

end Ron
