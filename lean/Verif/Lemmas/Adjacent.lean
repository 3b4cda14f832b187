import Verif.Spec.Adjacent
import Verif.Lemmas.Tagged
import Verif.Lemmas.Flatten
import Verif.Lemmas.LangDoc
import Verif.Lemmas.TyThm
/-! Reading adjacently tagged data. -/

set_option linter.unusedSectionVars false
set_option linter.unusedVariables false

namespace Ron

variable [Env]

/-! ### The tag -/

theorem adjTag_reads {x : Exts} {name id tok : Text} {variants : List (Text × Variant)} {kd : Variant} (ht : NameTok id tok)
    (hf : variants.find? (fun e => e.1 = id) = some (id, kd)) : Reads x 2 (adjTag name variants) tok (id, kd) := by
  refine ⟨ht.tokStart, fun d l q hp hd hl hq => ?_⟩
  let d1 : St := { d with nv := false }
  have hp1 : Pre x 2 d1 := ⟨rfl, hp.exts, hp.budget⟩
  let d2 : St := { d1 with limit := d1.limit.map (· - 1) }
  have hp2 : Pre x 1 d2 := hp1.lower
  have hd2 : d2.rest = tok ++ (l ++ q) := by show d.rest = _; rw [hd]
  obtain ⟨s3, a1, a2, a3⟩ := skipWs_tok (d := d2) (l := []) (r := tok ++ (l ++ q)) (by simpa using hd2) .nil (ht.tokStart.noLayout _)
  have hp3 := hp2.keep a3
  obtain ⟨s4, b1, b2, b3⟩ := deIdentifier_ok (d := { s3 with limit := s3.limit.map (· - 1) }) ht (follow_ident hl hq) a2
  have b4 := deGuardQ_ok (f := adjId variants) (a := (id, kd)) (s' := s4) hp3.budget
    (by unfold adjId; simp only [bind_apply, b1, hf, pure_apply]) b3
  obtain ⟨e1, e2⟩ := deGuardR_ok (f := do
    skipWs
    deGuardQ (adjId variants)) (a := (id, kd)) hp1.budget
    (by
      rw [bind_apply, a1]
      exact b4.1) (a3.trans b4.2)
  refine ⟨{ s4 with limit := d1.limit }, l, ?_, b2, hl, (KeepsD.clear d).trans e2⟩
  unfold adjTag deEnum
  simp only [bind_apply, setNv_apply, mapErr_apply]
  simp only [bind_apply] at e1
  rw [e1]

theorem adjTag_fails {x : Exts} {name id tok r : Text} {variants : List (Text × Variant)} (ht : NameTok id tok)
    (hf : id ∉ variants.map Prod.fst) (hr : IdentFollow r) {d : St} (hp : Pre x 2 d) (hd : d.rest = tok ++ r) :
    ∃ s', adjTag name variants d = .err (.noSuchEnumVariant (variants.map Prod.fst) id (if name.isEmpty then none else some name)) s' := by
  let d1 : St := { d with nv := false }
  have hp1 : Pre x 2 d1 := ⟨rfl, hp.exts, hp.budget⟩
  let d2 : St := { d1 with limit := d1.limit.map (· - 1) }
  have hp2 : Pre x 1 d2 := hp1.lower
  obtain ⟨s3, a1, a2, a3⟩ := skipWs_tok (d := d2) (l := []) (r := tok ++ r) (by simpa using hd) .nil (ht.tokStart.noLayout _)
  have hp3 := hp2.keep a3
  obtain ⟨s4, b1, b2, b3⟩ := deIdentifier_ok (d := { s3 with limit := s3.limit.map (· - 1) }) ht hr a2
  have hnone : variants.find? (fun e => e.1 = id) = none := find_none hf
  obtain ⟨s5, c1⟩ := deGuardQ_fails (f := adjId variants) (e := .noSuchEnumVariant (variants.map Prod.fst) id none) hp3.budget
    ⟨s4, by unfold adjId; simp only [bind_apply, b1, hnone]; rfl⟩
  have hlim : d1.limit ≠ some 0 := by
    intro h0
    have := hp1.budget 0 h0
    omega
  have e1 : ∃ s', deGuardR (do skipWs; deGuardQ (adjId variants)) d1 = .err (.noSuchEnumVariant (variants.map Prod.fst) id none) s' := by
    unfold deGuardR
    split
    · next h => exact absurd h hlim
    · have : (do skipWs; deGuardQ (adjId variants) : P (Text × Variant)) d2 = .err (.noSuchEnumVariant (variants.map Prod.fst) id none) s5 := by
        rw [bind_apply, a1]
        exact c1
      rw [this]
      exact ⟨_, rfl⟩
  obtain ⟨s6, e1⟩ := e1
  refine ⟨s6, ?_⟩
  unfold adjTag deEnum
  rw [bind_apply, setNv_apply]
  simp only [mapErr_apply]
  rw [e1]
  cases name <;> rfl

/-! ### The content, after the tag -/

theorem fieldsAny_noKeyword {α : Type} {visit visitStr : P α} {d : St} (h : NoKeyword d) (hp : startsWith d.rest c!"()" = false) :
    fieldsAny visit visitStr d = (do match ← skipIdentifier with
      | some _ => skipWs; fieldsStruct visit
      | none => fieldsChar visit visitStr : P α) d := by
  have g : ∀ kw ∈ reservedNames, consumeIdent kw d = .ok false d := fun kw hk => consumeIdent_false (h kw hk)
  unfold fieldsAny
  rw [bind_apply, consumeWord_false fun w hw => g w (by revert w; decide)]
  simp only [Bool.false_eq_true, ↓reduceIte]
  rw [bind_apply, checkIdent_false (h c!"Some" (by simp [reservedNames]))]
  simp only [Bool.false_eq_true, ↓reduceIte]
  rw [bind_apply, consumeWord_false fun w hw => g w (by revert w; decide)]
  simp only [Bool.false_eq_true, ↓reduceIte]
  rw [bind_apply, consumeStr_false hp]
  simp only [Bool.false_eq_true, ↓reduceIte]
  rw [bind_apply, consumeWord_false fun w hw => g w (by revert w; decide)]
  simp only [Bool.false_eq_true, ↓reduceIte]
  rfl

theorem fieldText_key {x : Exts} {k : Nat} {rec : Ty → P SVal} {deny : Bool} {fields : List (Text × Ty)} {e : Text} {g : Option (Text × SVal)}
    (h : FieldText x k rec deny fields e g) : ∃ n kt vt, KeyTok n kt ∧ Entry kt vt e := by
  obtain ⟨key, kt, vt, h1, h2, -⟩ := h
  exact ⟨_, _, _, h1.keyTok, h2⟩

/-- The parenthesis is that of a struct. -/
theorem adjFields_named {I : Text → Prop} (hI : ∀ e, I e → ∃ n kt vt, KeyTok n kt ∧ Entry kt vt e) {ts : List Text} {w r : Text} {d : St}
    (hE : ∀ t ∈ ts, I t) (hne : ts ≠ []) (hw : Delim '(' ')' ts w) (hd : d.rest = w ++ r) (tm : TupleMode) :
    Struct .noParensMeanUnit tm d .named ∧ ∃ u, d.rest = '(' :: u ∧ startsWith d.rest c!"()" = false := by
  obtain ⟨w', rfl, hi⟩ := delim_inner hw
  have hst : ∀ t ∈ ts, TokStart t := fun t ht => by
    obtain ⟨n, kt, vt, h1, h2⟩ := hI t (hE t ht)
    cases h2 with
    | mk _ _ => exact h1.tokStart.append _
  rcases first_item (r := r) hi hst with ⟨rfl, -⟩ | ⟨a, t, l, q, ht, ha, hl, hq, e⟩
  · exact absurd rfl hne
  · obtain ⟨n, kt, vt, h1, h2⟩ := hI t (hE t ht)
    cases h2 with
    | @mk l1 l2 hl1 hl2 =>
      refine ⟨struct_named (q := l2 ++ (vt ++ (l ++ q))) h1 (by rw [hd, List.cons_append, e]; simp) ha hl1, _, hd, ?_⟩
      rw [hd]
      simp only [List.cons_append, e, startsWith_cons, beq_self_eq_true, Bool.true_and]
      cases ha with
      | nil => simpa using (hst _ ht).notDelim _ (by simp)
      | ws hc _ =>
        simp
        rintro rfl
        exact absurd hc (by decide)
      | line => simp
      | block => simp

theorem fieldsStruct_ok {x : Exts} {k : Nat} {D : Nat → Ty} {rec : Ty → P SVal} {isOption : Ty → Bool} {deny : Bool} {fields : List (Text × Ty)}
    {ts : List Text} {gs : List (Option (Text × SVal))} {fs : List (Text × SVal)} {w r : Text} {d : St} (hne : ts ≠ [])
    (hw : Delim '(' ')' ts w) (h2 : All2 (FieldText x k rec deny fields) ts gs) (hn : (keysOf gs).Nodup)
    (hc : collectFields isOption (gotOf gs fun _ => none) fields = .ok fs) (hp : Pre x (k + 2) d) (hd : d.rest = w ++ r) :
    ∃ s', fieldsStruct (visitStruct rec isOption deny fields) d = .ok fs s' ∧ s'.rest = r ∧ KeepsD d s' := by
  obtain ⟨⟨s1, h1, h3, h4⟩, -⟩ := adjFields_named (I := fun e => ∃ n kt vt, KeyTok n kt ∧ Entry kt vt e) (fun _ h => h)
    (fun t ht => by obtain ⟨g, -, h⟩ := h2.mem_left t ht; exact fieldText_key h) hne hw hd .imprecise
  obtain ⟨w', rfl, hi⟩ := delim_inner hw
  obtain ⟨s2, g1, g2, g3⟩ := structAfterName_ok (k := k + 1) (visit := visitStruct rec isOption deny fields) (v := fs) (w := w') (r := r) []
    (hp.keep h4) (by rw [h3, hd]; rfl) (fun d' hp' hd' => by
      obtain ⟨s', m1, m2, m3⟩ := visitStruct_inner hi h2 hn hc (hp'.mono (by split <;> omega)) hd'
      exact ⟨s', [], m1, by simpa using m2, .nil, m3⟩)
  refine ⟨s2, ?_, g2, h4.trans g3⟩
  unfold fieldsStruct
  rw [bind_apply, h1]
  exact g1

theorem fieldsAny_reads {x : Exts} {k : Nat} {rec : Ty → P SVal} {isOption : Ty → Bool} {visitStr : P (List (Text × SVal))} {deny : Bool}
    {fields : List (Text × Ty)} {name p : Text}
    {ts : List Text} {gs : List (Option (Text × SVal))} {fs : List (Text × SVal)} {w : Text} (hne : ts ≠ []) (hn : OptName x name p)
    (hw : Delim '(' ')' ts w) (h2 : All2 (FieldText x k rec deny fields) ts gs) (hnd : (keysOf gs).Nodup)
    (hc : collectFields isOption (gotOf gs fun _ => none) fields = .ok fs) :
    Reads x (k + 2) (fieldsAny (visitStruct rec isOption deny fields) visitStr) (p ++ w) fs := by
  obtain ⟨w', hw', -⟩ := delim_inner hw
  refine ⟨by rw [hw']; exact hn.tokStart _, fun d l q hp hd hl hq => ?_⟩
  rcases hn with ⟨-, rfl⟩ | ⟨tok, a, h1, ha, rfl⟩
  · simp only [List.nil_append] at hd
    obtain ⟨-, u, hu, hs⟩ := adjFields_named (I := fun e => ∃ n kt vt, KeyTok n kt ∧ Entry kt vt e) (fun _ h => h)
      (fun t ht => by obtain ⟨g, -, h⟩ := h2.mem_left t ht; exact fieldText_key h) hne hw hd .imprecise
    obtain ⟨s', g1, g2, g3⟩ := fieldsStruct_ok (D := fun _ => .unit) hne hw h2 hnd hc hp hd
    refine ⟨s', l, ?_, g2, hl, g3⟩
    rw [fieldsAny_noKeyword (noKeyword_char hu (by decide)) hs, bind_apply, skipIdentifier_ascii hu (by decide) (by decide)]
    simp only
    unfold fieldsChar
    simp only [bind_apply, peekCharOrEof_cons hu, beq_self_eq_true, ↓reduceIte, g1]
  · have hf : IdentFollow (a ++ (w ++ (l ++ q))) := by
      rw [hw']
      exact layout_follow ha (parenOpen_follow _)
    have hd' : d.rest = tok ++ (a ++ (w ++ (l ++ q))) := by rw [hd]; simp
    have hk : NoKeyword d := fun kw hkw => by rw [hd']; exact h1.notKeyword hf hkw
    obtain ⟨s1, a1, a2, a3⟩ := h1.keyTok.skips hf hd'
    obtain ⟨s2, b1, b2, b3⟩ := skipWs_tok a2 ha (by rw [hw']; exact noLayout_paren _)
    obtain ⟨s', g1, g2, g3⟩ := fieldsStruct_ok (D := fun _ => .unit) hne hw h2 hnd hc (hp.keep (a3.toD.trans b3)) b2
    refine ⟨s', l, ?_, g2, hl, (a3.toD.trans b3).trans g3⟩
    rw [fieldsAny_noKeyword hk (by
      obtain ⟨c, u, e', hc⟩ := h1.noParen
      rw [hd', e']
      simp [Ne.symm hc]), bind_apply, a1]
    simp only [bind_apply, b1, g1]

/-! ### A map that stands for a struct -/

/-- The fields among the entries, in place. -/
def strGot (is : List StrItem) : List (Option (Text × SVal)) := is.map fun i => match i with
  | .field k v => some (k, v)
  | .other _ _ => none

theorem strGot_keys : ∀ (is : List StrItem), keysOf (strGot is) = (strFields is).map Prod.fst
  | [] => rfl
  | .field k v :: is => by
    have := strGot_keys is
    unfold strGot at this ⊢
    simp only [List.map_cons, strFields, keysOf_some, this]
  | .other k n :: is => by
    have := strGot_keys is
    unfold strGot at this ⊢
    simp only [List.map_cons, strFields, keysOf_none, this]

theorem strGot_mem : ∀ {is : List StrItem} {e : Text × SVal}, e ∈ strFields is → some e ∈ strGot is
  | .field k v :: is, e, h => by
    simp only [strFields, List.mem_cons] at h
    rcases h with rfl | h
    · simp [strGot]
    · have := strGot_mem h
      unfold strGot at this ⊢
      exact List.mem_cons_of_mem _ this
  | .other k n :: is, e, h => by
    have := strGot_mem (is := is) h
    unfold strGot at this ⊢
    exact List.mem_cons_of_mem _ this

theorem strFits_mem {D : Nat → Ty} {n : Nat} {deny : Bool} {fields : List (Text × Ty)} : ∀ {is : List StrItem} {c : Text × SVal},
    StrFits D n deny fields is → c ∈ strFields is → c.1 ∈ fields.map Prod.fst
  | .field k u :: is, c, hi, h => by
    simp only [strFields, List.mem_cons] at h
    rcases h with rfl | h
    · obtain ⟨T, hT, -⟩ := hi (.field k u) (by simp)
      exact List.mem_map.mpr ⟨_, hT, rfl⟩
    · exact strFits_mem (is := is) (fun j hj => hi j (by simp [hj])) h
  | .other k u :: is, c, hi, h => strFits_mem (is := is) (fun j hj => hi j (by simp [hj])) h

theorem strLevels_mem {is : List StrItem} : ∀ i ∈ is, i.levels + 1 ≤ strLevels is := by
  induction is with
  | nil => simp
  | cons i is ih =>
    intro j hj
    simp only [strLevels]
    rcases List.mem_cons.mp hj with rfl | hj
    · omega
    · have := ih j hj; omega

theorem strItem_reads {x : Exts} {sfx : Bool} {D : Nat → Ty} {n f : Nat} (hf : n ≤ f) {deny : Bool} {fields : List (Text × Ty)}
    (hnd : (fields.map Prod.fst).Nodup) {e : Text} {i : StrItem} {is : List StrItem} (hE : StrText x sfx e i) (hi : StrFits D n deny fields (i :: is))
    {got : Text → Option SVal} (hg : ∀ k v, i = .field k v → got k = none) :
    ∃ kt vt k, Reads x 0 string kt k ∧ strCheck deny fields got k = .ok () ∧
      Reads x i.levels (strVal (deTy D f) fields got k) vt (gotOf (strGot [i]) got) ∧ Entry kt vt e := by
  have hfit := hi i (by simp)
  cases i with
  | field k v =>
    obtain ⟨kt, vt, h1, h2, h3⟩ := hE
    obtain ⟨T, hm, hv⟩ := hfit
    refine ⟨kt, vt, k, flatKey_reads h1, ?_, ?_, h3⟩
    · unfold strCheck
      have : (fields.map Prod.fst).contains k = true := by
        rw [List.contains_iff_mem]
        exact List.mem_map.mpr ⟨_, hm, rfl⟩
      simp only [this, ↓reduceIte, hg k v rfl, Option.isSome_none, Bool.false_eq_true]
    · unfold strVal
      have := find_nodup hm hnd
      simp only at this
      rw [this]
      exact ((ty_reads D n f T v hf hv).1 vt h2).bind_pure fun v => (fun j => if j = k then some v else got j : Text → Option SVal)
  | other k m =>
    obtain ⟨hx, kt, vt, V, h1, h2, h3⟩ := hE
    obtain ⟨hm, hd⟩ := hfit
    refine ⟨kt, vt, k, flatKey_reads h1, ?_, ?_, h3⟩
    · unfold strCheck
      have : (fields.map Prod.fst).contains k = false := by
        rw [← Bool.not_eq_true, List.contains_iff_mem]
        exact hm
      simp only [this, Bool.false_eq_true, ↓reduceIte, hd]
    · unfold strVal
      rw [find_none hm]
      have : Reads x m deIgnored vt () := by
        unfold deIgnored
        exact (lang_reads_value hx h2).bind_pure fun _ => ()
      exact this.bind_pure fun _ => got

theorem str_fold {x : Exts} {sfx : Bool} {D : Nat → Ty} {n f m : Nat} (hf : n ≤ f) {deny : Bool} {fields : List (Text × Ty)}
    (hnd : (fields.map Prod.fst).Nodup) : ∀ (ts : List Text) (is : List StrItem) (got : Text → Option SVal),
    All2 (StrText x sfx) ts is → StrFits D n deny fields is → (∀ i ∈ is, i.levels ≤ m) → ((strFields is).map Prod.fst).Nodup →
    (∀ k ∈ (strFields is).map Prod.fst, got k = none) →
    FoldReads x m string (strCheck deny fields) (strVal (deTy D f) fields) ts got (gotOf (strGot is) got)
  | [], [], got, _, _, _, _, _ => rfl
  | e :: ts, i :: is, got, hE, hi, hlev, hn, hg => by
    obtain ⟨kt, vt, k, h1, h2, h3, h4⟩ := strItem_reads hf hnd hE.1 hi (got := got) (by
      rintro k v rfl
      exact hg k (by simp [strFields]))
    refine ⟨kt, vt, k, _, h1.mono (Nat.zero_le m), h2, h3.mono (hlev i (by simp)), h4, ?_⟩
    have ih := str_fold hf hnd (deny := deny) (m := m) ts is (gotOf (strGot [i]) got) hE.2 (fun j hj => hi j (by simp [hj]))
      (fun j hj => hlev j (by simp [hj]))
    cases i with
    | field k v =>
      simp only [strFields, List.map_cons, List.nodup_cons] at hn
      refine ih hn.2 fun j hj => ?_
      have : j ≠ k := fun e => hn.1 (e ▸ hj)
      simp only [strGot, gotOf, List.map_cons, List.map_nil, List.foldl_cons, List.foldl_nil, this, ↓reduceIte]
      exact hg j (by simp only [strFields, List.map_cons, List.mem_cons]; exact .inr hj)
    | other k m => exact ih hn hg
  | [], _ :: _, _, h, _, _, _, _ => h.elim
  | _ :: _, [], _, h, _, _, _, _ => h.elim

/-- The content `{ … }` of a struct variant reaches the fields. -/
theorem fieldsAny_brace {α : Type} {visit visitStr : P α} {d : St} {u : Text} (hd : d.rest = '{' :: u) :
    fieldsAny visit visitStr d = deMap visitStr d := by
  rw [fieldsAny_noKeyword (noKeyword_char hd (by decide)) (by rw [hd]; simp), bind_apply, skipIdentifier_ascii hd (by decide) (by decide)]
  simp only
  unfold fieldsChar
  simp only [bind_apply, peekCharOrEof_cons hd]
  rfl

theorem strLevels_pos {x : Exts} {sfx : Bool} {ts : List Text} {is : List StrItem} (hE : All2 (StrText x sfx) ts is) :
    (if ts = [] then 0 else strLevels is - 1 + 1) ≤ strLevels is := by
  have := budget_all (ts := ts) (m := strLevels is) (by
    intro h
    cases is with
    | nil => cases ts with
      | nil => exact absurd rfl h
      | cons => exact hE.elim
    | cons i is => have := strLevels_mem i (List.mem_cons_self (l := is)); omega)
  omega

theorem fieldsAny_map {x : Exts} {sfx : Bool} {D : Nat → Ty} {n f : Nat} (hf : n ≤ f) {deny : Bool} {fields : List (Text × Ty)} {visit : P (List (Text × SVal))}
    (hnd : (fields.map Prod.fst).Nodup) {ts : List Text} {is : List StrItem} {w : Text} (hE : All2 (StrText x sfx) ts is) (hD : Delim '{' '}' ts w)
    (hi : StrFits D n deny fields is) (hn : ((strFields is).map Prod.fst).Nodup) {fs : List (Text × SVal)}
    (hc : collectFields (fieldOf D f) (gotOf (strGot is) fun _ => none) fields = .ok fs) :
    Reads x (strLevels is + 1) (fieldsAny visit (visitStructStr (deTy D f) (fieldOf D f) deny fields)) w fs := by
  obtain ⟨w', rfl, hin⟩ := delim_inner hD
  refine ⟨⟨_, _, rfl, by decide, by decide⟩, fun d l q hp hd hl hq => ?_⟩
  have hfold := str_fold (x := x) (sfx := sfx) (m := strLevels is - 1) hf hnd ts is (fun _ => none) hE hi
    (fun i hi => by have := strLevels_mem i hi; omega) hn (fun _ _ => rfl)
  obtain ⟨s', h1, h2, h3, h4⟩ := deMap_ok (k := strLevels is) (visit := visitStructStr (deTy D f) (fieldOf D f) deny fields) (v := fs) (d := d) (w := w') (r := l ++ q)
    hp.exts hp.budget (by rw [hd]; rfl) (fun d hp hd => by
      obtain ⟨s1, g1, g2, g3⟩ := foldMap_inner (by simp) hin hfold (hp.mono (strLevels_pos hE)) hd
      refine ⟨s1, ?_, g2, g3⟩
      unfold visitStructStr
      simp only [bind_apply, g1, hc, liftE, pure_apply])
  exact ⟨s', l, by rw [fieldsAny_brace hd]; exact h1, h2, hl, h3⟩

/-- A value of a variant and its content. -/
def VarHas (D : Nat → Ty) (n : Nat) (name id : Text) (v u : SVal) : Variant → Prop
  | .unit => False
  | .newtype T => v = .newtypeVariant name id u ∧ HasTy D n T u
  | .tuple Ts => ∃ vs, v = .tupleVariant name id vs ∧ u = .tuple vs ∧ All2 (HasTy D n) Ts vs
  | .struct _ fields => ∃ fs, v = .structVariant name id fs ∧ u = .struct id fs ∧ (fields.map Prod.fst).Nodup ∧
      All2 (fun F f => F.1 = f.1 ∧ HasTy D n F.2 f.2) fields fs

theorem adjTyped_reads {x : Exts} {sfx : Bool} {D : Nat → Ty} {n f : Nat} (hf : n ≤ f) {name id w : Text} {v u : SVal} {kd : Variant}
    (h : VarHas D n name id v u kd) (ht : AdjTold v) (hw : Rend x sfx false u w) : Reads x u.cost (adjTyped D f name id kd) w v := by
  have ih : ∀ T v, HasTy D n T v → ReadsBoth x sfx (deTy D f T) v := fun T v h => ty_reads D n f T v hf h
  cases kd with
  | unit => exact h.elim
  | newtype T =>
    obtain ⟨rfl, h⟩ := h
    exact ((ih T u h).1 w hw).bind_pure (SVal.newtypeVariant name id)
  | tuple Ts =>
    obtain ⟨vs, rfl, rfl, h⟩ := h
    simp only [Rend, Bool.false_eq_true, ↓reduceIte] at hw
    obtain ⟨ts, h1, h2⟩ := hw
    exact Reads.bind_pure ((tuple_reads (tupleTexts ih h h1) h2).mono (budget_all (rendAll_pos h1))) (g := SVal.tupleVariant name id)
  | struct deny fields =>
    obtain ⟨fs, rfl, rfl, hn, h⟩ := h
    obtain ⟨hne, hr⟩ := ht
    simp only [Rend, Bool.false_eq_true, ↓reduceIte] at hw
    rcases hw with ⟨es, h1, p, q, h3, h2, rfl⟩ | ⟨es, -, h2, -⟩
    · have hes : es ≠ [] := by
        rintro rfl
        cases fs with
        | nil => exact hne rfl
        | cons => exact h1.elim
      have hpos := rendFields_pos h1 hes
      have := fieldsAny_reads (isOption := fieldOf D f) (visitStr := visitStructStr (deTy D f) (fieldOf D f) deny fields) (deny := deny) hes h3 h2
        (fieldTexts ih hn h h1) (keys_nodup hn h) (collect_self hn h)
      refine Reads.bind_pure (g := SVal.structVariant name id) (this.mono ?_)
      simp only [SVal.cost]
      omega
    · exact absurd (by cases h2 <;> simp [rangeLike]) hr

/-! ### All fields -/

/-- What a field does. -/
def AdjStep (D : Nat → Ty) (f : Nat) (name : Text) (variants : List (Text × Variant)) : AdjSt → AdjItem → AdjSt → Prop
  | st, .other _, st' => st = st'
  | .start, .tag id, .tag id' kd => id = id' ∧ variants.find? (fun e => e.1 = id) = some (id, kd)
  | .start, .buffered c, .content c' => c = c'
  | .tag id kd, .typed u, .done v => ∃ n, n ≤ f ∧ VarHas D n name id v u kd ∧ AdjTold v
  | .tag id kd, .mapped is, .done v => ∃ n deny fields fs, n ≤ f ∧ kd = .struct deny fields ∧ v = .structVariant name id fs ∧
      (fields.map Prod.fst).Nodup ∧ StrFits D n deny fields is ∧ ((strFields is).map Prod.fst).Nodup ∧
      collectFields (fieldOf D f) (gotOf (strGot is) fun _ => none) fields = .ok fs
  | .content c, .tag id, .done v => ∃ kd, variants.find? (fun e => e.1 = id) = some (id, kd) ∧ adjBuffered D f name id kd c = .ok v
  | _, _, _ => False

/-- What the fields do. -/
def AdjRun (D : Nat → Ty) (f : Nat) (name : Text) (variants : List (Text × Variant)) : List AdjItem → AdjSt → AdjSt → Prop
  | [], st, st' => st = st'
  | it :: its, st, st' => ∃ st1, AdjStep D f name variants st it st1 ∧ AdjRun D f name variants its st1 st'

theorem adjRun_known {D : Nat → Ty} {f : Nat} {name : Text} {variants : List (Text × Variant)} :
    ∀ {its : List AdjItem} {st st' : AdjSt}, AdjRun D f name variants (its.filter AdjItem.known) st st' → AdjRun D f name variants its st st'
  | [], st, st', h => h
  | it :: its, st, st', h => by
    rw [List.filter_cons] at h
    split at h
    · obtain ⟨st1, h1, h2⟩ := h
      exact ⟨st1, h1, adjRun_known h2⟩
    · next hk =>
      cases it with
      | other n =>
        refine ⟨st, ?_, adjRun_known h⟩
        cases st <;> rfl
      | _ => exact absurd rfl hk

theorem adjKey_reads {x : Exts} {tag content key kt : Text} (h : NameTok key kt) :
    Reads x 0 (adjKey tag content) kt (if key = tag then .tag else if key = content then .content else .other) := by
  have := ((deIdentifier_reads (x := x) h).reads).bind_pure fun id => (if id = tag then AdjKey.tag else if id = content then .content else .other)
  unfold adjKey
  have e : ∀ id : Text, (if id = tag then (pure .tag : P AdjKey) else if id = content then pure .content else pure .other) =
      pure (if id = tag then AdjKey.tag else if id = content then .content else .other) := by
    intro id
    split
    · rfl
    · split <;> rfl
  simp only [e]
  exact this

theorem adjStep_reads {x : Exts} {sfx : Bool} {D : Nat → Ty} {f : Nat} {tag content name : Text} (hne : tag ≠ content) {variants : List (Text × Variant)}
    {e : Text} {it : AdjItem} {st st' : AdjSt} (hE : AdjText x sfx tag content e it) (h : AdjStep D f name variants st it st') :
    ∃ kt vt k, Reads x 0 (adjKey tag content) kt k ∧ adjCheck tag content st k = .ok () ∧ Reads x it.levels (adjVal D f name variants st k) vt st' ∧
      Entry kt vt e := by
  have ktag : ∀ {kt}, NameTok tag kt → Reads x 0 (adjKey tag content) kt .tag := fun h => by simpa using adjKey_reads (tag := tag) (content := content) h
  have kcontent : ∀ {kt}, NameTok content kt → Reads x 0 (adjKey tag content) kt .content := fun h => by
    simpa [Ne.symm hne] using adjKey_reads (tag := tag) (content := content) h
  cases it with
  | other n =>
    obtain ⟨hx, key, kt, vt, V, h1, h2, h3, h4, h5⟩ := hE
    have h : st = st' := by simpa [AdjStep] using h
    subst h
    refine ⟨kt, vt, .other, by simpa [h1, h2] using adjKey_reads (tag := tag) (content := content) h3, by cases st <;> rfl, ?_, h5⟩
    have : Reads x n deIgnored vt () := by
      unfold deIgnored
      exact (lang_reads_value hx h4).bind_pure fun _ => ()
    exact this.bind_pure fun _ => st
  | tag id =>
    obtain ⟨kt, vt, h1, h2, h3⟩ := hE
    cases st with
    | start =>
      cases st' with
      | tag id' kd =>
        obtain ⟨rfl, hfi⟩ := h
        refine ⟨kt, vt, .tag, ktag h1, rfl, ?_, h3⟩
        exact (adjTag_reads (x := x) (name := name) h2 hfi).bind_pure fun p => AdjSt.tag p.1 p.2
      | _ => exact h.elim
    | content c =>
      cases st' with
      | done v =>
        obtain ⟨kd, hfi, hb⟩ := h
        refine ⟨kt, vt, .tag, ktag h1, rfl, ?_, h3⟩
        have hr := adjTag_reads (x := x) (name := name) h2 hfi
        refine ⟨hr.1, fun d l q hp hd hl hq => ?_⟩
        obtain ⟨s', l', g1, g2⟩ := hr.2 d l q hp hd hl hq
        refine ⟨s', l', ?_, g2⟩
        unfold adjVal
        simp only [bind_apply, g1, hb, liftE, pure_apply]
      | _ => exact h.elim
    | _ => exact h.elim
  | typed u =>
    obtain ⟨kt, vt, h1, h2, h3⟩ := hE
    cases st with
    | tag id kd =>
      cases st' with
      | done v =>
        obtain ⟨n, hf, hv, ht⟩ := h
        refine ⟨kt, vt, .content, kcontent h1, rfl, ?_, h3⟩
        exact (adjTyped_reads hf hv ht h2).bind_pure AdjSt.done
      | _ => exact h.elim
    | _ => exact h.elim
  | mapped is =>
    obtain ⟨kt, vt, ts, h1, h2, h3, h4⟩ := hE
    cases st with
    | tag id kd =>
      cases st' with
      | done v =>
        obtain ⟨n, deny, fields, fs, hf, rfl, rfl, hnd, hi, hn, hc⟩ := h
        refine ⟨kt, vt, .content, kcontent h1, rfl, ?_, h4⟩
        exact ((fieldsAny_map hf hnd h2 h3 hi hn hc).bind_pure (SVal.structVariant name id)).bind_pure AdjSt.done
      | _ => exact h.elim
    | _ => exact h.elim
  | buffered c =>
    obtain ⟨hx, kt, vt, h1, h2, h3⟩ := hE
    cases st with
    | start =>
      cases st' with
      | content c' =>
        cases h
        refine ⟨kt, vt, .content, kcontent h1, rfl, ?_, h3⟩
        exact (deContent_reads hx h2).bind_pure AdjSt.content
      | _ => exact h.elim
    | _ => exact h.elim

omit [Env] in
theorem adjLevels_mem {its : List AdjItem} : ∀ it ∈ its, it.levels + 1 ≤ adjLevels its := by
  induction its with
  | nil => simp
  | cons i its ih =>
    intro it hit
    simp only [adjLevels]
    rcases List.mem_cons.mp hit with rfl | hit
    · omega
    · have := ih it hit; omega

theorem adj_fold {x : Exts} {sfx : Bool} {D : Nat → Ty} {f m : Nat} {tag content name : Text} (hne : tag ≠ content) {variants : List (Text × Variant)} :
    ∀ (ts : List Text) (its : List AdjItem) (st st' : AdjSt), All2 (AdjText x sfx tag content) ts its → AdjRun D f name variants its st st' →
    (∀ it ∈ its, it.levels ≤ m) →
    FoldReads x m (adjKey tag content) (adjCheck tag content) (adjVal D f name variants) ts st st'
  | [], [], st, st', _, h, _ => h
  | e :: ts, it :: its, st, st', hE, ⟨st1, h1, h2⟩, hlev => by
    obtain ⟨kt, vt, k, g1, g2, g3, g4⟩ := adjStep_reads hne hE.1 h1
    exact ⟨kt, vt, k, st1, g1.mono (Nat.zero_le m), g2, g3.mono (hlev it (by simp)), g4,
      adj_fold hne ts its st1 st' hE.2 h2 fun i hi => hlev i (by simp [hi])⟩
  | [], _ :: _, _, _, h, _, _ => h.elim
  | _ :: _, [], _, _, h, _, _ => h.elim

theorem adjLevels_pos {x : Exts} {sfx : Bool} {tag content : Text} {ts : List Text} {its : List AdjItem} (hE : All2 (AdjText x sfx tag content) ts its) :
    (if ts = [] then 0 else adjLevels its - 1 + 1) ≤ adjLevels its := by
  have := budget_all (ts := ts) (m := adjLevels its) (by
    intro h
    cases its with
    | nil => cases ts with
      | nil => exact absurd rfl h
      | cons => exact hE.elim
    | cons it its => have := adjLevels_mem it (List.mem_cons_self (l := its)); omega)
  omega

/-- The struct. -/
theorem adj_reads {x : Exts} {sfx : Bool} {D : Nat → Ty} {f : Nat} {tag content name : Text} (hne : tag ≠ content) {variants : List (Text × Variant)}
    {ts : List Text} {its : List AdjItem} {st : AdjSt} {p w : Text} {v : SVal} (hp : OptName x name p) (hE : All2 (AdjText x sfx tag content) ts its)
    (hD : Delim '(' ')' ts w) (h : AdjRun D f name variants its .start st) (hv : adjEnd D f name tag content st = .ok v) :
    Reads x (adjLevels its + 1) (deAdjacent D f tag content name variants) (p ++ w) v := by
  obtain ⟨w', rfl, hi⟩ := delim_inner hD
  refine ⟨hp.tokStart _, fun d l q hpre hd hl hq => ?_⟩
  have hd' : d.rest = p ++ '(' :: (w' ++ (l ++ q)) := by rw [hd]; simp
  obtain ⟨b0, s0, g1, ⟨l0, g2, g3⟩, g4⟩ := structName_opt hp hpre.exts hd'
  obtain ⟨s1, a1, a2, a3⟩ := skipWs_tok g3 g2 (noLayout_paren _)
  have hfold := adj_fold (m := adjLevels its - 1) hne ts its _ _ hE h fun it hit => by have := adjLevels_mem it hit; omega
  obtain ⟨s2, b1, b2, b3⟩ := structAfterName_ok (visit := adjVisit D f tag content name variants) (v := v) name (hpre.keep (g4.trans a3)) a2
    fun d' hp' hd' => by
      obtain ⟨s', c1, c2, c3⟩ := foldMap_inner (by simp) hi hfold (hp'.mono (adjLevels_pos hE)) hd'
      refine ⟨s', [], ?_, c2, .nil, c3⟩
      unfold adjVisit
      simp only [bind_apply, c1, hv, liftE, pure_apply]
  refine ⟨s2, l, ?_, b2, hl, (g4.trans a3).trans b3⟩
  unfold deAdjacent
  simp only [bind_apply, getSt_apply, hpre.nv, Bool.not_false, ↓reduceIte, g1, a1, b1]

end Ron
