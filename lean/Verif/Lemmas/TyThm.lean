import Verif.Lemmas.TyRange
/-! Typed text is read as the data it renders. -/

set_option linter.unusedSimpArgs false

namespace Ron

variable [Env]

/-- Both contexts. -/
def ReadsBoth (x : Exts) (sfx : Bool) (seed : P SVal) (v : SVal) : Prop :=
  (∀ w, Rend x sfx false v w → Reads x v.cost seed w v) ∧ (∀ w, Rend x sfx true v w → ReadsT x v.cost true seed w v)

theorem readsBoth_tok {x : Exts} {sfx : Bool} {seed : P SVal} {v : SVal} (h : ∀ nv w, Rend x sfx nv v w → ReadsA x v.cost seed w v) :
    ReadsBoth x sfx seed v := ⟨fun w hw => (h false w hw).reads, fun w hw => (h true w hw).toT true⟩

omit [Env] in
theorem budget_all {ts : List Text} {m : Nat} (h : ts ≠ [] → 1 ≤ m) : (if ts = [] then 0 else m - 1 + 1) + 1 ≤ m + 1 := by
  by_cases he : ts = []
  · rw [if_pos he]; omega
  · have := h he
    rw [if_neg he]; omega

theorem rendAll_pos {x : Exts} {sfx : Bool} {vs : List SVal} {ts : List Text} (h : RendAll x sfx vs ts) : ts ≠ [] → 1 ≤ costAll vs := by
  cases vs with
  | nil => cases ts with
    | nil => intro h; exact absurd rfl h
    | cons => exact h.elim
  | cons v vs => intro _; have := costAll_mem v (List.mem_cons_self (l := vs)); omega

theorem rendFields_pos {x : Exts} {sfx : Bool} {fs : List (Text × SVal)} {ts : List Text} (h : RendFields x sfx fs ts) :
    ts ≠ [] → 1 ≤ costFields fs := by
  cases fs with
  | nil => cases ts with
    | nil => intro h; exact absurd rfl h
    | cons => exact h.elim
  | cons v vs => intro _; have := costFields_mem v (List.mem_cons_self (l := vs)); omega

theorem rendEntries_pos {x : Exts} {sfx : Bool} {fs : List (SVal × SVal)} {ts : List Text} (h : RendEntries x sfx fs ts) :
    ts ≠ [] → 1 ≤ costEntries fs := by
  cases fs with
  | nil => cases ts with
    | nil => intro h; exact absurd rfl h
    | cons => exact h.elim
  | cons v vs => intro _; have := (costEntries_mem v (List.mem_cons_self (l := vs))).1; omega

section
variable {x : Exts} {sfx : Bool} {H : Ty → SVal → Prop} {rec : Ty → P SVal} {isOption : Ty → Bool}

theorem seq_both {T : Ty} (ih : ∀ T v, H T v → ReadsBoth x sfx (rec T) v) {vs : List SVal} (hv : ∀ u ∈ vs, H T u) :
    ReadsBoth x sfx (do let vs ← deSeq (readSeq ']' (rec T)); pure (.seq (some vs.length) vs)) (.seq (some vs.length) vs) := by
  refine readsBoth_tok fun nv w hw => ?_
  simp only [Rend] at hw
  obtain ⟨ts, h1, h2⟩ := hw
  have h3 : All2 (Reads x (costAll vs - 1) (rec T)) ts vs := by
    refine All2.mono (all2_swap (rendAll_iff.mp h1)) fun t _ v hvm hr => ((ih T v (hv v hvm)).1 t hr).mono ?_
    have := costAll_mem v hvm; omega
  refine ReadsA.bind_pure (g := fun vs => SVal.seq (some vs.length) vs) ?_
  refine ReadsA.mono ?_ (budget_all (rendAll_pos h1))
  refine ⟨delim_tokStart h2 ⟨_, _, rfl, by decide, by decide⟩, fun d l q hx hb hd hl hq => ?_⟩
  obtain ⟨w', rfl, hi⟩ := delim_inner h2
  obtain ⟨s', g1, g2, g3, -⟩ := deSeq_ok (r := l ++ q) hx hb (by simpa using hd) fun d' hp' hd' => readSeq_inner (by simp) hi h3 hp' hd'
  exact ⟨s', l, g1, g2, hl, g3⟩

theorem map_both {K V : Ty} (ih : ∀ T v, H T v → ReadsBoth x sfx (rec T) v) {kvs : List (SVal × SVal)}
    (hv : ∀ e ∈ kvs, H K e.1 ∧ H V e.2) :
    ReadsBoth x sfx (do let es ← deMap (readMap '}' (rec K) (rec V)); pure (.map (some es.length) es)) (.map (some kvs.length) kvs) := by
  refine readsBoth_tok fun nv w hw => ?_
  simp only [Rend] at hw
  obtain ⟨ts, h1, h2⟩ := hw
  have h3 : All2 (ReadsEntry x (costEntries kvs - 1) (rec K) (rec V)) ts kvs := by
    refine All2.mono (all2_swap (rendEntries_iff.mp h1)) fun t _ e hem hr => ?_
    obtain ⟨kt, vt, r1, r2, r3⟩ := hr
    have := costEntries_mem e hem
    exact ⟨kt, vt, ((ih K _ (hv e hem).1).1 kt r1).mono (by omega), ((ih V _ (hv e hem).2).1 vt r2).mono (by omega), r3⟩
  refine ReadsA.bind_pure (g := fun vs => SVal.map (some vs.length) vs) ?_
  refine ReadsA.mono ?_ (budget_all (rendEntries_pos h1))
  refine ⟨delim_tokStart h2 ⟨_, _, rfl, by decide, by decide⟩, fun d l q hx hb hd hl hq => ?_⟩
  obtain ⟨w', rfl, hi⟩ := delim_inner h2
  obtain ⟨s', g1, g2, g3, -⟩ := deMap_ok (r := l ++ q) hx hb (by simpa using hd) fun d' hp' hd' => readMap_inner (by simp) hi h3 hp' hd'
  exact ⟨s', l, g1, g2, hl, g3⟩

theorem tupleTexts (ih : ∀ T v, H T v → ReadsBoth x sfx (rec T) v) {Ts : List Ty} {vs : List SVal} {ts : List Text}
    (hv : All2 H Ts vs) (hr : RendAll x sfx vs ts) : Reads3 x (costAll vs - 1) (Ts.map rec) ts vs :=
  reads3_of (fun T v hT w hw => (ih T v hT).1 w hw) hv hr fun v hv => by have := costAll_mem v hv; omega

theorem tuple_both (ih : ∀ T v, H T v → ReadsBoth x sfx (rec T) v) {Ts : List Ty} {vs : List SVal} (hv : All2 H Ts vs) :
    ReadsBoth x sfx (do let vs ← deTuple (tupleLoop c!"tuple" (Ts.map rec) 0 true); pure (.tuple vs)) (.tuple vs) := by
  constructor
  · intro w hw
    simp only [Rend, Bool.false_eq_true, ↓reduceIte] at hw
    obtain ⟨ts, h1, h2⟩ := hw
    exact Reads.bind_pure ((tuple_reads (tupleTexts ih hv h1) h2).mono (budget_all (rendAll_pos h1))) (g := SVal.tuple)
  · intro w hw
    simp only [Rend, ↓reduceIte] at hw
    obtain ⟨ts, h1, h2⟩ := hw
    exact ReadsT.bind_pure ((tuple_readsT (tupleTexts ih hv h1) h2).mono (budget_all (rendAll_pos h1))) (g := SVal.tuple)

theorem tupleStruct_both (ih : ∀ T v, H T v → ReadsBoth x sfx (rec T) v) (name : Text) {Ts : List Ty} {vs : List SVal} (hv : All2 H Ts vs) :
    ReadsBoth x sfx (do let vs ← deTupleStruct name (tupleLoop c!"tuple struct" (Ts.map rec) 0 true); pure (.tupleStruct name vs))
      (.tupleStruct name vs) := by
  constructor
  · intro w hw
    simp only [Rend, Bool.false_eq_true, ↓reduceIte] at hw
    obtain ⟨ts, h1, p, q, h3, h2, rfl⟩ := hw
    obtain ⟨w', e, -⟩ := delim_inner h2
    exact Reads.bind_pure (tupleStruct_reads h3 e ((tuple_reads (tupleTexts ih hv h1) h2).mono (budget_all (rendAll_pos h1))))
      (g := SVal.tupleStruct name)
  · intro w hw
    simp only [Rend, ↓reduceIte] at hw
    obtain ⟨ts, h1, h2⟩ := hw
    exact ReadsT.bind_pure (tupleStruct_readsT ((tuple_readsT (tupleTexts ih hv h1) h2).mono (budget_all (rendAll_pos h1))))
      (g := SVal.tupleStruct name)

theorem fieldTexts (ih : ∀ T v, H T v → ReadsBoth x sfx (rec T) v) {deny : Bool} {fields : List (Text × Ty)} {fs : List (Text × SVal)}
    {es : List Text} (hn : (fields.map Prod.fst).Nodup) (hv : All2 (fun F f => F.1 = f.1 ∧ H F.2 f.2) fields fs)
    (hr : RendFields x sfx fs es) : All2 (FieldText x (costFields fs - 1) rec deny fields) es (fs.map some) :=
  fieldTexts_of hn (fun T v hT w hw => (ih T v hT).1 w hw) (fun _ h => h) hv hr fun f hf => by have := costFields_mem f hf; omega

theorem keys_nodup {fields : List (Text × Ty)} {fs : List (Text × SVal)}
    (hn : (fields.map Prod.fst).Nodup) (hv : All2 (fun F f => F.1 = f.1 ∧ H F.2 f.2) fields fs) : (keysOf (fs.map some)).Nodup := by
  rw [keysOf_map, ← all2_names hv]; exact hn

theorem struct_both (ih : ∀ T v, H T v → ReadsBoth x sfx (rec T) v) {conv : Ty → Number → Except Err SVal} (name : Text) {deny : Bool}
    {fields : List (Text × Ty)} {fs : List (Text × SVal)} (hn : (fields.map Prod.fst).Nodup)
    (hv : All2 (fun F f => F.1 = f.1 ∧ H F.2 f.2) fields fs)
    (hconv : ∀ T (a : Number), a.Keeps sfx → H T (.num a) → conv T (if sfx then a.canon else a.untyped) = .ok (.num a)) :
    ReadsBoth x sfx (deStruct rec isOption conv name deny fields) (.struct name fs) := by
  constructor
  · intro w hw
    simp only [Rend, Bool.false_eq_true, ↓reduceIte] at hw
    rcases hw with ⟨es, h1, p, q, h3, h2, rfl⟩ | hw
    rotate_left
    · exact (range_reads hconv hv hw).reads.mono (Nat.zero_le _)
    exact (struct_reads h3 h2 (fieldTexts ih hn hv h1) (keys_nodup hn hv) (collect_self hn hv)).mono (budget_all (rendFields_pos h1))
  · intro w hw
    simp only [Rend, ↓reduceIte] at hw
    rcases hw with ⟨es, h1, h2⟩ | hw
    rotate_left
    · exact ((range_reads hconv hv hw).toT true).mono (Nat.zero_le _)
    exact (struct_readsT h2 (fieldTexts ih hn hv h1) (keys_nodup hn hv) (collect_self hn hv)).mono (budget_all (rendFields_pos h1))

/-! ### Enums -/

theorem unitVariant_both {name id : Text} {variants : List (Text × Variant)} (hm : (id, Variant.unit) ∈ variants)
    (hn : (variants.map Prod.fst).Nodup) :
    ReadsBoth x sfx (deEnum name (visitEnum rec isOption name variants)) (.unitVariant name id) := by
  refine readsBoth_tok fun nv w hw => ?_
  simp only [Rend] at hw
  have := enum_reads (x := x) (k := 1) (rec := rec) (isOption := isOption) (name := name) (w' := []) (V := .unitVariant name id) (by omega)
    hw (find_nodup hm hn)
    (fun l q hl hq => by simpa using follow_ident hl hq) (fun d l q hp hd hl hq => ⟨d, l, rfl, hd, hl, .refl _⟩)
  simpa [SVal.cost] using this

theorem newtypeVariant_both {T : Ty} {v : SVal} (h : ReadsBoth x sfx (rec T) v) {name id : Text} {variants : List (Text × Variant)}
    (hm : (id, Variant.newtype T) ∈ variants) (hn : (variants.map Prod.fst).Nodup) :
    ReadsBoth x sfx (deEnum name (visitEnum rec isOption name variants)) (.newtypeVariant name id v) := by
  refine readsBoth_tok fun nv w hw => ?_
  simp only [Rend] at hw
  obtain ⟨tok, l0, p, h1, h2, h3, rfl⟩ := hw
  have hp : Paren (fun t => ReadsT x v.cost x.unwrapVariantNewtypes (rec T) t v) p := by
    obtain ⟨a, t, b, g1, g2, g3, g4⟩ := h3
    refine ⟨a, t, b, g1, ?_, g3, g4⟩
    cases hu : x.unwrapVariantNewtypes with
    | false => rw [hu] at g2; exact (h.1 t g2).toT
    | true => rw [hu] at g2; exact h.2 t g2
  refine enum_reads (k := v.cost + 1) (by omega) h1 (find_nodup hm hn) (fun l q hl hq => ?_) (fun d l q hpre hd hl hq => ?_)
  · obtain ⟨a, t, b, g1, g2, g3, rfl⟩ := h3
    rw [List.append_assoc]
    exact layout_follow h2 (parenOpen_follow _)
  · obtain ⟨s', g1, g2, g3⟩ := newtypeVariant_ok hp h2 hpre (r := l ++ q) (by rw [hd]; simp)
    refine ⟨s', l, ?_, g2, hl, g3⟩
    simp only [variantData, bind_apply, g1, pure_apply]

theorem tupleVariant_both (ih : ∀ T v, H T v → ReadsBoth x sfx (rec T) v) {Ts : List Ty} {vs : List SVal} (hv : All2 H Ts vs)
    {name id : Text} {variants : List (Text × Variant)} (hm : (id, Variant.tuple Ts) ∈ variants) (hn : (variants.map Prod.fst).Nodup) :
    ReadsBoth x sfx (deEnum name (visitEnum rec isOption name variants)) (.tupleVariant name id vs) := by
  refine readsBoth_tok fun nv w hw => ?_
  simp only [Rend] at hw
  obtain ⟨ts, h0, tok, l0, q0, h1, h2, h3, rfl⟩ := hw
  refine enum_reads (k := costAll vs + 1) (by omega) h1 (find_nodup hm hn) (fun l q hl hq => ?_) (fun d l q hpre hd hl hq => ?_)
  · obtain ⟨w', rfl, -⟩ := delim_inner h3
    rw [List.append_assoc]
    exact layout_follow h2 (parenOpen_follow _)
  · have hr : Reads x (costAll vs + 1) (deTuple (tupleLoop c!"tuple variant" (Ts.map rec) 0 true)) q0 vs :=
      (tuple_reads (tupleTexts ih hv h0) h3).mono (budget_all (rendAll_pos h0))
    obtain ⟨s1, a1, a2, a3⟩ := skipWs_tok (r := q0 ++ (l ++ q)) (by rw [hd]; simp) h2 (hr.1.noLayout _)
    obtain ⟨s', l', g1, g2, g3, g4⟩ := hr.2 s1 l q (hpre.keep a3) a2 hl hq
    refine ⟨s', l', ?_, g2, g3, a3.trans g4⟩
    simp only [variantData, bind_apply, a1, g1, pure_apply]

theorem structVariant_data {k : Nat} {deny : Bool} {fields : List (Text × Ty)} {es : List Text} {gs : List (Option (Text × SVal))}
    {fs : List (Text × SVal)} {name id l0 q0 : Text} (h0 : All2 (FieldText x k rec deny fields) es gs) (hn : (keysOf gs).Nodup)
    (hc : collectFields isOption (gotOf gs fun _ => none) fields = .ok fs) (hl0 : Layout l0) (hq0 : Delim '(' ')' es q0)
    {d : St} {l q : Text} (hp : Pre x ((if es = [] then 0 else k + 1) + 1) d) (hd : d.rest = l0 ++ q0 ++ (l ++ q)) (hl : Layout l) :
    RunsTo (variantData rec isOption name id (.struct deny fields)) d (.structVariant name id fs) q := by
  obtain ⟨w', rfl, hi⟩ := delim_inner hq0
  obtain ⟨s1, a1, a2, a3⟩ := skipWs_tok (r := '(' :: (w' ++ (l ++ q))) (by rw [hd]; simp) hl0 (noLayout_paren _)
  obtain ⟨s2, b1, b2, b3⟩ := structAfterName_ok [] (hp.keep a3) a2 fun d' hp' hd' => by
    obtain ⟨s', c1, c2, c3⟩ := visitStruct_inner hi h0 hn hc hp' hd'
    exact ⟨s', [], c1, c2, .nil, c3⟩
  refine ⟨s2, l, ?_, b2, hl, a3.trans b3⟩
  simp only [variantData, bind_apply, getSt_apply, a1, mapErr_apply, b1, pure_apply]

theorem structVariant_both (ih : ∀ T v, H T v → ReadsBoth x sfx (rec T) v) {deny : Bool} {fields : List (Text × Ty)}
    {fs : List (Text × SVal)} (hnf : (fields.map Prod.fst).Nodup) (hv : All2 (fun F f => F.1 = f.1 ∧ H F.2 f.2) fields fs)
    {name id : Text} {variants : List (Text × Variant)} (hm : (id, Variant.struct deny fields) ∈ variants)
    (hn : (variants.map Prod.fst).Nodup) :
    ReadsBoth x sfx (deEnum name (visitEnum rec isOption name variants)) (.structVariant name id fs) := by
  refine readsBoth_tok fun nv w hw => ?_
  simp only [Rend] at hw
  obtain ⟨es, h0, tok, l0, q0, h1, h2, h3, rfl⟩ := hw
  refine enum_reads (k := costFields fs + 1) (by omega) h1 (find_nodup hm hn) (fun l q hl hq => ?_) (fun d l q hpre hd hl hq => ?_)
  · obtain ⟨w', rfl, -⟩ := delim_inner h3
    rw [List.append_assoc]
    exact layout_follow h2 (parenOpen_follow _)
  · exact structVariant_data (fieldTexts ih hnf hv h0) (keys_nodup hnf hv) (collect_self hnf hv) h2 h3
      (hpre.mono (budget_all (rendFields_pos h0))) hd hl

end

/-! ### All types -/

/-- Text that renders data of a type is read as that data. -/
theorem ty_reads (D : Nat → Ty) {x : Exts} {sfx : Bool} : ∀ (n f : Nat) (T : Ty) (v : SVal), n ≤ f → HasTy D n T v →
    ReadsBoth x sfx (deTy D f T) v
  | 0, _, _, _, _, h => h.elim
  | n + 1, 0, _, _, hf, _ => absurd hf (by omega)
  | n + 1, f + 1, T, v, hf, h => by
    have ih : ∀ T v, HasTy D n T v → ReadsBoth x sfx (deTy D f T) v := fun T v h => ty_reads D n f T v (by omega) h
    cases T with
    | bool =>
      obtain ⟨b, rfl⟩ := h
      refine readsBoth_tok fun nv w hw => ?_
      simp only [Rend] at hw; subst hw
      exact (bool_reads b).bind_pure SVal.bool
    | int t =>
      obtain ⟨i, rfl, h1, h2⟩ := h
      refine readsBoth_tok fun nv w hw => ?_
      simp only [Rend] at hw
      obtain ⟨-, rfl⟩ := hw
      have hd := integer_reads (x := x) sfx h1 h2
      rw [← deInt_avail h1] at hd
      exact hd.bind_pure (fun p : IntTy × Int => SVal.num (.int p.1 p.2))
    | f32 =>
      obtain ⟨b, rfl, h1⟩ := h
      refine readsBoth_tok fun nv w hw => ?_
      simp only [Rend] at hw
      obtain ⟨-, rfl⟩ := hw
      exact (f32_reads sfx h1).bind_pure SVal.num
    | f64 =>
      obtain ⟨b, rfl, h1⟩ := h
      refine readsBoth_tok fun nv w hw => ?_
      simp only [Rend] at hw
      obtain ⟨-, rfl⟩ := hw
      exact (f64_reads sfx h1).bind_pure SVal.num
    | char =>
      obtain ⟨c, rfl⟩ := h
      refine readsBoth_tok fun nv w hw => ?_
      simp only [Rend] at hw; subst hw
      exact (charLit_reads c).bind_pure SVal.char
    | str =>
      obtain ⟨t, rfl⟩ := h
      refine readsBoth_tok fun nv w hw => ?_
      simp only [Rend] at hw
      exact (string_reads hw).bind_pure SVal.str
    | bytes =>
      obtain ⟨t, rfl⟩ := h
      refine readsBoth_tok fun nv w hw => ?_
      simp only [Rend] at hw
      exact (bytes_reads hw).bind_pure SVal.bytes
    | unit =>
      have h : v = .unit := h
      subst h
      constructor
      · intro w hw
        simp only [Rend, Bool.false_eq_true, ↓reduceIte] at hw; subst hw
        exact unit_reads.bind_pure (fun _ => SVal.unit)
      · intro w hw
        simp only [Rend, ↓reduceIte] at hw; subst hw
        exact unit_readsT.bind_pure (fun _ => SVal.unit)
    | unitStruct name =>
      have h : v = .unitStruct name := h
      subst h
      constructor
      · intro w hw
        simp only [Rend, Bool.false_eq_true, ↓reduceIte] at hw
        rcases hw with hw | ⟨rfl, rfl⟩
        rotate_left
        · exact full_reads.reads.bind_pure (fun _ => SVal.unitStruct _)
        exact (unitStruct_reads hw).bind_pure (fun _ => SVal.unitStruct name)
      · intro w hw
        simp only [Rend, ↓reduceIte] at hw
        rcases hw with rfl | ⟨rfl, rfl⟩
        rotate_left
        · exact (full_reads.toT true).bind_pure (fun _ => SVal.unitStruct _)
        exact unitStruct_readsT.bind_pure (fun _ => SVal.unitStruct name)
    | newtype name T =>
      obtain ⟨u, rfl, h⟩ := h
      have hu := ih T u h
      constructor
      · intro w hw
        simp only [Rend, Bool.or_false] at hw
        split at hw
        · rename_i hx
          exact (newtype_unwrapped (hu.1 w hw) hx).bind_pure (SVal.newtypeStruct name)
        · rename_i hx
          obtain ⟨p, q, h1, ⟨a, t, b, g1, g2, g3, g4⟩, rfl⟩ := hw
          exact (newtype_wrapped h1 ⟨a, t, b, g1, hu.1 t g2, g3, g4⟩ (by simpa using hx)).bind_pure (SVal.newtypeStruct name)
      · intro w hw
        simp only [Rend, Bool.or_true, ↓reduceIte] at hw
        exact (newtype_nv (hu.1 w hw)).bind_pure (SVal.newtypeStruct name)
    | option T =>
      rcases h with rfl | ⟨u, rfl, h⟩
      · refine readsBoth_tok fun nv w hw => ?_
        simp only [Rend] at hw; subst hw
        exact option_none
      · have hu := ih T u h
        have hex : ∀ l p, Layout l → Paren (fun t => Rend x sfx x.unwrapVariantNewtypes u t) p →
            ReadsA x (SVal.some u).cost (deTy D (f + 1) (.option T)) (c!"Some" ++ (l ++ p)) (.some u) := by
          intro l p hl hp
          refine option_some (k := u.cost) ?_ hl
          obtain ⟨a, t, b, g1, g2, g3, g4⟩ := hp
          refine ⟨a, t, b, g1, ?_, g3, g4⟩
          refine ReadsT.bind_pure ?_ SVal.some
          cases hux : x.unwrapVariantNewtypes with
          | false => rw [hux] at g2; exact (hu.1 t g2).toT
          | true => rw [hux] at g2; exact hu.2 t g2
        constructor
        · intro w hw
          simp only [Rend] at hw
          rcases hw with ⟨l, p, hl, hp, rfl⟩ | ⟨hi, hw, hno⟩
          · exact (hex l p hl hp).reads
          · exact option_implicit ((hu.1 w hw).bind_pure SVal.some) hno hi
        · intro w hw
          simp only [Rend] at hw
          rcases hw with ⟨l, p, hl, hp, rfl⟩ | ⟨hi, hw, hno⟩
          · exact (hex l p hl hp).toT true
          · exact option_implicitT ((hu.2 w hw).bind_pure SVal.some) hno hi
    | seq T =>
      obtain ⟨vs, rfl, h⟩ := h
      exact seq_both ih h
    | tuple Ts =>
      obtain ⟨vs, rfl, h⟩ := h
      exact tuple_both ih h
    | tupleStruct name Ts =>
      obtain ⟨vs, rfl, h⟩ := h
      exact tupleStruct_both ih name h
    | map K V =>
      obtain ⟨kvs, rfl, h⟩ := h
      exact map_both ih h
    | struct name deny fields =>
      obtain ⟨fs, rfl, hn, h⟩ := h
      exact struct_both ih name hn h fun T a hk hT => numTo_back hk n f T (by omega) hT
    | enum name variants =>
      obtain ⟨id, k, hm, hn, h⟩ := h
      cases k with
      | unit => cases h; exact unitVariant_both hm hn
      | newtype T => obtain ⟨u, rfl, h⟩ := h; exact newtypeVariant_both (ih T u h) hm hn
      | tuple Ts => obtain ⟨vs, rfl, h⟩ := h; exact tupleVariant_both ih h hm hn
      | struct deny fields => obtain ⟨fs, rfl, hnf, h⟩ := h; exact structVariant_both ih hnf h hm hn
    | value => exact h.elim
    | raw => exact h.elim
    | ref i => exact ih (D i) v h

end Ron
