import Verif.Lemmas.TyRead
/-! Reading typed tuples and structs. -/

set_option linter.unusedSimpArgs false

namespace Ron

variable [Env]

/-! ### Tuples -/

/-- Each seed reads its text as its value. -/
def Reads3 (x : Exts) (k : Nat) : List (P SVal) → List Text → List SVal → Prop
  | [], [], [] => True
  | s :: ss, t :: ts, v :: vs => Reads x k s t v ∧ Reads3 x k ss ts vs
  | _, _, _ => False

omit [Env] in
theorem Reads3.tokStart {x : Exts} {k : Nat} : ∀ {ss : List (P SVal)} {ts : List Text} {vs : List SVal}, Reads3 x k ss ts vs →
    ∀ t ∈ ts, TokStart t
  | [], [], [], _ => by simp
  | _ :: _, _ :: _, _ :: _, h => by
    intro t ht
    rcases List.mem_cons.mp ht with rfl | ht
    · exact h.1.1
    · exact Reads3.tokStart h.2 t ht

omit [Env] in
theorem tupleLoop_body {x : Exts} {k : Nat} (ex : Text) {ts : List Text} {u : Text} (hu : Body ts u) :
    ∀ (ss : List (P SVal)) (vs : List SVal) (i : Nat) (d : St) (l b r : Text),
    Reads3 x k ss ts vs → Pre x (k + 1) d → d.rest = l ++ (u ++ (b ++ ')' :: r)) → Layout l → Tail b →
    ∃ s', tupleLoop ex ss i true d = .ok vs s' ∧ s'.rest = ')' :: r ∧ KeepsD d s' := by
  induction hu with
  | @one t =>
    intro ss vs i d l b r h3 hp hd hl hb
    match ss, vs, h3 with
    | s :: ss, v :: vs, h3 =>
      match ss, vs, h3.2 with
      | [], [], _ =>
      obtain ⟨had, s1, h1, h2, h4⟩ := nextElement_last hp (by simp) h3.1 hd hl hb
      exact ⟨s1, by simp only [tupleLoop, bind_apply, h1, pure_apply], h2, h4⟩
  | @cons t b' a u ts hb' ha hu ih =>
    intro ss vs i d l b r h3 hp hd hl hb
    match ss, vs, h3 with
    | s :: ss, v :: vs, h3 =>
      obtain ⟨s1, h1, h2, h4⟩ := nextElement_more (term := ')') (r := u ++ (b ++ ')' :: r)) hp (by simp) h3.1 (by rw [hd]; simp) hl hb' ha
        ((hu.tokStart h3.2.tokStart).noLayout _)
      obtain ⟨s2, g1, g2, g3⟩ := ih ss vs (i + 1) s1 [] b r h3.2 (hp.keep h4) (by simpa using h2) .nil hb
      exact ⟨s2, by simp only [tupleLoop, bind_apply, h1, g1, pure_apply], g2, h4.trans g3⟩

omit [Env] in
theorem tupleLoop_inner {x : Exts} {k : Nat} (ex : Text) {ts : List Text} {w : Text} (hw : Inner ')' ts w) {ss : List (P SVal)}
    {vs : List SVal} {i : Nat} {d : St} {r : Text} (h3 : Reads3 x k ss ts vs) (hp : Pre x (if ts = [] then 0 else k + 1) d)
    (hd : d.rest = w ++ r) :
    ∃ s' l, tupleLoop ex ss i true d = .ok vs s' ∧ s'.rest = l ++ ')' :: r ∧ Layout l ∧ KeepsD d s' := by
  cases hw with
  | @nil a ha =>
    match ss, vs, h3 with
    | [], [], _ => exact ⟨d, a, rfl, by simpa using hd, ha, .refl _⟩
  | @items a u t ts ha hu ht =>
    rw [if_neg (body_ne hu)] at hp
    obtain ⟨s', h1, h2, h4⟩ := tupleLoop_body ex hu ss vs i d a t r h3 hp (by rw [hd]; simp) ha ht
    exact ⟨s', [], h1, h2, .nil, h4⟩

/-! ### Struct fields -/

omit [Env] in
/-- The field that has been read last wins; names occur once. -/
def gotOf (gs : List (Option (Text × SVal))) (got : Text → Option SVal) : Text → Option SVal :=
  gs.foldl (fun got g => match g with
    | some (key, v) => fun k => if k = key then some v else got k
    | none => got) got

/-- The names of the fields that are not ignored. -/
def keysOf (gs : List (Option (Text × SVal))) : List Text := (gs.filterMap id).map Prod.fst

omit [Env] in
theorem keysOf_none (gs : List (Option (Text × SVal))) : keysOf (none :: gs) = keysOf gs := by simp [keysOf]
omit [Env] in
theorem keysOf_some (key : Text) (v : SVal) (gs : List (Option (Text × SVal))) : keysOf (some (key, v) :: gs) = key :: keysOf gs := by
  simp [keysOf]

omit [Env] in
theorem gotOf_not : ∀ (gs : List (Option (Text × SVal))) (got : Text → Option SVal) (k : Text), k ∉ keysOf gs → gotOf gs got k = got k
  | [], _, _, _ => rfl
  | none :: gs, got, k, h => gotOf_not gs got k (by rwa [keysOf_none] at h)
  | some (key, v) :: gs, got, k, h => by
    rw [keysOf_some, List.mem_cons, not_or] at h
    have := gotOf_not gs (fun k => if k = key then some v else got k) k h.2
    simp only [gotOf, List.foldl_cons] at this ⊢
    rw [this, if_neg h.1]

omit [Env] in
theorem gotOf_mem : ∀ (gs : List (Option (Text × SVal))) (got : Text → Option SVal) (k : Text) (v : SVal), (keysOf gs).Nodup →
    some (k, v) ∈ gs → gotOf gs got k = some v
  | [], _, _, _, _, h => by simp at h
  | none :: gs, got, k, v, hn, h => gotOf_mem gs got k v (by rwa [keysOf_none] at hn) (by simpa using h)
  | some (key, u) :: gs, got, k, v, hn, h => by
    rw [keysOf_some, List.nodup_cons] at hn
    rcases List.mem_cons.mp h with h | h
    · obtain ⟨rfl, rfl⟩ : k = key ∧ v = u := by simpa using h
      have := gotOf_not gs (fun k' => if k' = k then some v else got k') k hn.1
      simp only [gotOf, List.foldl_cons] at this ⊢
      rw [this, if_pos trivial]
    · exact gotOf_mem gs _ k v hn.2 h

/-- The text of a field: a known field with a value of its type, or an unknown field with any value if such are ignored. -/
def FieldText (x : Exts) (k : Nat) (rec : Ty → P SVal) (deny : Bool) (fields : List (Text × Ty)) (e : Text)
    (g : Option (Text × SVal)) : Prop :=
  ∃ key kt vt, NameTok key kt ∧ Entry kt vt e ∧
    match g with
    | some (key', v) => key' = key ∧ ∃ T, fields.find? (fun f => f.1 = key) = some (key, T) ∧ Reads x k (rec T) vt v
    | none => deny = false ∧ key ∉ fields.map Prod.fst ∧ Reads x k deIgnored vt ()

theorem FieldText.tokStart {x : Exts} {k : Nat} {rec : Ty → P SVal} {deny : Bool} {fields : List (Text × Ty)} {e : Text}
    {g : Option (Text × SVal)} (h : FieldText x k rec deny fields e g) : TokStart e := by
  obtain ⟨key, kt, vt, h1, h2, -⟩ := h
  cases h2 with
  | mk _ _ => exact h1.tokStart.append _

theorem deIdentifier_reads {x : Exts} {n t : Text} (h : NameTok n t) : ReadsA x 0 deIdentifier t n := by
  refine ⟨h.tokStart, fun d l q _ _ hd hl hq => ?_⟩
  obtain ⟨s', h1, h2, h3⟩ := h.reads (follow_ident hl hq) hd
  have h3 := h3.toD
  refine ⟨{ s' with lastIdent := some n }, l, ?_, h2, hl, ⟨h3.src, h3.exts, h3.limit, h3.nv⟩⟩
  unfold deIdentifier
  simp only [bind_apply, h1, modSt_apply, pure_apply]

theorem fieldKey_some {x : Exts} {k : Nat} {deny : Bool} {names : List Text} {n t : Text} (h : NameTok n t) (hn : n ∈ names) :
    Reads x k (fieldKey deny names) t (some n) := by
  refine ⟨h.tokStart, fun d l q hp hd hl hq => ?_⟩
  obtain ⟨s', l', h1, h2⟩ := (deIdentifier_reads (x := x) h).2 d l q hp.exts (hp.budget.mono (Nat.zero_le _)) hd hl hq
  refine ⟨s', l', ?_, h2⟩
  unfold fieldKey
  have hc : names.contains n = true := by simpa using hn
  simp only [bind_apply, h1, hc, ↓reduceIte, pure_apply]

theorem fieldKey_none {x : Exts} {k : Nat} {names : List Text} {n t : Text} (h : NameTok n t) (hn : n ∉ names) :
    Reads x k (fieldKey false names) t none := by
  refine ⟨h.tokStart, fun d l q hp hd hl hq => ?_⟩
  obtain ⟨s', l', h1, h2⟩ := (deIdentifier_reads (x := x) h).2 d l q hp.exts (hp.budget.mono (Nat.zero_le _)) hd hl hq
  refine ⟨s', l', ?_, h2⟩
  unfold fieldKey
  have hc : names.contains n = false := by simpa using hn
  simp only [bind_apply, h1, hc, ↓reduceIte, pure_apply, Bool.false_eq_true]

omit [Env] in
theorem find_names {fields : List (Text × Ty)} {key : Text} {e : Text × Ty} (h : fields.find? (fun f => f.1 = key) = some e) :
    key ∈ fields.map Prod.fst := by
  have h1 := List.mem_of_find?_eq_some h
  have h2 := List.find?_some h
  simp only [decide_eq_true_eq] at h2
  exact List.mem_map.mpr ⟨e, h1, h2⟩

theorem structLoop_body {x : Exts} {k : Nat} {rec : Ty → P SVal} {deny : Bool} {fields : List (Text × Ty)} {ts : List Text} {u : Text}
    (hu : Body ts u) : ∀ (f : Nat) (gs : List (Option (Text × SVal))) (got : Text → Option SVal) (d : St) (l b r : Text),
    All2 (FieldText x k rec deny fields) ts gs → (keysOf gs).Nodup → (∀ key ∈ keysOf gs, got key = none) →
    Pre x (k + 1) d → d.rest = l ++ (u ++ (b ++ ')' :: r)) → Layout l → Tail b → ts.length < f →
    ∃ s', structLoop rec deIgnored deny fields f true got d = .ok (gotOf gs got) s' ∧ s'.rest = ')' :: r ∧ KeepsD d s' := by
  induction hu with
  | @one t =>
    intro f gs got d l b r h2 hn hg hp hd hl hb hf
    obtain ⟨f, rfl⟩ : ∃ g, f = g + 1 + 1 := ⟨f - 2, by simp at hf; omega⟩
    match gs, h2 with
    | [g], h2 =>
      obtain ⟨key, kt, vt, hk, he, hg1⟩ := h2.1
      cases he with
      | @mk m m' hm hm' =>
      cases g with
      | some e =>
        obtain ⟨key', v⟩ := e
        obtain ⟨rfl, T, hf, hv⟩ := hg1
        obtain ⟨s1, b1, a1, a2, a3, a4⟩ := nextKey_ok (term := ')') (b := m) (r := m' ++ (vt ++ (b ++ ')' :: r))) hp (by simp)
          (fieldKey_some (deny := deny) hk (find_names hf)) (by rw [hd]; simp) hl hm
        obtain ⟨had, s2, c1, c2, c3⟩ := nextValue_last (hp.keep a4) (by simp) hv a2 a3 hm' hb
        obtain ⟨s3, e1, e2, e3⟩ := nextKey_end (term := ')') (key := fieldKey deny (fields.map Prod.fst)) had (by simp)
          (show s2.rest = [] ++ ')' :: r from c2) .nil
        refine ⟨s3, ?_, e2, (a4.trans c3).trans e3⟩
        have hnone := hg key' (by simp [keysOf])
        rw [structLoop]
        simp only [bind_apply, a1, hnone, Option.isSome_none, Bool.false_eq_true, ↓reduceIte, hf, c1]
        rw [structLoop]
        simp only [bind_apply, e1, pure_apply]
        rfl
      | none =>
        obtain ⟨rfl, hnm, hv⟩ := hg1
        obtain ⟨s1, b1, a1, a2, a3, a4⟩ := nextKey_ok (term := ')') (b := m) (r := m' ++ (vt ++ (b ++ ')' :: r))) hp (by simp)
          (fieldKey_none hk hnm) (by rw [hd]; simp) hl hm
        obtain ⟨had, s2, c1, c2, c3⟩ := nextValue_last (hp.keep a4) (by simp) hv a2 a3 hm' hb
        obtain ⟨s3, e1, e2, e3⟩ := nextKey_end (term := ')') (key := fieldKey false (fields.map Prod.fst)) had (by simp)
          (show s2.rest = [] ++ ')' :: r from c2) .nil
        refine ⟨s3, ?_, e2, (a4.trans c3).trans e3⟩
        rw [structLoop]
        simp only [bind_apply, a1, c1]
        rw [structLoop]
        simp only [bind_apply, e1, pure_apply]
        rfl
  | @cons t b' a u ts hb' ha hu ih =>
    intro f gs got d l b r h2 hn hg hp hd hl hb hf
    obtain ⟨f, rfl⟩ : ∃ g, f = g + 1 := ⟨f - 1, by simp at hf; omega⟩
    match gs, h2 with
    | g :: gs, h2 =>
      have hts : ∀ t ∈ ts, TokStart t := by
        intro t ht
        obtain ⟨g, -, hg⟩ := All2.mem_left h2.2 t ht
        exact hg.tokStart
      have hnl := (hu.tokStart hts).noLayout (b ++ ')' :: r)
      obtain ⟨key, kt, vt, hk, he, hg1⟩ := h2.1
      cases he with
      | @mk m m' hm hm' =>
      cases g with
      | some e =>
        obtain ⟨key', v⟩ := e
        obtain ⟨rfl, T, hfi, hv⟩ := hg1
        rw [keysOf_some, List.nodup_cons] at hn
        obtain ⟨s1, b1, a1, a2, a3, a4⟩ := nextKey_ok (term := ')') (b := m)
          (r := m' ++ (vt ++ (b' ++ ',' :: (a ++ (u ++ (b ++ ')' :: r)))))) hp (by simp)
          (fieldKey_some (deny := deny) hk (find_names hfi)) (by rw [hd]; simp) hl hm
        obtain ⟨s2, c1, c2, c3⟩ := nextValue_more (hp.keep a4) hv a2 a3 hm' hb' ha hnl
        obtain ⟨s3, e1, e2, e3⟩ := ih f gs (fun k => if k = key' then some v else got k) s2 [] b r h2.2 hn.2
          (fun key hkey => by
            rw [if_neg (by rintro rfl; exact hn.1 hkey)]
            exact hg key (by rw [keysOf_some]; simp [hkey]))
          ((hp.keep a4).keep c3) (by simpa using c2) .nil hb (by simp at hf; omega)
        refine ⟨s3, ?_, e2, (a4.trans c3).trans e3⟩
        have hnone := hg key' (by simp [keysOf])
        rw [structLoop]
        simp only [bind_apply, a1, hnone, Option.isSome_none, Bool.false_eq_true, ↓reduceIte, hfi, c1]
        exact e1
      | none =>
        obtain ⟨rfl, hnm, hv⟩ := hg1
        rw [keysOf_none] at hn
        obtain ⟨s1, b1, a1, a2, a3, a4⟩ := nextKey_ok (term := ')') (b := m)
          (r := m' ++ (vt ++ (b' ++ ',' :: (a ++ (u ++ (b ++ ')' :: r)))))) hp (by simp)
          (fieldKey_none hk hnm) (by rw [hd]; simp) hl hm
        obtain ⟨s2, c1, c2, c3⟩ := nextValue_more (hp.keep a4) hv a2 a3 hm' hb' ha hnl
        obtain ⟨s3, e1, e2, e3⟩ := ih f gs got s2 [] b r h2.2 hn
          (fun key hkey => hg key (by rwa [keysOf_none]))
          ((hp.keep a4).keep c3) (by simpa using c2) .nil hb (by simp at hf; omega)
        refine ⟨s3, ?_, e2, (a4.trans c3).trans e3⟩
        rw [structLoop]
        simp only [bind_apply, a1, c1]
        exact e1

omit [Env] in
/-- What the fields of a struct become. -/
theorem collectFields_ok {isOption : Ty → Bool} {got : Text → Option SVal} : ∀ {fields : List (Text × Ty)} {fs : List (Text × SVal)},
    All2 (fun F f => F.1 = f.1 ∧ (got F.1 = some f.2 ∨ (got F.1 = none ∧ isOption F.2 = true ∧ f.2 = .none))) fields fs →
    collectFields isOption got fields = .ok fs
  | [], [], _ => rfl
  | (F, T) :: fields, (k, v) :: fs, h => by
    obtain ⟨⟨rfl, h1⟩, h2⟩ := h
    have ih := collectFields_ok h2
    rcases h1 with h1 | ⟨h1, h3, h4⟩
    · simp only at h1
      simp only [collectFields, h1, ih]; rfl
    · simp only at h1 h3 h4
      simp only [collectFields, h1, h3, h4, ih, ↓reduceIte]; rfl
  | [], _ :: _, h => h.elim
  | _ :: _, [], h => h.elim

/-- The fields of a struct are collected, in any order. -/
theorem structLoop_inner {x : Exts} {k : Nat} {rec : Ty → P SVal} {deny : Bool} {fields : List (Text × Ty)}
    {ts : List Text} {w : Text} (hw : Inner ')' ts w) {gs : List (Option (Text × SVal))} {d : St} {r : Text}
    (h2 : All2 (FieldText x k rec deny fields) ts gs) (hn : (keysOf gs).Nodup)
    (hp : Pre x (if ts = [] then 0 else k + 1) d) (hd : d.rest = w ++ r) :
    ∃ s', structLoop rec deIgnored deny fields (d.rest.length + 1) true (fun _ => none) d = .ok (gotOf gs fun _ => none) s' ∧
      s'.rest = ')' :: r ∧ KeepsD d s' := by
  cases hw with
  | @nil a ha =>
    match gs, h2 with
    | [], _ =>
      obtain ⟨s3, e1, e2, e3⟩ := nextKey_end (term := ')') (key := fieldKey deny (fields.map Prod.fst)) true (by simp)
        (show d.rest = a ++ ')' :: r by simpa using hd) ha
      refine ⟨s3, ?_, e2, e3⟩
      rw [structLoop]
      simp only [bind_apply, e1, pure_apply]
      rfl
  | @items a u t ts ha hu ht =>
    rw [if_neg (body_ne hu)] at hp
    have hts : ∀ t ∈ ts, TokStart t := by
      intro t ht
      obtain ⟨g, -, hg⟩ := All2.mem_left h2 t ht
      exact hg.tokStart
    refine structLoop_body hu _ gs _ d a t r h2 hn (fun _ _ => rfl) hp (by rw [hd]; simp) ha ht ?_
    have := hu.length hts
    rw [hd]; simp; omega

/-- The fields of a struct, in any order. -/
theorem visitStruct_inner {x : Exts} {k : Nat} {rec : Ty → P SVal} {isOption : Ty → Bool} {deny : Bool} {fields : List (Text × Ty)}
    {ts : List Text} {w : Text} (hw : Inner ')' ts w) {gs : List (Option (Text × SVal))} {fs : List (Text × SVal)} {d : St} {r : Text}
    (h2 : All2 (FieldText x k rec deny fields) ts gs) (hn : (keysOf gs).Nodup)
    (hc : collectFields isOption (gotOf gs fun _ => none) fields = .ok fs)
    (hp : Pre x (if ts = [] then 0 else k + 1) d) (hd : d.rest = w ++ r) :
    ∃ s', visitStruct rec isOption deny fields d = .ok fs s' ∧ s'.rest = ')' :: r ∧ KeepsD d s' := by
  obtain ⟨s', h1, h3, h4⟩ := structLoop_inner hw h2 hn hp hd
  refine ⟨s', ?_, h3, h4⟩
  unfold visitStruct
  simp only [bind_apply, getSt_apply, h1, hc, liftE, pure_apply]

/-! ### Structs that are not written as ranges -/

/-- The text does not begin like a number. -/
def NotNum (r : Text) : Prop :=
  (∀ c u, r = c :: u → isNumberStart r c = false) ∧
  ∀ kw ∈ [c!"inf", c!"inff32", c!"inff64", c!"NaN", c!"NaNf32", c!"NaNf64"], startsWith r kw = false ∨ headXid (r.drop kw.length) = true

theorem NotNum.dots {r : Text} (h : NotNum r) : startsWith r c!".." = false := by
  cases r with
  | nil => rfl
  | cons c u =>
    have := h.1 c u rfl
    simp only [startsWith_cons, Bool.and_eq_false_iff, beq_eq_false_iff_ne]
    left
    rintro rfl
    simp [isNumberStart] at this

theorem rangeStruct_none {d : St} (h : NotNum d.rest) (name : Text) (fields : List Text) : rangeStruct name fields d = .ok none d := by
  have h2 : ∀ kw ∈ [c!"inf", c!"inff32", c!"inff64", c!"NaN", c!"NaNf32", c!"NaNf64"], checkIdent kw d = .ok false d :=
    fun kw hk => checkIdent_false (h.2 kw hk)
  have hdots := h.dots
  unfold rangeStruct
  simp only [bind_apply, getSt_apply, hdots, Bool.false_eq_true, ↓reduceIte, ite_P, h2 c!"inf" (by simp), h2 c!"inff32" (by simp),
    h2 c!"inff64" (by simp), h2 c!"NaN" (by simp), h2 c!"NaNf32" (by simp), h2 c!"NaNf64" (by simp), Bool.or_false, and_false,
    pure_apply]
  have h1 := h.1
  generalize hr : d.rest = t at h1 ⊢
  cases t with
  | nil =>
    simp only [Bool.false_eq_true, ↓reduceIte]
    split
    · rfl
    · split <;> rfl
  | cons c u =>
    simp only [h1 c u rfl, Bool.false_eq_true, ↓reduceIte]
    split
    · rfl
    · split <;> rfl

omit [Env] in
theorem isNumberStart_other {c : Char} {r : Text} (hd : isDigit c = false) (h : c ∉ ['+', '-', '.', 'b']) :
    isNumberStart r c = false := by
  unfold isNumberStart
  simp only [List.mem_cons, List.not_mem_nil, or_false, not_or] at h
  simp [hd, h]

theorem notNum_char {c : Char} {u : Text} (hd : isDigit c = false) (h1 : c ∉ ['+', '-', '.', 'b', 'i', 'N']) : NotNum (c :: u) := by
  simp only [List.mem_cons, List.not_mem_nil, or_false, not_or] at h1
  refine ⟨fun d v e => ?_, fun kw hk => .inl ?_⟩
  · cases e; exact isNumberStart_other hd (by simp [h1])
  · simp only [List.mem_cons, List.not_mem_nil, or_false] at hk
    have := Ne.symm h1.2.2.2.2.1
    have := Ne.symm h1.2.2.2.2.2
    rcases hk with rfl | rfl | rfl | rfl | rfl | rfl <;> simp_all

theorem NameTok.notNum {n t r : Text} (h : NameTok n t) (hr : IdentFollow r) : NotNum (t ++ r) := by
  refine ⟨?_, fun kw hk => h.notKeyword hr ?_⟩
  · obtain ⟨hn, rfl | ⟨rfl, hp, hres⟩⟩ := h
    · intro c u e
      simp only [List.cons_append, List.cons.injEq] at e
      rw [← e.1]
      exact isNumberStart_other (by decide) (by decide)
    · obtain ⟨c, cs, rfl, hc, hcs⟩ := hp
      intro d u e
      simp only [List.cons_append, List.cons.injEq] at e
      obtain ⟨rfl, rfl⟩ := e
      by_cases hb : c = 'b'
      · subst hb
        have : startsWith ('b' :: cs ++ r) c!"b'" = false := by
          simp only [List.cons_append, startsWith_cons, beq_self_eq_true, Bool.true_and]
          cases cs with
          | nil =>
            cases r with
            | nil => rfl
            | cons c r =>
              have := (hr c r rfl).2.2.1
              simp [this, Ne.symm this]
          | cons c cs =>
            have := hcs c (by simp)
            simp only [List.cons_append, startsWith_cons, Bool.and_eq_false_iff, beq_eq_false_iff_ne]
            left
            rintro rfl
            rw [Env.xidCont_ascii _ (by decide)] at this
            revert this; decide
        unfold isNumberStart
        rw [this]; rfl
      · refine isNumberStart_other ?_ ?_
        · cases hdg : isDigit c with
          | false => rfl
          | true =>
            obtain ⟨h1, h2, -⟩ := isDigit_bounds hdg
            rw [isIdentFirst_ascii h1] at hc
            rw [hc] at h2; cases h2
        · intro hm
          simp only [List.mem_cons, List.not_mem_nil, or_false] at hm
          rcases hm with rfl | rfl | rfl | rfl <;>
            first
            | exact hb rfl
            | (rw [isIdentFirst_ascii (by decide)] at hc; revert hc; decide)
  · simp only [List.mem_cons, List.not_mem_nil, or_false] at hk
    rcases hk with rfl | rfl | rfl | rfl | rfl | rfl <;> decide

theorem OptName.notNum {x : Exts} {name p u : Text} (h : OptName x name p) : NotNum (p ++ '(' :: u) := by
  rcases h with ⟨-, rfl⟩ | ⟨tok, l, h1, h2, rfl⟩
  · exact notNum_char (by decide) (by decide)
  · rw [List.append_assoc]
    exact h1.notNum (layout_follow h2 (parenOpen_follow _))

theorem layout_notNum {l q : Text} (hl : Layout l) (hq : NotNum q) : NotNum (l ++ q) := by
  cases hl with
  | nil => exact hq
  | ws h =>
    have : ∀ c ∈ ronWhitespace, isDigit c = false ∧ c ∉ ['+', '-', '.', 'b', 'i', 'N'] := by decide
    exact notNum_char (this _ h).1 (this _ h).2
  | _ => exact notNum_char (by decide) (by decide)

theorem tail_notNum {b r : Text} (h : Tail b) : NotNum (b ++ ')' :: r) := by
  obtain ⟨l, q, hl, e, hq⟩ := tail_split (r := r) (term := ')') h
  rw [e]
  refine layout_notNum hl ?_
  rcases hq with rfl | ⟨c, -, rfl⟩ <;> exact notNum_char (by decide) (by decide)

end Ron
