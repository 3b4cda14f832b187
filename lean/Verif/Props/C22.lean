import Verif.Lemmas.TyDoc
import Verif.Lemmas.Witness
import Verif.Lemmas.Deq
import Verif.Spec.Before
/-!
# C22: struct fields are order-independent, complete and unique

`gs` lists the fields as they stand in the text, in their order there; `fs` are the fields of the value, in the order of the type.
-/

set_option linter.unusedSimpArgs false

namespace Ron

variable [Env]

/-- Every field of the list has a name of the struct type and a value of the type of that field. -/
def FieldsIn (D : Nat → Ty) (n : Nat) (fields : List (Text × Ty)) (gs : List (Text × SVal)) : Prop :=
  ∀ g ∈ gs, ∃ T, (g.1, T) ∈ fields ∧ HasTy D n T g.2

theorem fieldTexts_in {x : Exts} {sfx : Bool} {k n f : Nat} {D : Nat → Ty} {deny : Bool} {fields : List (Text × Ty)}
    (hn : (fields.map Prod.fst).Nodup) (hf : n ≤ f) :
    ∀ {gs : List (Text × SVal)} {es : List Text}, FieldsIn D n fields gs → RendFields x sfx gs es → (∀ g ∈ gs, g.2.cost ≤ k) →
      All2 (FieldText x k (deTy D f) deny fields) es (gs.map some)
  | [], [], _, _, _ => trivial
  | (key, v) :: gs, e :: es, h1, h2, h3 => by
    obtain ⟨kt, vt, g1, g2, g3⟩ := h2.1
    obtain ⟨T, hT, hv⟩ := h1 (key, v) (by simp)
    refine ⟨⟨_, kt, vt, g1, g3, rfl, T, find_nodup hT hn, ((ty_reads D n f T v hf hv).1 vt g2).mono (h3 (key, v) (by simp))⟩, ?_⟩
    exact fieldTexts_in hn hf (fun g hg => h1 g (by simp [hg])) h2.2 fun g hg => h3 g (by simp [hg])
  | [], _ :: _, _, h, _ => h.elim
  | _ :: _, [], _, h, _ => by cases h

omit [Env] in
theorem all2_left {α β : Type} {R : α → β → Prop} : ∀ {as : List α} {bs : List β}, All2 R as bs →
    All2 (fun a b => R a b ∧ a ∈ as) as bs
  | [], [], _ => trivial
  | _ :: _, _ :: _, h => ⟨⟨h.1, by simp⟩, (all2_left h.2).imp fun _ _ h => ⟨h.1, by simp [h.2]⟩⟩
  | [], _ :: _, h => h.elim
  | _ :: _, [], h => h.elim

/-! ### Any order; absent optional fields -/

/-- The fields `gs` of the text amount to the fields `fs` of the value: each given field is a field of the value, and each field of
the value is given or is an absent optional field, which is `None`. -/
def Amounts (fields : List (Text × Ty)) (gs fs : List (Text × SVal)) : Prop :=
  (gs.map Prod.fst).Nodup ∧ (∀ g ∈ gs, g ∈ fs) ∧
  All2 (fun F f => F.1 = f.1 ∧ (f ∈ gs ∨ (F.1 ∉ gs.map Prod.fst ∧ (∃ T, F.2 = .option T) ∧ f.2 = .none))) fields fs

/-- A struct is read the same whatever the order of its fields in the text; optional fields that are `None` may be absent. -/
theorem C22_fields (o : Options) (D : Nat → Ty) (n f : Nat) (name : Text) (deny : Bool) (fields : List (Text × Ty))
    (gs fs : List (Text × SVal)) (hT : HasTy D n (.struct name deny fields) (.struct name fs)) (hf : n ≤ f)
    (ha : Amounts fields gs fs) (sfx : Bool) (ts : List Text) (p q : Text) (hp : OptName o.defaultExtensions name p)
    (hts : RendFields o.defaultExtensions sfx gs ts) (hq : Delim '(' ')' ts q)
    (hk : ∀ m, o.recursionLimit = some m → (SVal.struct name fs).cost ≤ m) :
    fromStr o (deTy D f (.struct name deny fields)) (p ++ q) = .ok (.struct name fs) := by
  cases n with
  | zero => cases hT
  | succ n =>
  obtain ⟨f, rfl⟩ : ∃ g, f = g + 1 := ⟨f - 1, by omega⟩
  obtain ⟨fs', he, hnd, hall⟩ : ∃ fs', SVal.struct name fs = .struct name fs' ∧ (fields.map Prod.fst).Nodup ∧
      All2 (fun F e => F.1 = e.1 ∧ HasTy D n F.2 e.2) fields fs' := by
    simpa [HasTy] using hT
  cases he
  obtain ⟨h1, h2, h3⟩ := ha
  have hmem : ∀ g ∈ gs, ∃ F ∈ fields, F.1 = g.1 ∧ HasTy D n F.2 g.2 := by
    intro g hg
    exact All2.mem_left (all2_swap hall) g (h2 g hg)
  have hin : FieldsIn D n fields gs := by
    intro g hg
    obtain ⟨F, hF, hF1, hF2⟩ := hmem g hg
    exact ⟨F.2, by rw [← hF1]; exact hF, hF2⟩
  have hopt : ∀ F ∈ fields, ∀ T, F.2 = .option T → fieldOf D f F.2 = true := by
    intro F hF T hFT
    obtain ⟨e, he, -, he2⟩ := All2.mem_left hall F hF
    cases n with
    | zero => cases he2
    | succ n =>
      obtain ⟨f, rfl⟩ : ∃ g, f = g + 1 := ⟨f - 1, by omega⟩
      rw [hFT]; rfl
  have hcost : ∀ g ∈ gs, g.2.cost ≤ costFields fs - 1 := by
    intro g hg
    have := costFields_mem g (h2 g hg); omega
  have hr := struct_reads (isOption := fieldOf D f) (conv := numTo D f) hp hq
    (fieldTexts_in (f := f) (deny := deny) hnd (by omega) hin hts hcost)
    (by rw [keysOf_map]; exact h1) (fs := fs) (by
      have hall3 := all2_left h3
      refine collectFields_ok (hall3.imp fun F e hF => ⟨hF.1.1, ?_⟩)
      rcases hF.1.2 with hg | ⟨ha, ⟨T, hT⟩, hnone⟩
      · refine .inl (gotOf_mem _ _ _ _ (by rw [keysOf_map]; exact h1) ?_)
        rw [hF.1.1]
        exact List.mem_map.mpr ⟨e, hg, rfl⟩
      · refine .inr ⟨?_, hopt F hF.2 T hT, hnone⟩
        rw [gotOf_not _ _ _ (by rw [keysOf_map]; exact ha)])
  have hr' := hr.mono (k' := (SVal.struct name fs).cost) (by
    simp only [SVal.cost]
    split
    · omega
    · next hne =>
      cases gs with
      | nil => cases ts with
        | nil => exact absurd rfl hne
        | cons => exact hts.elim
      | cons g gs =>
        have := costFields_mem g (h2 g (by simp))
        omega)
  have := doc_reads (seed := deTy D (f + 1) (.struct name deny fields)) (by simpa only [deTy] using hr') (o := o) (l := []) (hdr := []) (l' := [])
    (e := {}) .nil .nil (by simp [Exts.union, Exts.empty]) hk .nil
  simpa using this

/-- A struct is read the same for every order of its fields. -/
theorem C22_order (o : Options) (D : Nat → Ty) (n f : Nat) (name : Text) (deny : Bool) (fields : List (Text × Ty))
    (gs fs : List (Text × SVal)) (hT : HasTy D n (.struct name deny fields) (.struct name fs)) (hf : n ≤ f)
    (hg : gs.Perm fs) (sfx : Bool) (ts : List Text) (p q : Text) (hp : OptName o.defaultExtensions name p)
    (hts : RendFields o.defaultExtensions sfx gs ts) (hq : Delim '(' ')' ts q)
    (hk : ∀ m, o.recursionLimit = some m → (SVal.struct name fs).cost ≤ m) :
    fromStr o (deTy D f (.struct name deny fields)) (p ++ q) = .ok (.struct name fs) := by
  refine C22_fields o D n f name deny fields gs fs hT hf ?_ sfx ts p q hp hts hq hk
  cases n with
  | zero => cases hT
  | succ n =>
  obtain ⟨fs', he, hnd, hall⟩ : ∃ fs', SVal.struct name fs = .struct name fs' ∧ (fields.map Prod.fst).Nodup ∧
      All2 (fun F e => F.1 = e.1 ∧ HasTy D n F.2 e.2) fields fs' := by
    simpa [HasTy] using hT
  cases he
  refine ⟨?_, fun g h => hg.mem_iff.mp h, (all2_right hall).imp fun F e h => ⟨h.1.1, .inl (hg.mem_iff.mpr h.2)⟩⟩
  rw [(hg.map Prod.fst).nodup_iff, ← all2_names hall]
  exact hnd

/-! ### Duplicated, missing and unknown fields -/

/-- The fields before a place are read one after the other. -/
theorem structLoop_prefix {x : Exts} {k : Nat} {rec : Ty → P SVal} {deny : Bool} {fields : List (Text × Ty)} {ts : List Text} {u : Text}
    (hu : Body ts u) : ∀ (f : Nat) (gs : List (Option (Text × SVal))) (got : Text → Option SVal) (d : St) (l b a r : Text),
    All2 (FieldText x k rec deny fields) ts gs → (keysOf gs).Nodup → (∀ key ∈ keysOf gs, got key = none) →
    Pre x (k + 1) d → d.rest = l ++ (u ++ (b ++ ',' :: (a ++ r))) → Layout l → Layout b → Layout a → NoLayoutStart r →
    ∃ s', structLoop rec deIgnored deny fields (f + ts.length) true got d = structLoop rec deIgnored deny fields f true (gotOf gs got) s' ∧
      s'.rest = r ∧ KeepsD d s' := by
  induction hu with
  | @one t =>
    intro f gs got d l b a r h2 hn hg hp hd hl hb ha hr
    match gs, h2 with
    | [g], h2 =>
      obtain ⟨key, kt, vt, hk, he, hg1⟩ := h2.1
      cases he with
      | @mk m m' hm hm' =>
      cases g with
      | some e =>
        obtain ⟨key', v⟩ := e
        obtain ⟨rfl, T, hf, hv⟩ := hg1
        obtain ⟨s1, b1, a1, a2, a3, a4⟩ := nextKey_ok (term := ')') (b := m) (r := m' ++ (vt ++ (b ++ ',' :: (a ++ r)))) hp (by simp)
          (fieldKey_some (deny := deny) hk (find_names hf)) (by rw [hd]; simp) hl hm
        obtain ⟨s2, c1, c2, c3⟩ := nextValue_more (hp.keep a4) hv a2 a3 hm' hb ha hr
        refine ⟨s2, ?_, c2, a4.trans c3⟩
        have hnone := hg key' (by simp [keysOf])
        rw [List.length_singleton, structLoop]
        simp only [bind_apply, a1, hnone, Option.isSome_none, Bool.false_eq_true, ↓reduceIte, hf, c1]
        rfl
      | none =>
        obtain ⟨rfl, hnm, hv⟩ := hg1
        obtain ⟨s1, b1, a1, a2, a3, a4⟩ := nextKey_ok (term := ')') (b := m) (r := m' ++ (vt ++ (b ++ ',' :: (a ++ r)))) hp (by simp)
          (fieldKey_none hk hnm) (by rw [hd]; simp) hl hm
        obtain ⟨s2, c1, c2, c3⟩ := nextValue_more (hp.keep a4) hv a2 a3 hm' hb ha hr
        refine ⟨s2, ?_, c2, a4.trans c3⟩
        rw [List.length_singleton, structLoop]
        simp only [bind_apply, a1, c1]
        rfl
  | @cons t b' a' u ts hb' ha' hu ih =>
    intro f gs got d l b a r h2 hn hg hp hd hl hb ha hr
    match gs, h2 with
    | g :: gs, h2 =>
      have hts : ∀ t ∈ ts, TokStart t := by
        intro t ht
        obtain ⟨g, -, hg⟩ := All2.mem_left h2.2 t ht
        exact hg.tokStart
      have hnl := (hu.tokStart hts).noLayout (b ++ ',' :: (a ++ r))
      obtain ⟨key, kt, vt, hk, he, hg1⟩ := h2.1
      rw [List.length_cons, ← Nat.add_assoc]
      cases he with
      | @mk m m' hm hm' =>
      cases g with
      | some e =>
        obtain ⟨key', v⟩ := e
        obtain ⟨rfl, T, hfi, hv⟩ := hg1
        rw [keysOf_some, List.nodup_cons] at hn
        obtain ⟨s1, b1, a1, a2, a3, a4⟩ := nextKey_ok (term := ')') (b := m)
          (r := m' ++ (vt ++ (b' ++ ',' :: (a' ++ (u ++ (b ++ ',' :: (a ++ r))))))) hp (by simp)
          (fieldKey_some (deny := deny) hk (find_names hfi)) (by rw [hd]; simp) hl hm
        obtain ⟨s2, c1, c2, c3⟩ := nextValue_more (hp.keep a4) hv a2 a3 hm' hb' ha' hnl
        obtain ⟨s3, e1, e2, e3⟩ := ih f gs (fun k => if k = key' then some v else got k) s2 [] b a r h2.2 hn.2
          (fun key hkey => by
            rw [if_neg (by rintro rfl; exact hn.1 hkey)]
            exact hg key (by rw [keysOf_some]; simp [hkey]))
          ((hp.keep a4).keep c3) (by simpa using c2) .nil hb ha hr
        refine ⟨s3, ?_, e2, (a4.trans c3).trans e3⟩
        have hnone := hg key' (by simp [keysOf])
        rw [structLoop]
        simp only [bind_apply, a1, hnone, Option.isSome_none, Bool.false_eq_true, ↓reduceIte, hfi, c1]
        exact e1
      | none =>
        obtain ⟨rfl, hnm, hv⟩ := hg1
        rw [keysOf_none] at hn
        obtain ⟨s1, b1, a1, a2, a3, a4⟩ := nextKey_ok (term := ')') (b := m)
          (r := m' ++ (vt ++ (b' ++ ',' :: (a' ++ (u ++ (b ++ ',' :: (a ++ r))))))) hp (by simp)
          (fieldKey_none hk hnm) (by rw [hd]; simp) hl hm
        obtain ⟨s2, c1, c2, c3⟩ := nextValue_more (hp.keep a4) hv a2 a3 hm' hb' ha' hnl
        obtain ⟨s3, e1, e2, e3⟩ := ih f gs got s2 [] b a r h2.2 hn
          (fun key hkey => hg key (by rwa [keysOf_none]))
          ((hp.keep a4).keep c3) (by simpa using c2) .nil hb ha hr
        refine ⟨s3, ?_, e2, (a4.trans c3).trans e3⟩
        rw [structLoop]
        simp only [bind_apply, a1, c1]
        exact e1

/-- The name of a field, whatever follows. -/
theorem nextKey_name {x : Exts} {k : Nat} {deny : Bool} {names : List Text} {d : St} {l key kt z : Text}
    (hp : Pre x (k + 1) d) (hk : NameTok key kt) (hz : IdentFollow z) (hd : d.rest = l ++ (kt ++ z)) (hl : Layout l) :
    ∃ s', nextKey ')' true (fieldKey deny names) d =
      if names.contains key then .ok (some (some key)) s'
      else if deny then .err (.noSuchStructField names key none) s' else .ok (some none) s' := by
  obtain ⟨s1, h1, h2, h3⟩ := hasElement_more (term := ')') hd hl (hk.tokStart.noLayout _) (hk.tokStart.notDelim _ (by simp))
  obtain ⟨s2, g1, g2, g3⟩ := deIdentifier_ok (d := { s1 with limit := s1.limit.map (· - 1) }) hk hz h2
  refine ⟨{ s2 with limit := s2.limit.map (· + 1) }, ?_⟩
  unfold nextKey
  simp only [bind_apply, h1, ↓reduceIte]
  have hlim : s1.limit ≠ some 0 := by
    intro h0
    have := (hp.keep h3).budget 0 h0
    omega
  have hgu : deGuardR (fieldKey deny names) s1 =
      if names.contains key then .ok (some key) { s2 with limit := s2.limit.map (· + 1) }
      else if deny then .err (.noSuchStructField names key none) { s2 with limit := s2.limit.map (· + 1) }
      else .ok none { s2 with limit := s2.limit.map (· + 1) } := by
    unfold deGuardR fieldKey
    split
    · next h => exact absurd h hlim
    · simp only [bind_apply, g1]
      by_cases hc : names.contains key = true
      · simp only [hc, ↓reduceIte, pure_apply]
      · cases deny <;> simp only [hc, ↓reduceIte, pure_apply, Bool.false_eq_true, fail_apply]
  rw [hgu]
  by_cases hc : names.contains key = true
  · simp only [hc, ↓reduceIte, pure_apply]
  · cases deny <;> simp only [hc, ↓reduceIte, pure_apply, Bool.false_eq_true]

/-- Reading up to a field. -/
theorem visitStruct_upto {x : Exts} {k : Nat} {rec : Ty → P SVal} {isOption : Ty → Bool} {deny : Bool} {fields : List (Text × Ty)}
    {ts : List Text} {w : Text} (hw : Before ts w) {gs : List (Text × SVal)} {d : St} {key kt z : Text}
    (h2 : All2 (FieldText x k rec deny fields) ts (gs.map some)) (hn : (gs.map Prod.fst).Nodup)
    (hp : Pre x (k + 1) d) (hd : d.rest = w ++ (kt ++ z)) (hk : NameTok key kt) (hz : IdentFollow z) :
    (key ∈ gs.map Prod.fst → key ∈ fields.map Prod.fst →
      ∃ s', visitStruct rec isOption deny fields d = .err (.duplicateStructField key none) s') ∧
    (key ∉ fields.map Prod.fst → deny = true →
      ∃ s', visitStruct rec isOption deny fields d = .err (.noSuchStructField (fields.map Prod.fst) key none) s') := by
  have hpre : ∃ f l s', structLoop rec deIgnored deny fields (d.rest.length + 1) true (fun _ => none) d =
      structLoop rec deIgnored deny fields (f + 1) true (gotOf (gs.map some) fun _ => none) s' ∧ Layout l ∧ s'.rest = l ++ (kt ++ z) ∧
      KeepsD d s' := by
    cases hw with
    | nil ha =>
      match gs, h2 with
      | [], _ => exact ⟨_, w, d, rfl, ha, hd, .refl _⟩
    | @items a b a' u ts ha hu hb ha' =>
      have hts : ∀ t ∈ ts, TokStart t := by
        intro t ht
        obtain ⟨g, -, hg⟩ := All2.mem_left h2 t ht
        exact hg.tokStart
      have hlen := hu.length hts
      obtain ⟨f, hf⟩ : ∃ f, d.rest.length + 1 = f + 1 + ts.length := ⟨d.rest.length - ts.length, by rw [hd]; simp; omega⟩
      obtain ⟨s', h1, h3, h4⟩ := structLoop_prefix hu (f + 1) (gs.map some) (fun _ => none) d a b a' (kt ++ z) h2
        (by rw [keysOf_map]; exact hn) (fun _ _ => rfl) hp (by rw [hd]; simp) ha hb ha' (hk.tokStart.noLayout _)
      exact ⟨f, [], s', by rw [hf, h1], .nil, h3, h4⟩
  obtain ⟨f, l, s1, h1, hl, h3, h4⟩ := hpre
  obtain ⟨s2, h5⟩ := nextKey_name (deny := deny) (names := fields.map Prod.fst) (hp.keep h4) hk hz h3 hl
  constructor
  · intro hg hf
    refine ⟨s2, ?_⟩
    have hsome : (gotOf (gs.map some) (fun _ => none) key).isSome = true := by
      obtain ⟨g, hg', rfl⟩ := List.mem_map.mp hg
      rw [gotOf_mem _ _ g.1 g.2 (by rw [keysOf_map]; exact hn) (List.mem_map.mpr ⟨g, hg', rfl⟩)]
      rfl
    have hc : (fields.map Prod.fst).contains key = true := by simpa using hf
    rw [if_pos hc] at h5
    unfold visitStruct
    simp only [bind_apply, getSt_apply]
    rw [h1, structLoop]
    simp only [bind_apply, h5, hsome, ↓reduceIte, fail_apply]
  · intro hf hdeny
    refine ⟨s2, ?_⟩
    have hc : ¬ (fields.map Prod.fst).contains key = true := by simpa using hf
    rw [if_neg hc, if_pos hdeny] at h5
    unfold visitStruct
    simp only [bind_apply, getSt_apply]
    rw [h1, structLoop]
    simp only [bind_apply, h5]

/-- An error of the fields is an error of the struct. -/
theorem deStruct_err {x : Exts} {k : Nat} {rec : Ty → P SVal} {isOption : Ty → Bool} {conv : Ty → Number → Except Err SVal} {name p u : Text}
    {deny : Bool} {fields : List (Text × Ty)} {e : Err} (hp : OptName x name p)
    (hv : ∀ d, Pre x k d → d.rest = u → ∃ s', visitStruct rec isOption deny fields d = .err e s') {d : St}
    (hpre : Pre x (k + 1) d) (hd : d.rest = p ++ '(' :: u) :
    ∃ s', deStruct rec isOption conv name deny fields d =
      .err (structErrorName (if name.isEmpty then none else some name) e) s' := by
  have h0 := rangeStruct_none (d := d) (by rw [hd]; exact hp.notNum) name (fields.map Prod.fst)
  obtain ⟨b0, s0, g1, ⟨l0, g2, g3⟩, g4⟩ := structName_opt hp hpre.exts hd
  obtain ⟨s1, a1, a2, a3⟩ := skipWs_tok g3 g2 (noLayout_paren _)
  have hp1 := hpre.keep (g4.trans a3)
  let d1 : St := { s1 with nv := false, prev := s1.rest, rest := u }
  have hk1 : KeepsD s1 d1 := ⟨rfl, rfl, rfl, fun _ => rfl⟩
  have hlim : d1.limit ≠ some 0 := by
    intro h0
    have := (hp1.keep hk1).budget 0 h0
    omega
  obtain ⟨s2, h2⟩ := hv _ (hp1.keep hk1).lower rfl
  refine ⟨s2, ?_⟩
  unfold deStruct
  simp only [bind_apply, h0, getSt_apply, hpre.nv, Bool.not_false, ↓reduceIte, g1, a1]
  unfold structAfterName
  have e0 : consumeChar '(' s1 = .ok true { s1 with prev := s1.rest, rest := u } := consumeChar_true a2
  have e1 : ({ s1 with prev := s1.rest, rest := u, nv := false } : St) = d1 := rfl
  simp only [bind_apply, getSt_apply, hp1.nv, Bool.false_eq_true, ↓reduceIte, e0, setNv_apply]
  have hgu : deGuardQ (mapErr (structErrorName (if (!false && !name.isEmpty) = true then some name else none))
      (visitStruct rec isOption deny fields)) d1 =
      .err (structErrorName (if name.isEmpty then none else some name) e) s2 := by
    unfold deGuardQ
    split
    · next h => exact absurd h hlim
    · rw [mapErr_apply, h2]
      cases name <;> simp
  rw [e1, hgu]

/-- A document whose value is an error. -/
theorem doc_err {α : Type} {x : Exts} {k : Nat} {seed : P α} {w : Text} {e : Err} (ht : TokStart w)
    (hr : ∀ d, Pre x k d → d.rest = w → ∃ s', seed d = .err e s')
    {o : Options} {l hdr : Text} {ex : Exts} (hl : Layout l) (hh : Attrs hdr ex) (hx : ex.union o.defaultExtensions = x)
    (hk : ∀ m, o.recursionLimit = some m → k ≤ m) :
    ∃ sp, fromStr o seed (l ++ (hdr ++ w)) = .error (e, sp) := by
  have hnl := ht.noLayout []
  have hnh := ht.noHash []
  rw [List.append_nil] at hnl hnh
  obtain ⟨s1, h1, r1, e1, -, n1, -, m1⟩ := parserNew_ok hl hh hnl hnh
    { St.init (l ++ (hdr ++ w)) with limit := o.recursionLimit } (by simp [St.init])
  obtain ⟨s2, h2⟩ := hr { s1 with exts := s1.exts.union o.defaultExtensions }
    ⟨n1, by rw [← hx]; simp [e1, St.init, Exts.union, Exts.empty], fun m hm => hk m (m1.symm.trans hm)⟩ r1
  refine ⟨s2.span, ?_⟩
  unfold fromStr readDoc deNew
  simp only [bind_apply, modSt_apply, h1, h2]
  rfl

/-- A field that was read already is refused, whatever follows its name. -/
theorem C22_duplicate (o : Options) (D : Nat → Ty) (n f k : Nat) (name : Text) (deny : Bool) (fields : List (Text × Ty))
    (hn : (fields.map Prod.fst).Nodup) (hf : n < f) (gs : List (Text × SVal)) (hg : FieldsIn D n fields gs)
    (hgn : (gs.map Prod.fst).Nodup) (sfx : Bool) (ts : List Text) (hts : RendFields o.defaultExtensions sfx gs ts)
    (p w key kt z : Text) (hp : OptName o.defaultExtensions name p) (hw : Before ts w) (hkey : NameTok key kt) (hz : IdentFollow z)
    (hd : key ∈ gs.map Prod.fst) (hc : ∀ g ∈ gs, g.2.cost ≤ k) (hk : ∀ m, o.recursionLimit = some m → k + 2 ≤ m) :
    ∃ sp, fromStr o (deTy D f (.struct name deny fields)) (p ++ '(' :: (w ++ (kt ++ z))) =
      .error (.duplicateStructField key (if name.isEmpty then none else some name), sp) := by
  obtain ⟨f, rfl⟩ : ∃ g, f = g + 1 := ⟨f - 1, by omega⟩
  refine (fun h => by simpa only [List.nil_append, List.cons_append, structErrorName] using h) (doc_err (e := structErrorName (if name.isEmpty then none else some name) (.duplicateStructField key none)) (x := o.defaultExtensions) (k := k + 2) (l := []) (hdr := []) (ex := {}) (o := o) (hp.tokStart _)
    (seed := deTy D (f + 1) (.struct name deny fields)) (fun d hpre hrest => ?_) .nil .nil (by simp [Exts.union, Exts.empty]) hk)
  simp only [deTy]
  refine deStruct_err (e := .duplicateStructField key none) hp (fun d' hp' hd' => ?_) hpre hrest
  refine (visitStruct_upto hw (fieldTexts_in hn (by omega) hg hts hc) hgn hp' hd' hkey hz).1 hd ?_
  obtain ⟨g, hg', rfl⟩ := List.mem_map.mp hd
  obtain ⟨T, hT, -⟩ := hg g hg'
  exact List.mem_map.mpr ⟨_, hT, rfl⟩

/-- Under `deny_unknown_fields` a field that the type does not have is refused, whatever follows its name. -/
theorem C22_unknown (o : Options) (D : Nat → Ty) (n f k : Nat) (name : Text) (fields : List (Text × Ty))
    (hn : (fields.map Prod.fst).Nodup) (hf : n < f) (gs : List (Text × SVal)) (hg : FieldsIn D n fields gs)
    (hgn : (gs.map Prod.fst).Nodup) (sfx : Bool) (ts : List Text) (hts : RendFields o.defaultExtensions sfx gs ts)
    (p w key kt z : Text) (hp : OptName o.defaultExtensions name p) (hw : Before ts w) (hkey : NameTok key kt) (hz : IdentFollow z)
    (hd : key ∉ fields.map Prod.fst) (hc : ∀ g ∈ gs, g.2.cost ≤ k) (hk : ∀ m, o.recursionLimit = some m → k + 2 ≤ m) :
    ∃ sp, fromStr o (deTy D f (.struct name true fields)) (p ++ '(' :: (w ++ (kt ++ z))) =
      .error (.noSuchStructField (fields.map Prod.fst) key (if name.isEmpty then none else some name), sp) := by
  obtain ⟨f, rfl⟩ : ∃ g, f = g + 1 := ⟨f - 1, by omega⟩
  refine (fun h => by simpa only [List.nil_append, List.cons_append, structErrorName] using h) (doc_err (e := structErrorName (if name.isEmpty then none else some name) (.noSuchStructField (fields.map Prod.fst) key none)) (x := o.defaultExtensions) (k := k + 2) (l := []) (hdr := []) (ex := {}) (o := o) (hp.tokStart _)
    (seed := deTy D (f + 1) (.struct name true fields)) (fun d hpre hrest => ?_) .nil .nil (by simp [Exts.union, Exts.empty]) hk)
  simp only [deTy]
  refine deStruct_err (e := .noSuchStructField (fields.map Prod.fst) key none) hp (fun d' hp' hd' => ?_) hpre hrest
  exact (visitStruct_upto hw (fieldTexts_in hn (by omega) hg hts hc) hgn hp' hd' hkey hz).2 hd rfl

/-- The type is `Option<..>`, possibly through the name of a type. -/
inductive IsOption (D : Nat → Ty) : Ty → Prop
  | opt {T : Ty} : IsOption D (.option T)
  | ref {i : Nat} : IsOption D (D i) → IsOption D (.ref i)

omit [Env] in
theorem isOption_of {D : Nat → Ty} : ∀ {f : Nat} {T : Ty}, fieldOf D f T = true → IsOption D T
  | 0, _, h => by cases h
  | f + 1, T, h => by
    cases T with
    | option T => exact .opt
    | ref i => exact .ref (isOption_of (f := f) h)
    | _ => cases h

omit [Env] in
/-- The first missing field that is not optional. -/
theorem collectFields_missing {isOption : Ty → Bool} {got : Text → Option SVal} : ∀ {fields : List (Text × Ty)},
    (∃ F ∈ fields, got F.1 = none ∧ isOption F.2 = false) →
    ∃ F ∈ fields, got F.1 = none ∧ collectFields isOption got fields = .error (.missingStructField F.1 none)
  | [], h => by obtain ⟨F, hF, -⟩ := h; cases hF
  | (f, t) :: fs, h => by
    cases hg : got f with
    | some v =>
      obtain ⟨F, hF, h1, h2⟩ := h
      have hF' : F ∈ fs := by
        rcases List.mem_cons.mp hF with rfl | hF
        · rw [hg] at h1; cases h1
        · exact hF
      obtain ⟨G, hG, g1, g2⟩ := collectFields_missing (isOption := isOption) ⟨F, hF', h1, h2⟩
      exact ⟨G, List.mem_cons_of_mem _ hG, g1, by simp only [collectFields, hg, g2]; rfl⟩
    | none =>
      cases ho : isOption t with
      | false => exact ⟨(f, t), by simp, hg, by simp only [collectFields, hg, ho]; rfl⟩
      | true =>
        obtain ⟨F, hF, h1, h2⟩ := h
        have hF' : F ∈ fs := by
          rcases List.mem_cons.mp hF with rfl | hF
          · rw [ho] at h2; cases h2
          · exact hF
        obtain ⟨G, hG, g1, g2⟩ := collectFields_missing (isOption := isOption) ⟨F, hF', h1, h2⟩
        exact ⟨G, List.mem_cons_of_mem _ hG, g1, by simp only [collectFields, hg, ho, g2, ↓reduceIte]; rfl⟩

/-- A struct that lacks a field which is not optional is refused, with the name of a missing field. -/
theorem C22_missing (o : Options) (D : Nat → Ty) (n f k : Nat) (name : Text) (deny : Bool) (fields : List (Text × Ty))
    (hn : (fields.map Prod.fst).Nodup) (hf : n < f) (gs : List (Text × SVal)) (hg : FieldsIn D n fields gs)
    (hgn : (gs.map Prod.fst).Nodup) (sfx : Bool) (ts : List Text) (hts : RendFields o.defaultExtensions sfx gs ts)
    (p q z : Text) (hp : OptName o.defaultExtensions name p) (hq : Delim '(' ')' ts q)
    (F : Text × Ty) (hF : F ∈ fields) (hm : F.1 ∉ gs.map Prod.fst) (ho : ¬ IsOption D F.2)
    (hc : ∀ g ∈ gs, g.2.cost ≤ k) (hk : ∀ m, o.recursionLimit = some m → k + 2 ≤ m) :
    ∃ G ∈ fields, G.1 ∉ gs.map Prod.fst ∧ ∃ sp, fromStr o (deTy D f (.struct name deny fields)) (p ++ (q ++ z)) =
      .error (.missingStructField G.1 (if name.isEmpty then none else some name), sp) := by
  obtain ⟨f, rfl⟩ : ∃ g, f = g + 1 := ⟨f - 1, by omega⟩
  obtain ⟨w', rfl, hi⟩ := delim_inner hq
  obtain ⟨G, hG, g1, g2⟩ := collectFields_missing (isOption := fieldOf D f) (got := gotOf (gs.map some) fun _ => none) (fields := fields)
    ⟨F, hF, gotOf_not _ _ _ (by rw [keysOf_map]; exact hm), by
      cases h : fieldOf D f F.2 with
      | false => rfl
      | true => exact absurd (isOption_of h) ho⟩
  refine ⟨G, hG, fun hG' => ?_, ?_⟩
  · obtain ⟨g, hg', he⟩ := List.mem_map.mp hG'
    have := gotOf_mem (gs.map some) (fun _ => none) g.1 g.2 (by rw [keysOf_map]; exact hgn) (List.mem_map.mpr ⟨g, hg', rfl⟩)
    rw [he, g1] at this
    cases this
  refine (fun h => by simpa only [List.nil_append, List.cons_append, structErrorName] using h) (doc_err (e := structErrorName (if name.isEmpty then none else some name) (.missingStructField G.1 none)) (x := o.defaultExtensions) (k := k + 2) (l := []) (hdr := []) (ex := {}) (o := o) (hp.tokStart (w' ++ z))
    (seed := deTy D (f + 1) (.struct name deny fields)) (fun d hpre hrest => ?_) .nil .nil (by simp [Exts.union, Exts.empty]) hk)
  simp only [deTy]
  refine deStruct_err (e := .missingStructField G.1 none) hp (fun d' hp' hd' => ?_) hpre hrest
  obtain ⟨s', h1, -, -⟩ := structLoop_inner (k := k) (r := z) hi (fieldTexts_in (deny := deny) (f := f) hn (by omega) hg hts hc)
    (by rw [keysOf_map]; exact hgn) (hp'.mono (by split <;> omega)) hd'
  refine ⟨s', ?_⟩
  unfold visitStruct
  simp only [bind_apply, getSt_apply, h1, g2, liftE, fail_apply]

/-! ### The hypotheses are met -/

/-- `#[derive(Deserialize)] struct P { x: i32, y: Option<bool>, z: bool }`. -/
def exampleFields : List (Text × Ty) := [(c!"x", .int .i32), (c!"y", .option .bool), (c!"z", .bool)]

omit [Env] in
/-- The three fields in another order and without the optional one; a duplicate; a missing field; an unknown field. -/
theorem structExamples : ∃ _ : Env,
    fromStr {} (deTy (fun _ => .bool) 9 (.struct c!"P" false exampleFields)) c!"P(z:true,x:1)" =
      .ok (.struct c!"P" [(c!"x", .num (.int .i32 1)), (c!"y", .none), (c!"z", .bool true)]) ∧
    (∃ sp, fromStr {} (deTy (fun _ => .bool) 9 (.struct c!"P" false exampleFields)) c!"P(z:true,x:1, z = ?" =
      .error (.duplicateStructField c!"z" (some c!"P"), sp)) ∧
    (∃ sp, fromStr {} (deTy (fun _ => .bool) 9 (.struct c!"P" false exampleFields)) c!"(z:true,)?" =
      .error (.missingStructField c!"x" (some c!"P"), sp)) ∧
    (∃ sp, fromStr {} (deTy (fun _ => .bool) 9 (.struct c!"P" true exampleFields)) c!"(z:true, w" =
      .error (.noSuchStructField [c!"x", c!"y", c!"z"] c!"w" (some c!"P"), sp)) := by
  refine ⟨asciiEnv true true, ?_⟩
  let _ : Env := asciiEnv true true
  refine ⟨by decide +kernel, ⟨⟨⟨1, 15⟩, ⟨1, 16⟩⟩, by decide +kernel⟩, ⟨⟨⟨1, 9⟩, ⟨1, 9⟩⟩, by decide +kernel⟩, ⟨⟨⟨1, 10⟩, ⟨1, 11⟩⟩, by decide +kernel⟩⟩

/-- The hypotheses of `C22_order` for the fields of the example in reverse order. -/
example : ∃ _ : Env,
    let fs := [(c!"x", SVal.num (.int .i32 1)), (c!"y", SVal.none), (c!"z", SVal.bool true)]
    HasTy (fun _ => .bool) 3 (.struct c!"P" false exampleFields) (.struct c!"P" fs) ∧ fs.reverse.Perm fs := by
  refine ⟨asciiEnv true true, ?_, List.reverse_perm _⟩
  let _ : Env := asciiEnv true true
  refine ⟨_, rfl, by decide, ⟨rfl, 1, rfl, fun _ => rfl, by decide⟩, ⟨rfl, .inl rfl⟩, ⟨rfl, true, rfl⟩, trivial⟩

end Ron
