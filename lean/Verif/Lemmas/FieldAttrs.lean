import Verif.Spec.FieldAttrs
import Verif.Lemmas.AdjacentErr
/-! Reading structs with attributes. -/

set_option linter.unusedSectionVars false
set_option linter.unusedVariables false

namespace Ron

theorem AField.reads_iff {F : AField} {key : Text} : F.reads key = true ↔ F.Takes key := by
  unfold AField.reads
  constructor
  · intro h
    simp only [Bool.and_eq_true, Bool.not_eq_true', Bool.or_eq_true, beq_iff_eq, List.contains_eq_mem, decide_eq_true_eq] at h
    obtain ⟨h1, rfl | h2⟩ := h
    · exact .name h1
    · exact .alias h1 h2
  · rintro (h | ⟨h, h2⟩)
    · simp [h]
    · simp [h, h2]

theorem find_takes : ∀ {fields : List AField} {F : AField} {key : Text}, F ∈ fields → Apart fields → F.Takes key →
    fields.find? (fun F => F.reads key) = some F
  | G :: fs, F, key, hF, hA, hk => by
    unfold Apart at hA
    rw [List.pairwise_cons] at hA
    rcases List.mem_cons.mp hF with rfl | hF
    · have := AField.reads_iff.mpr hk
      simp [this]
    · have : G.reads key = false := by
        cases h : G.reads key with
        | false => rfl
        | true => exact absurd hk ((hA.1 F hF).2 key (AField.reads_iff.mp h))
      rw [List.find?_cons, this]
      exact find_takes hF hA.2 hk

theorem find_takes_none {fields : List AField} {key : Text} (h : ∀ F ∈ fields, ¬ F.Takes key) :
    fields.find? (fun F => F.reads key) = none := by
  rw [List.find?_eq_none]
  exact fun F hF h' => h F hF (AField.reads_iff.mp h')

theorem Apart.same {fields : List AField} (hA : Apart fields) {F G : AField} (hF : F ∈ fields) (hG : G ∈ fields) (h : F.id = G.id) : F = G := by
  induction fields with
  | nil => cases hF
  | cons H fs ih =>
    unfold Apart at hA
    rw [List.pairwise_cons] at hA
    rcases List.mem_cons.mp hF with rfl | hF' <;> rcases List.mem_cons.mp hG with rfl | hG'
    · rfl
    · exact absurd h (hA.1 G hG').1
    · exact absurd h.symm (hA.1 F hF').1
    · exact ih hA.2 hF' hG'

/-- The values after some entries. -/
def faGot : List AItem → (Text → Option SVal) → (Text → Option SVal)
  | [], got => got
  | .field F v :: its, got => faGot its (fun k => if k = F.id then some v else got k)
  | .other _ :: its, got => faGot its got

theorem faGot_not : ∀ {its : List AItem} {got : Text → Option SVal} {k : Text}, k ∉ faIds its → faGot its got k = got k
  | [], _, _, _ => rfl
  | .field F v :: its, got, k, h => by
    simp only [faIds, List.mem_cons, not_or] at h
    rw [faGot, faGot_not h.2, if_neg h.1]
  | .other _ :: its, got, k, h => faGot_not (its := its) h

theorem faGot_mem : ∀ {its : List AItem} {got : Text → Option SVal} {F : AField} {v : SVal}, AItem.field F v ∈ its → (faIds its).Nodup →
    faGot its got F.id = some v
  | .field G u :: its, got, F, v, h, hn => by
    simp only [faIds, List.nodup_cons] at hn
    rcases List.mem_cons.mp h with h | h
    · cases h
      rw [faGot, faGot_not hn.1, if_pos rfl]
    · exact faGot_mem (its := its) h hn.2
  | .other _ :: its, got, F, v, h, hn => by
    rcases List.mem_cons.mp h with h | h
    · cases h
    · exact faGot_mem (its := its) h hn

theorem faIds_mem : ∀ {its : List AItem} {F : AField} {v : SVal}, AItem.field F v ∈ its → F.id ∈ faIds its
  | .field G u :: its, F, v, h => by
    rcases List.mem_cons.mp h with h | h
    · cases h; simp [faIds]
    · simp [faIds, faIds_mem h]
  | .other _ :: its, F, v, h => by
    rcases List.mem_cons.mp h with h | h
    · cases h
    · exact faIds_mem (its := its) h

theorem faIds_of : ∀ {its : List AItem} {k : Text}, k ∈ faIds its → ∃ F v, AItem.field F v ∈ its ∧ F.id = k
  | .field G u :: its, k, h => by
    simp only [faIds, List.mem_cons] at h
    rcases h with rfl | h
    · exact ⟨G, u, by simp, rfl⟩
    · obtain ⟨F, v, h1, h2⟩ := faIds_of h
      exact ⟨F, v, by simp [h1], h2⟩
  | .other _ :: its, k, h => by
    obtain ⟨F, v, h1, h2⟩ := faIds_of (its := its) h
    exact ⟨F, v, by simp [h1], h2⟩

section
variable [Env]

theorem faKey_reads {x : Exts} {deny : Bool} {known : List Text} {fields : List AField} {key kt : Text} {r : Option AField} (h : NameTok key kt)
    (hr : fields.find? (fun F => F.reads key) = r) (hd : r = none → deny = false) : Reads x 0 (faKey deny known fields) kt r := by
  obtain ⟨h1, h2⟩ := (deIdentifier_reads (x := x) h).reads
  refine ⟨h1, fun d l q hp hd' hl hq => ?_⟩
  obtain ⟨s', l', g1, g2⟩ := h2 d l q hp hd' hl hq
  refine ⟨s', l', ?_, g2⟩
  unfold faKey
  simp only [bind_apply, g1, hr]
  cases r with
  | some F => rfl
  | none => rw [hd rfl]; rfl

theorem fa_fold {x : Exts} {sfx : Bool} {D : Nat → Ty} {n f k : Nat} {deny : Bool} {known : List Text} {fields : List AField} (hA : Apart fields)
    (hf : n ≤ f) : ∀ (ts : List Text) (its : List AItem) (got : Text → Option SVal), All2 (FaText x sfx fields) ts its → FaTyped D n deny its →
    (faIds its).Nodup → (∀ i ∈ faIds its, got i = none) → (∀ it ∈ its, it.levels ≤ k) →
    FoldReads x k (faKey deny known fields) faCheck (faVal D f) ts got (faGot its got)
  | [], [], got, _, _, _, _, _ => rfl
  | e :: ts, .field F v :: its, got, hE, hT, hn, hg, hlev => by
    obtain ⟨⟨hF, key, kt, vt, h1, h2, h3, h4⟩, hE⟩ := hE
    simp only [faIds, List.nodup_cons] at hn
    have hv : HasTy D n F.ty v := hT (.field F v) (by simp)
    refine ⟨kt, vt, some F, fun i => if i = F.id then some v else got i,
      (faKey_reads h2 (find_takes hF hA h1) (by simp)).mono (Nat.zero_le k), ?_, ?_, h4, ?_⟩
    · simp only [faCheck, hg F.id (by simp [faIds])]
      rfl
    · have := (((ty_reads D n f F.ty v hf hv).1 vt h3).mono (hlev (.field F v) (by simp))).bind_pure
        (fun v => (fun i => if i = F.id then some v else got i : Text → Option SVal))
      exact this
    · refine fa_fold hA hf ts its _ hE (fun it hit => hT it (by simp [hit])) hn.2 ?_ (fun it hit => hlev it (by simp [hit]))
      intro i hi
      rw [if_neg (by rintro rfl; exact hn.1 hi)]
      exact hg i (by simp [faIds, hi])
  | e :: ts, .other m :: its, got, hE, hT, hn, hg, hlev => by
    obtain ⟨⟨hx, key, kt, vt, V, h1, h2, h3, h4⟩, hE⟩ := hE
    have hd : deny = false := hT (.other m) (by simp)
    refine ⟨kt, vt, none, got, (faKey_reads h2 (find_takes_none h1) (fun _ => hd)).mono (Nat.zero_le k), rfl, ?_, h4, ?_⟩
    · have : Reads x m deIgnored vt () := by
        unfold deIgnored
        exact (lang_reads_value hx h3).bind_pure fun _ => ()
      exact (this.mono (hlev (.other m) (by simp))).bind_pure fun _ => got
    · exact fa_fold hA hf ts its _ hE (fun it hit => hT it (by simp [hit])) hn hg (fun it hit => hlev it (by simp [hit]))
  | [], _ :: _, _, h, _, _, _, _ => h.elim
  | _ :: _, [], _, h, _, _, _, _ => h.elim

omit [Env] in
theorem faEnd_ok {isOption : Ty → Bool} {got : Text → Option SVal} : ∀ {fields : List AField} {vs : List SVal},
    All2 (fun F v => faValue isOption got F = .ok v) fields vs → faEnd isOption got fields = .ok vs
  | [], [], _ => rfl
  | F :: Fs, v :: vs, h => by
    simp only [faEnd, h.1, faEnd_ok h.2]
    rfl
  | [], _ :: _, h => h.elim
  | _ :: _, [], h => h.elim

omit [Env] in
theorem stand_end {D : Nat → Ty} {f : Nat} (hf : 0 < f) {fields : List AField} {its : List AItem} {vs : List SVal} (hn : (faIds its).Nodup)
    (h : Stand fields its vs) : faEnd (fieldOf D f) (faGot its fun _ => none) fields = .ok vs := by
  refine faEnd_ok (h.imp fun F v h => ?_)
  unfold faValue
  rcases h with h | ⟨h1, h2 | ⟨h2, ⟨T, hT⟩, h3⟩⟩
  · rw [faGot_mem h hn]
  · rw [faGot_not h1]
    simp only [h2]
  · rw [faGot_not h1]
    obtain ⟨f, rfl⟩ : ∃ g, f = g + 1 := ⟨f - 1, by omega⟩
    simp only [h2, hT, fieldOf, ↓reduceIte, h3]

/-- The struct. -/
theorem fa_reads {x : Exts} {D : Nat → Ty} {f k : Nat} {name : Text} {deny : Bool} {known : List Text} {fields : List AField}
    {ts : List Text} {got : Text → Option SVal} {p w : Text} {vs : List SVal} (hp : OptName x name p) (hD : Delim '(' ')' ts w)
    (h : FoldReads x k (faKey deny known fields) faCheck (faVal D f) ts (fun _ => none) got) (hv : faEnd (fieldOf D f) got fields = .ok vs) :
    Reads x ((if ts = [] then 0 else k + 1) + 1) (deFieldAttrs D f name deny known fields) (p ++ w) vs := by
  obtain ⟨w', rfl, hi⟩ := delim_inner hD
  refine ⟨hp.tokStart _, fun d l q hpre hd hl hq => ?_⟩
  have hd' : d.rest = p ++ '(' :: (w' ++ (l ++ q)) := by rw [hd]; simp
  obtain ⟨b0, s0, g1, ⟨l0, g2, g3⟩, g4⟩ := structName_opt hp hpre.exts hd'
  obtain ⟨s1, a1, a2, a3⟩ := skipWs_tok g3 g2 (noLayout_paren _)
  obtain ⟨s2, b1, b2, b3⟩ := structAfterName_ok (visit := faVisit D f deny known fields) (v := vs) name (hpre.keep (g4.trans a3)) a2
    fun d' hp' hd' => by
      obtain ⟨s', c1, c2, c3⟩ := foldMap_inner (by simp) hi h hp' hd'
      refine ⟨s', [], ?_, c2, .nil, c3⟩
      unfold faVisit
      simp only [bind_apply, c1, hv, liftE, pure_apply]
  refine ⟨s2, l, ?_, b2, hl, (g4.trans a3).trans b3⟩
  unfold deFieldAttrs
  simp only [bind_apply, getSt_apply, hpre.nv, Bool.not_false, ↓reduceIte, g1, a1, b1]

/-! ### Errors -/

theorem deFieldAttrs_fails {x : Exts} {k : Nat} {D : Nat → Ty} {f : Nat} {name : Text} {deny : Bool} {known : List Text} {fields : List AField}
    {p u : Text} {e : Err} (hp : OptName x name p) (hv : ∀ d, Pre x k d → d.rest = u → ∃ s', faVisit D f deny known fields d = .err e s') {d : St}
    (hpre : Pre x (k + 1) d) (hd : d.rest = p ++ '(' :: u) :
    ∃ s', deFieldAttrs D f name deny known fields d = .err (structErrorName (nameIfAny name) e) s' := by
  obtain ⟨b0, s0, g1, ⟨l0, g2, g3⟩, g4⟩ := structName_opt hp hpre.exts hd
  obtain ⟨s1, a1, a2, a3⟩ := skipWs_tok g3 g2 (noLayout_paren _)
  have hp1 := hpre.keep (g4.trans a3)
  let d1 : St := { s1 with nv := false, prev := s1.rest, rest := u }
  have hk1 : KeepsD s1 d1 := ⟨rfl, rfl, rfl, fun _ => rfl⟩
  obtain ⟨s2, h2⟩ := hv _ (hp1.keep hk1).lower rfl
  obtain ⟨s3, h3⟩ := deGuardQ_fails (f := mapErr (structErrorName (if !false && !name.isEmpty then some name else none)) (faVisit D f deny known fields))
    (e := structErrorName (nameIfAny name) e) (hp1.keep hk1).budget
    ⟨s2, by
      rw [mapErr_apply, h2]
      cases name <;> simp [nameIfAny]⟩
  refine ⟨s3, ?_⟩
  unfold deFieldAttrs
  simp only [bind_apply, getSt_apply, hpre.nv, Bool.not_false, ↓reduceIte, g1, a1]
  unfold structAfterName
  have e0 : consumeChar '(' s1 = .ok true { s1 with prev := s1.rest, rest := u } := consumeChar_true a2
  have e1 : ({ s1 with prev := s1.rest, rest := u, nv := false } : St) = d1 := rfl
  simp only [bind_apply, getSt_apply, hp1.nv, Bool.false_eq_true, ↓reduceIte, e0, setNv_apply]
  rw [e1, h3]

/-- The fields are read, and then one is missing. -/
theorem fa_failsAfter {x : Exts} {D : Nat → Ty} {f k : Nat} {deny : Bool} {known : List Text} {fields : List AField}
    {ts : List Text} {got : Text → Option SVal} {w r : Text} {e : Err} (hD : Delim '(' ')' ts ('(' :: w))
    (h : FoldReads x k (faKey deny known fields) faCheck (faVal D f) ts (fun _ => none) got) (hv : faEnd (fieldOf D f) got fields = .error e)
    {d : St} (hp : Pre x (k + 1) d) (hd : d.rest = w ++ r) : ∃ s', faVisit D f deny known fields d = .err e s' := by
  obtain ⟨w', hw', hi⟩ := delim_inner hD
  cases hw'
  obtain ⟨s', c1, c2, c3⟩ := foldMap_inner (by simp) hi h (hp.mono (by split <;> omega)) (by simpa using hd)
  refine ⟨s', ?_⟩
  unfold faVisit
  simp only [bind_apply, c1, hv, liftE]
  rfl

omit [Env] in
theorem faEnd_missing {isOption : Ty → Bool} {got : Text → Option SVal} : ∀ {fields : List AField},
    (∃ F ∈ fields, got F.id = none ∧ F.dflt = none ∧ isOption F.ty = false) →
    ∃ F ∈ fields, got F.id = none ∧ F.dflt = none ∧ isOption F.ty = false ∧ faEnd isOption got fields = .error (.missingStructField F.name none)
  | G :: fs, h => by
    by_cases hG : got G.id = none ∧ G.dflt = none ∧ isOption G.ty = false
    · refine ⟨G, by simp, hG.1, hG.2.1, hG.2.2, ?_⟩
      simp only [faEnd, faValue, hG.1, hG.2.1, hG.2.2]
      rfl
    · obtain ⟨F, hF, h1⟩ := h
      have hF' : F ∈ fs := by
        rcases List.mem_cons.mp hF with rfl | hF
        · exact absurd h1 hG
        · exact hF
      obtain ⟨H, hH, g1, g2, g3, g4⟩ := faEnd_missing (isOption := isOption) ⟨F, hF', h1⟩
      refine ⟨H, by simp [hH], g1, g2, g3, ?_⟩
      have : ∃ v, faValue isOption got G = .ok v := by
        unfold faValue
        cases hg : got G.id with
        | some v => exact ⟨v, rfl⟩
        | none =>
          cases hd : G.dflt with
          | some v => exact ⟨v, rfl⟩
          | none =>
            cases ho : isOption G.ty with
            | true => exact ⟨_, rfl⟩
            | false => exact absurd ⟨hg, hd, ho⟩ hG
      obtain ⟨v, hv⟩ := this
      simp only [faEnd, hv, g4]
      rfl
  | [], h => by obtain ⟨F, hF, -⟩ := h; cases hF

/-- The name of a field is read, whatever follows. -/
theorem faKey_name {x : Exts} {k : Nat} {deny : Bool} {known : List Text} {fields : List AField} {d : St} {l key kt z : Text}
    (hp : Pre x (k + 1) d) (hk : NameTok key kt) (hz : IdentFollow z) (hd : d.rest = l ++ (kt ++ z)) (hl : Layout l) :
    ∃ s', nextKey ')' true (faKey deny known fields) d =
      match fields.find? (fun F => F.reads key) with
      | some F => .ok (some (some F)) s'
      | none => if deny then .err (.noSuchStructField known key none) s' else .ok (some none) s' := by
  obtain ⟨s1, h1, h2, h3⟩ := hasElement_more (term := ')') hd hl (hk.tokStart.noLayout _) (hk.tokStart.notDelim _ (by simp))
  obtain ⟨s2, g1, g2, g3⟩ := deIdentifier_ok (d := { s1 with limit := s1.limit.map (· - 1) }) hk hz h2
  refine ⟨{ s2 with limit := s2.limit.map (· + 1) }, ?_⟩
  unfold nextKey
  simp only [bind_apply, h1, ↓reduceIte]
  have hlim : s1.limit ≠ some 0 := by
    intro h0
    have := (hp.keep h3).budget 0 h0
    omega
  have hgu : deGuardR (faKey deny known fields) s1 =
      match fields.find? (fun F => F.reads key) with
      | some F => .ok (some F) { s2 with limit := s2.limit.map (· + 1) }
      | none => if deny then .err (.noSuchStructField known key none) { s2 with limit := s2.limit.map (· + 1) }
        else .ok none { s2 with limit := s2.limit.map (· + 1) } := by
    unfold deGuardR faKey
    split
    · next h => exact absurd h hlim
    · simp only [bind_apply, g1]
      cases fields.find? (fun F => F.reads key) with
      | some F => rfl
      | none => cases deny <;> rfl
  rw [hgu]
  cases fields.find? (fun F => F.reads key) with
  | some F => rfl
  | none => cases deny <;> rfl

/-- A field that was there already, whatever follows its name. -/
theorem fa_failsTwice {x : Exts} {D : Nat → Ty} {f k : Nat} {deny : Bool} {known : List Text} {fields : List AField} {F : AField}
    {ts : List Text} {got : Text → Option SVal} {w key kt z : Text} (hw : Before ts w)
    (h : FoldReads x k (faKey deny known fields) faCheck (faVal D f) ts (fun _ => none) got) (hk : NameTok key kt) (hz : IdentFollow z)
    (hF : fields.find? (fun F => F.reads key) = some F) (hg : (got F.id).isSome = true)
    {d : St} (hp : Pre x (k + 1) d) (hd : d.rest = w ++ (kt ++ z)) :
    ∃ s', faVisit D f deny known fields d = .err (.duplicateStructField F.name none) s' := by
  obtain ⟨g, a, s1, h1, h2, h3, h4⟩ := foldMap_upto (term := ')') (by simp) hw h hp hd (hk.tokStart.noLayout _)
  obtain ⟨s2, g1⟩ := faKey_name (deny := deny) (known := known) (fields := fields) (hp.keep h4) hk hz h3 h2
  rw [hF] at g1
  refine ⟨s2, ?_⟩
  unfold faVisit
  rw [bind_apply, h1, foldLoop]
  simp only [bind_apply, g1, faCheck, hg, ↓reduceIte, liftE]
  rfl

/-- An unknown name that is denied, whatever follows. -/
theorem fa_failsUnknown {x : Exts} {D : Nat → Ty} {f k : Nat} {known : List Text} {fields : List AField}
    {ts : List Text} {got : Text → Option SVal} {w key kt z : Text} (hw : Before ts w)
    (h : FoldReads x k (faKey true known fields) faCheck (faVal D f) ts (fun _ => none) got) (hk : NameTok key kt) (hz : IdentFollow z)
    (hF : fields.find? (fun F => F.reads key) = none) {d : St} (hp : Pre x (k + 1) d) (hd : d.rest = w ++ (kt ++ z)) :
    ∃ s', faVisit D f true known fields d = .err (.noSuchStructField known key none) s' := by
  obtain ⟨g, a, s1, h1, h2, h3, h4⟩ := foldMap_upto (term := ')') (by simp) hw h hp hd (hk.tokStart.noLayout _)
  obtain ⟨s2, g1⟩ := faKey_name (deny := true) (known := known) (fields := fields) (hp.keep h4) hk hz h3 h2
  rw [hF] at g1
  refine ⟨s2, ?_⟩
  unfold faVisit
  rw [bind_apply, h1, foldLoop]
  simp only [bind_apply, g1, ↓reduceIte]

theorem fa_doc {x : Exts} {k : Nat} {D : Nat → Ty} {f : Nat} {name : Text} {deny : Bool} {known : List Text} {fields : List AField} {p u : Text}
    {e : Err} (hp : OptName x name p) (hv : ∀ d, Pre x k d → d.rest = u → ∃ s', faVisit D f deny known fields d = .err e s')
    {o : Options} {l hdr : Text} {ex : Exts} (hl : Layout l) (hh : Attrs hdr ex) (hx : ex.union o.defaultExtensions = x)
    (hk : ∀ m, o.recursionLimit = some m → k + 1 ≤ m) :
    ∃ sp, fromStr o (deFieldAttrs D f name deny known fields) (l ++ (hdr ++ (p ++ '(' :: u))) = .error (structErrorName (nameIfAny name) e, sp) :=
  doc_err (hp.tokStart u) (fun d hpre hd => deFieldAttrs_fails hp hv hpre hd) hl hh hx hk

end

end Ron
