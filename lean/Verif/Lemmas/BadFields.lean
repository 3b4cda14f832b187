import Verif.Lemmas.BadParts
import Verif.Lemmas.KeyRead
import Verif.Lemmas.NameEnds
/-!
Malformed fields and variants: the error and the place.
-/

set_option linter.unusedSimpArgs false

namespace Ron

variable [Env]

omit [Env] in
theorem halts_stop {q : Text} : Halts q ↔ Stop q := Iff.rfl

/-- A name that would have to be written with `r#`. -/
theorem identifier_suggest {w r : Text} {d : St} (h : RawName w) (hn : ¬ PlainName w) (hr : NameEnds w r) (hd : d.rest = w ++ r) :
    identifier d = .err (.suggestRawIdentifier w) d := by
  have hR := hr.notRaw h
  have hQ := notQuoted hr.2.1
  obtain ⟨hne, hraw⟩ := h
  obtain ⟨c, cs, rfl⟩ : ∃ c n, w = c :: n := by cases w <;> simp_all
  have w2 : whileLen isIdentRaw (c :: cs ++ r) = (c :: cs).length := by
    rw [whileLen_append _ _ _ hraw, whileLen_stop _ _ fun d r' e => hr.1 d r' e]; rfl
  have w3 : (c :: cs ++ r).takeWhile isIdentRaw = c :: cs := by
    rw [← take_whileLen, w2, List.take_left]
  have p : peekCharOrEof d = .ok c d := by unfold peekCharOrEof; rw [hd]; rfl
  unfold identifier
  cases hc : isIdentFirst c with
  | false =>
    simp only [bind_apply, p, getSt_apply, ite_P, hc, Bool.not_false, ↓reduceIte, hraw c (by simp), hd, w3, fail_apply]
  | true =>
    have hlt : whileLen Env.xidCont (cs ++ r) < cs.length := by
      have hnot : ¬ ∀ d ∈ cs, Env.xidCont d = true := fun h => hn ⟨c, cs, rfl, hc, h⟩
      clear w2 w3 p hd hne hn hraw hr hR hQ
      induction cs with
      | nil => exact absurd (by simp) hnot
      | cons a cs ih =>
        cases ha : Env.xidCont a with
        | false => rw [List.cons_append, whileLen_cons_false _ _ _ ha]; simp
        | true =>
          rw [List.cons_append, whileLen_cons_true _ _ _ ha]
          have := ih fun h => hnot fun d hd => by
            rcases List.mem_cons.mp hd with rfl | hd
            · exact ha
            · exact h d hd
          simp only [List.length_cons]
          omega
    have hx : whileLen Env.xidCont (c :: (cs ++ r)) = whileLen Env.xidCont (cs ++ r) + 1 := whileLen_cons_true _ _ _ (identFirst_xid hc)
    have hstd : (if (c == 'r') = true then whileLen Env.xidCont (c :: (cs ++ r)) else 1 + whileLen Env.xidCont (cs ++ r)) < (c :: cs).length := by
      rw [hx, List.length_cons]
      split <;> omega
    simp only [bind_apply, p, getSt_apply, ite_P, hc, Bool.not_true, Bool.false_eq_true, ↓reduceIte]
    rw [hd, hQ, hR, w2]
    simp only [Bool.false_eq_true, ↓reduceIte, List.cons_append, List.drop_succ_cons, List.drop_zero]
    rw [if_pos hstd, ← List.cons_append, List.take_left]
    rfl

/-- What is no name. -/
theorem badWord_errs {u r : Text} {e : Err} (h : BadWord u e r) {d : St} (hd : d.rest = u) : ErrsAt deIdentifier d e r := by
  cases h with
  | eof =>
    refine ⟨d, ?_, hd, rfl⟩
    simp only [deIdentifier, identifier, bind_apply, peekCharOrEof, hd]
  | @char c u hc =>
    refine ⟨d, ?_, hd, rfl⟩
    have hf : isIdentFirst c = false := by
      cases h : isIdentFirst c with
      | false => rfl
      | true =>
        have h1 := identFirst_xid h
        have := identRaw_of_xid h1
        rw [hc] at this
        cases this
    have p : peekCharOrEof d = .ok c d := by unfold peekCharOrEof; rw [hd]
    simp only [deIdentifier, identifier, bind_apply, p, getSt_apply, ite_P, hf, Bool.not_false, ↓reduceIte, hc, Bool.false_eq_true, fail_apply]
  | @raw w z h1 h2 hz =>
    refine ⟨d, ?_, hd, rfl⟩
    simp only [deIdentifier, bind_apply, identifier_suggest h1 h2 hz hd]
  | noWord h =>
    obtain ⟨s', h1, h2, h3⟩ := identifier_noWord h hd
    exact ⟨s', by simp only [deIdentifier, bind_apply, h1], h2, h3⟩

omit [Env] in
theorem inStruct_eq (name : Option Text) (e : Err) : e.inStruct name = structErrorName name e := by
  unfold Err.inStruct structErrorName
  split
  · rfl
  · rfl
  · rfl
  · next h1 h2 h3 =>
    split
    · next h => exact absurd rfl (h1 _ _)
    · next h => exact absurd rfl (h2 _)
    · next h => exact absurd rfl (h3 _)
    · rfl

omit [Env] in
theorem structErrorName_none (e : Err) : structErrorName none e = e := by
  unfold structErrorName
  split <;> rfl

omit [Env] in
theorem nameOf_eq (name : Text) : nameOf name = if name.isEmpty then none else some name := by
  cases name <;> simp [nameOf]

omit [Env] in
theorem wantStruct_eq (name : Text) : wantStruct name = if name.isEmpty then .expectedStructLike else .expectedNamedStructLike name := by
  cases name <;> simp [wantStruct]

theorem structLoop_prefixK {x : Exts} {k : Nat} {rec : Ty → P SVal} {deny : Bool} {fields : List (Text × Ty)} {ts : List Text} {u : Text}
    (hu : Body ts u) : ∀ (f : Nat) (gs : List (Option (Text × SVal))) (got : Text → Option SVal) (d : St) (l b a r : Text),
    All2 (KeyText x k rec deny fields) ts gs → (keysOf gs).Nodup → (∀ key ∈ keysOf gs, got key = none) →
    Pre x (k + 1) d → d.rest = l ++ (u ++ (b ++ ',' :: (a ++ r))) → Layout l → Layout b → Layout a → NoLayoutStart r →
    ∃ s', structLoop rec deIgnored deny fields (f + ts.length) true got d = structLoop rec deIgnored deny fields f true (gotOf gs got) s' ∧
      s'.rest = r ∧ KeepsD d s' := by
  induction hu with
  | @one t =>
    intro f gs got d l b a r h2 hn hg hp hd hl hb ha hr
    match gs, h2 with
    | [g], h2 =>
      obtain ⟨key, kt, vt, hk, he, hg1⟩ := h2.1
      cases he with
      | @mk m m' hm hm' =>
      cases g with
      | some e =>
        obtain ⟨key', v⟩ := e
        obtain ⟨rfl, T, hf, hv⟩ := hg1
        obtain ⟨s1, b1, a1, a2, a3, a4⟩ := nextKey_ok (term := ')') (b := m) (r := m' ++ (vt ++ (b ++ ',' :: (a ++ r)))) hp (by simp)
          (fieldKey_in (deny := deny) hk (find_names hf)) (by rw [hd]; simp) hl hm
        obtain ⟨s2, c1, c2, c3⟩ := nextValue_more (hp.keep a4) hv a2 a3 hm' hb ha hr
        refine ⟨s2, ?_, c2, a4.trans c3⟩
        have hnone := hg key' (by simp [keysOf])
        rw [List.length_singleton, structLoop]
        simp only [bind_apply, a1, hnone, Option.isSome_none, Bool.false_eq_true, ↓reduceIte, hf, c1]
        rfl
      | none =>
        obtain ⟨rfl, hnm, hv⟩ := hg1
        obtain ⟨s1, b1, a1, a2, a3, a4⟩ := nextKey_ok (term := ')') (b := m) (r := m' ++ (vt ++ (b ++ ',' :: (a ++ r)))) hp (by simp)
          (fieldKey_other hk hnm) (by rw [hd]; simp) hl hm
        obtain ⟨s2, c1, c2, c3⟩ := nextValue_more (hp.keep a4) hv a2 a3 hm' hb ha hr
        refine ⟨s2, ?_, c2, a4.trans c3⟩
        rw [List.length_singleton, structLoop]
        simp only [bind_apply, a1, c1]
        rfl
  | @cons t b' a' u ts hb' ha' hu ih =>
    intro f gs got d l b a r h2 hn hg hp hd hl hb ha hr
    match gs, h2 with
    | g :: gs, h2 =>
      have hts : ∀ t ∈ ts, TokStart t := by
        intro t ht
        obtain ⟨g, -, hg⟩ := All2.mem_left h2.2 t ht
        exact hg.tokStart
      have hnl := (hu.tokStart hts).noLayout (b ++ ',' :: (a ++ r))
      obtain ⟨key, kt, vt, hk, he, hg1⟩ := h2.1
      rw [List.length_cons, ← Nat.add_assoc]
      cases he with
      | @mk m m' hm hm' =>
      cases g with
      | some e =>
        obtain ⟨key', v⟩ := e
        obtain ⟨rfl, T, hfi, hv⟩ := hg1
        rw [keysOf_some, List.nodup_cons] at hn
        obtain ⟨s1, b1, a1, a2, a3, a4⟩ := nextKey_ok (term := ')') (b := m)
          (r := m' ++ (vt ++ (b' ++ ',' :: (a' ++ (u ++ (b ++ ',' :: (a ++ r))))))) hp (by simp)
          (fieldKey_in (deny := deny) hk (find_names hfi)) (by rw [hd]; simp) hl hm
        obtain ⟨s2, c1, c2, c3⟩ := nextValue_more (hp.keep a4) hv a2 a3 hm' hb' ha' hnl
        obtain ⟨s3, e1, e2, e3⟩ := ih f gs (fun k => if k = key' then some v else got k) s2 [] b a r h2.2 hn.2
          (fun key hkey => by
            rw [if_neg (by rintro rfl; exact hn.1 hkey)]
            exact hg key (by rw [keysOf_some]; simp [hkey]))
          ((hp.keep a4).keep c3) (by simpa using c2) .nil hb ha hr
        refine ⟨s3, ?_, e2, (a4.trans c3).trans e3⟩
        have hnone := hg key' (by simp [keysOf])
        rw [structLoop]
        simp only [bind_apply, a1, hnone, Option.isSome_none, Bool.false_eq_true, ↓reduceIte, hfi, c1]
        exact e1
      | none =>
        obtain ⟨rfl, hnm, hv⟩ := hg1
        rw [keysOf_none] at hn
        obtain ⟨s1, b1, a1, a2, a3, a4⟩ := nextKey_ok (term := ')') (b := m)
          (r := m' ++ (vt ++ (b' ++ ',' :: (a' ++ (u ++ (b ++ ',' :: (a ++ r))))))) hp (by simp)
          (fieldKey_other hk hnm) (by rw [hd]; simp) hl hm
        obtain ⟨s2, c1, c2, c3⟩ := nextValue_more (hp.keep a4) hv a2 a3 hm' hb' ha' hnl
        obtain ⟨s3, e1, e2, e3⟩ := ih f gs got s2 [] b a r h2.2 hn
          (fun key hkey => hg key (by rwa [keysOf_none]))
          ((hp.keep a4).keep c3) (by simpa using c2) .nil hb ha hr
        refine ⟨s3, ?_, e2, (a4.trans c3).trans e3⟩
        rw [structLoop]
        simp only [bind_apply, a1, c1]
        exact e1


theorem fieldKey_bad {x : Exts} {k : Nat} {names : List Text} {key kt z : Text} (hk : KeyTok key kt) (hz : NameEnds kt z) (hn : key ∉ names) :
    ErrsD x k (fieldKey true names) (kt ++ z) (.noSuchStructField names key none) z := by
  intro d hp hd
  obtain ⟨s2, g1, g2, g3, -⟩ := deIdentifier_runsAt hk hz hd
  refine ⟨s2, ?_, g2, g3.src⟩
  have hc : names.contains key = false := by simpa using hn
  unfold fieldKey
  simp only [bind_apply, g1, hc, ↓reduceIte, Bool.false_eq_true, fail_apply]

theorem nextKey_key {x : Exts} {k : Nat} {deny : Bool} {names : List Text} {d : St} {l key kt z : Text}
    (hp : Pre x (k + 1) d) (hk : KeyTok key kt) (hz : NameEnds kt z) (hn : key ∈ names) (hd : d.rest = l ++ (kt ++ z)) (hl : Layout l) :
    ∃ s', nextKey ')' true (fieldKey deny names) d = .ok (some (some key)) s' ∧ s'.rest = z ∧ KeepsD d s' := by
  obtain ⟨s1, h1, h2, h3⟩ := hasElement_more (term := ')') hd hl (hk.tokStart.noLayout _) (hk.tokStart.notDelim _ (by simp))
  obtain ⟨s2, g1, g2, g3, -⟩ := deIdentifier_runsAt (d := { s1 with limit := s1.limit.map (· - 1) }) hk hz h2
  have hc : names.contains key = true := by simpa using hn
  obtain ⟨c1, c2⟩ := deGuardR_ok (f := fieldKey deny names) (a := some key) (hp.keep h3).budget (by
    unfold fieldKey
    simp only [bind_apply, g1, hc, ↓reduceIte, pure_apply]) g3
  refine ⟨{ s2 with limit := s1.limit }, ?_, g2, h3.trans c2⟩
  unfold nextKey
  simp only [bind_apply, h1, ↓reduceIte, c1, pure_apply]

/-- The name of a field that is ignored. -/
theorem nextKey_other {x : Exts} {k : Nat} {names : List Text} {d : St} {l key kt z : Text}
    (hp : Pre x (k + 1) d) (hk : KeyTok key kt) (hz : NameEnds kt z) (hn : key ∉ names) (hd : d.rest = l ++ (kt ++ z)) (hl : Layout l) :
    ∃ s', nextKey ')' true (fieldKey false names) d = .ok (some none) s' ∧ s'.rest = z ∧ KeepsD d s' := by
  obtain ⟨s1, h1, h2, h3⟩ := hasElement_more (term := ')') hd hl (hk.tokStart.noLayout _) (hk.tokStart.notDelim _ (by simp))
  obtain ⟨s2, g1, g2, g3, -⟩ := deIdentifier_runsAt (d := { s1 with limit := s1.limit.map (· - 1) }) hk hz h2
  have hc : names.contains key = false := by simpa using hn
  obtain ⟨c1, c2⟩ := deGuardR_ok (f := fieldKey false names) (a := none) (hp.keep h3).budget (by
    unfold fieldKey
    simp only [bind_apply, g1, hc, ↓reduceIte, Bool.false_eq_true, pure_apply]) g3
  refine ⟨{ s2 with limit := s1.limit }, ?_, g2, h3.trans c2⟩
  unfold nextKey
  simp only [bind_apply, h1, ↓reduceIte, c1, pure_apply]

/-- Reading up to a field. -/
theorem visitStruct_uptoK {x : Exts} {k : Nat} {rec : Ty → P SVal} (isOption : Ty → Bool) {deny : Bool} {fields : List (Text × Ty)}
    {ts : List Text} {p : Text} (hb : Before ts p) {gs : List (Option (Text × SVal))} {d : St} {u : Text}
    (h2 : All2 (KeyText x k rec deny fields) ts gs) (hn : (keysOf gs).Nodup) (hp : Pre x (k + 1) d) (hd : d.rest = p ++ u) (hu : NoLayoutStart u) :
    ∃ s' l, s'.rest = l ++ u ∧ Layout l ∧ KeepsD d s' ∧
      ∀ e r, (∀ f, (u ≠ [] → ∃ g, f = g + 1) → ErrsAt (structLoop rec deIgnored deny fields (f + 1) true (gotOf gs fun _ => none)) s' e r) →
        ErrsAt (visitStruct rec isOption deny fields) d e r := by
  have hpos : u ≠ [] → 0 < u.length := List.length_pos_iff.mpr
  cases hb with
  | nil ha =>
    match gs, h2 with
    | [], _ =>
      refine ⟨d, p, hd, ha, .refl _, fun e r h => ?_⟩
      obtain ⟨f, hf⟩ : ∃ f, d.rest.length = f := ⟨_, rfl⟩
      obtain ⟨s'', h1, h3⟩ := h f fun hne => ⟨f - 1, by have := hpos hne; rw [hd, List.length_append] at hf; omega⟩
      refine ⟨s'', ?_, h3⟩
      unfold visitStruct
      simp only [bind_apply, getSt_apply, hf]
      rw [show (fun _ => none : Text → Option SVal) = gotOf [] fun _ => none from rfl, h1]
  | @items a b a' w ts ha hw hb ha' =>
    have hts : ∀ t ∈ ts, TokStart t := by
      intro t ht
      obtain ⟨g, -, hg⟩ := All2.mem_left h2 t ht
      exact hg.tokStart
    have hlen := hw.length hts
    obtain ⟨f, hf⟩ : ∃ f, d.rest.length + 1 = (f + 1) + ts.length := ⟨d.rest.length - ts.length, by rw [hd]; simp; omega⟩
    obtain ⟨s', h1, h3, h4⟩ := structLoop_prefixK hw (f + 1) gs (fun _ => none) d a b a' u h2 hn (fun _ _ => rfl) hp (by rw [hd]; simp) ha hb ha' hu
    refine ⟨s', [], h3, .nil, h4, fun e r h => ?_⟩
    obtain ⟨s'', g1, g2, g3⟩ := h f fun hne => ⟨f - 1, by have := hpos hne; rw [hd] at hf; simp at hf; omega⟩
    refine ⟨s'', ?_, g2, g3.trans h4.src⟩
    unfold visitStruct
    simp only [bind_apply, getSt_apply, hf]
    rw [h1, g1]

/-- The first field that is missing. -/
theorem collectFields_absent {D : Nat → Ty} {f : Nat} {got : Text → Option SVal} {F : Text × Ty} {Fs' : List (Text × Ty)} : ∀ (Fs : List (Text × Ty)),
    (∀ G ∈ Fs, (got G.1).isSome = true ∨ Optional D f G.2) → got F.1 = none → ¬ Optional D f F.2 →
    collectFields (fieldOf D f) got (Fs ++ F :: Fs') = .error (.missingStructField F.1 none)
  | [], _, h1, h2 => by
    obtain ⟨g, T⟩ := F
    have h2 : fieldOf D f T = false := by simpa [← fieldOf_iff] using h2
    simp only [List.nil_append, collectFields, h1, h2, Bool.false_eq_true, ↓reduceIte]
  | (g, T) :: Fs, h0, h1, h2 => by
    have ih := collectFields_absent (got := got) (F := F) (Fs' := Fs') Fs (fun G hG => h0 G (by simp [hG])) h1 h2
    have h3 := h0 (g, T) (by simp)
    simp only [List.cons_append, collectFields, ih]
    cases hg : got g with
    | some v => rfl
    | none =>
      have h3 : fieldOf D f T = true := by
        rw [fieldOf_iff]
        rcases h3 with h3 | h3
        · rw [hg] at h3; cases h3
        · exact h3
      simp only [h3, ↓reduceIte]
      rfl

theorem gotOf_isSome {gs : List (Option (Text × SVal))} (hn : (keysOf gs).Nodup) {k : Text} (h : k ∈ keysOf gs) : (gotOf gs (fun _ => none) k).isSome = true := by
  unfold keysOf at h
  rw [List.mem_map] at h
  obtain ⟨⟨k', v⟩, h, rfl⟩ := h
  rw [List.mem_filterMap] at h
  obtain ⟨g, h1, h⟩ := h
  subst h
  rw [gotOf_mem gs _ _ v hn h1]; rfl

theorem key_known {x : Exts} {k : Nat} {rec : Ty → P SVal} {deny : Bool} {fields : List (Text × Ty)} {ts : List Text} {gs : List (Option (Text × SVal))}
    (h2 : All2 (KeyText x k rec deny fields) ts gs) {key : Text} (h : key ∈ keysOf gs) : key ∈ fields.map Prod.fst := by
  unfold keysOf at h
  rw [List.mem_map] at h
  obtain ⟨⟨k', v⟩, h, rfl⟩ := h
  rw [List.mem_filterMap] at h
  obtain ⟨g, h1, h⟩ := h
  subst h
  obtain ⟨t, key, kt, vt, -, -, h3, T, h4, -⟩ := all2_mem_right h2 _ h1
  subst h3
  exact find_names h4

/-- What reading fields comes to. -/
theorem badFields_visit {D : Nat → Ty} {f : Nat} {x : Exts} (hx : x.unwrapVariantNewtypes = false) {rec : Ty → P SVal} {L : Ty → Nat → Text → SVal → Prop} {I : Ty → Nat → Text → Text → Prop}
    {B : Ty → Nat → Text → Err → Text → Prop} (hL : ∀ T n t v, L T n t v → Reads x n (rec T) t v)
    (hI : ∀ T n u q, I T n u q → RunsAt x n (rec T) u q) (hB : ∀ T n u e r, B T n u e r → ErrsD x n (rec T) u e r) {deny : Bool} {fields : List (Text × Ty)}
    {n : Nat} {u r : Text} {e : Err} (h : BadFields x.implicitSome L I B (Optional D f) deny fields n u e r) :
    ∃ m w, n = m + 1 ∧ u = '(' :: w ∧ ErrsD x m (visitStruct rec (fieldOf D f) deny fields) w e r := by
  cases h with
  | @value n es gs p key kt m m' u r T e hb h2 hn hk hnk hfi hm hm' hu hbad =>
    refine ⟨n + 1, _, rfl, rfl, fun d hp hd => ?_⟩
    have h2 := (fieldsText_keys hx hL h2).2
    obtain ⟨s1, l, h3, hl, h4, h5⟩ := visitStruct_uptoK (fieldOf D f) hb h2 hn hp hd (hk.tokStart.noLayout _)
    refine h5 _ _ fun f hfu => ?_
    obtain ⟨s2, b1, a1, a2, a3, a4⟩ := nextKey_ok (term := ')') (hp.keep h4) (by simp) (fieldKey_in (deny := deny) hk (find_names hfi)) h3 hl hm
    refine (nextValue_errs ((hp.keep h4).keep a4) a2 a3 hm' hu (hB _ _ _ _ _ hbad)).keepB a4.src fun s' h => ?_
    rw [structLoop]
    simp only [bind_apply, a1, gotOf_not _ _ _ hnk, Option.isSome_none, Bool.false_eq_true, ↓reduceIte, hfi, h]
  | @comma n es gs p key kt m m' u q T hb h2 hn hk hnk hfi hm hm' hu hi hq =>
    refine ⟨n + 1, _, rfl, rfl, fun d hp hd => ?_⟩
    have h2 := (fieldsText_keys hx hL h2).2
    obtain ⟨s1, l, h3, hl, h4, h5⟩ := visitStruct_uptoK (fieldOf D f) hb h2 hn hp hd (hk.tokStart.noLayout _)
    refine h5 _ _ fun f hfu => ?_
    obtain ⟨s2, b1, a1, a2, a3, a4⟩ := nextKey_ok (term := ')') (hp.keep h4) (by simp) (fieldKey_in (deny := deny) hk (find_names hfi)) h3 hl hm
    obtain ⟨v, s3, g1, g2, g3⟩ := nextValue_sep ((hp.keep h4).keep a4) a2 a3 hm' hu (hI _ _ _ _ hi) hq
    obtain ⟨f, rfl⟩ := hfu (hk.tokStart.append _).ne
    obtain ⟨s4, j1, j2, j3⟩ := hasElement_sep g2 (hI _ _ _ _ hi).1 hq
    refine ⟨s4, ?_, j2, j3.trans (g3.src.trans a4.src)⟩
    rw [structLoop]
    simp only [bind_apply, a1, gotOf_not _ _ _ hnk, Option.isSome_none, Bool.false_eq_true, ↓reduceIte, hfi, g1]
    rw [structLoop]
    simp only [bind_apply, nextKey, j1]
  | @colon n es gs p key kt m q hb h2 hn hk hnk hf hz hm hq hc =>
    refine ⟨n + 1, _, rfl, rfl, fun d hp hd => ?_⟩
    have h2 := (fieldsText_keys hx hL h2).2
    obtain ⟨s1, l, h3, hl, h4, h5⟩ := visitStruct_uptoK (fieldOf D f) hb h2 hn hp hd (hk.tokStart.noLayout _)
    refine h5 _ _ fun f hfu => ?_
    obtain ⟨s2, a1, a2, a4⟩ := nextKey_key (deny := deny) (hp.keep h4) hk hz hf h3 hl
    obtain ⟨F, hfi⟩ : ∃ F, fields.find? (fun f => f.1 = key) = some F := by
      obtain ⟨F, h1, h2⟩ := List.mem_map.mp hf
      exact Option.isSome_iff_exists.mp (List.find?_isSome.mpr ⟨F, h1, by simpa using h2⟩)
    refine (nextValue_colon (seed := rec F.2) a2 hm hq hc).keepB a4.src fun s' h => ?_
    rw [structLoop]
    simp only [bind_apply, a1, gotOf_not _ _ _ hnk, Option.isSome_none, Bool.false_eq_true, ↓reduceIte, hfi, h]
  | @ignoredColon n es gs p key kt m q hb h2 hn hk hf hdeny hz hm hq hc =>
    subst hdeny
    refine ⟨n + 1, _, rfl, rfl, fun d hp hd => ?_⟩
    have h2 := (fieldsText_keys hx hL h2).2
    obtain ⟨s1, l, h3, hl, h4, h5⟩ := visitStruct_uptoK (fieldOf D f) hb h2 hn hp hd (hk.tokStart.noLayout _)
    refine h5 _ _ fun f hfu => ?_
    obtain ⟨s2, a1, a2, a4⟩ := nextKey_other (hp.keep h4) hk hz hf h3 hl
    refine (nextValue_colon (seed := deIgnored) a2 hm hq hc).keepB a4.src fun s' h => ?_
    rw [structLoop]
    simp only [bind_apply, a1, h]
  | @key n es gs p u r e hb h2 hn hu hw =>
    refine ⟨n + 1, _, rfl, rfl, fun d hp hd => ?_⟩
    have h2 := (fieldsText_keys hx hL h2).2
    obtain ⟨s1, l, h3, hl, h4, h5⟩ := visitStruct_uptoK (fieldOf D f) hb h2 hn hp hd hu.1
    refine h5 _ _ fun f _ => ?_
    rw [structLoop]
    exact ErrsAt.bind (nextKey_errs (hp.keep h4) h3 hl hu fun d hp hd => ErrsAt.bind (badWord_errs hw hd))
  | @unknown n es gs p key kt z hb h2 hn hk hnf hdeny hz =>
    subst hdeny
    refine ⟨n + 1, _, rfl, rfl, fun d hp hd => ?_⟩
    have h2 := (fieldsText_keys hx hL h2).2
    obtain ⟨s1, l, h3, hl, h4, h5⟩ := visitStruct_uptoK (fieldOf D f) hb h2 hn hp hd (hk.tokStart.noLayout _)
    refine h5 _ _ fun f hfu => ?_
    rw [structLoop]
    exact ErrsAt.bind (nextKey_errs (hp.keep h4) h3 hl (place_tok hk.tokStart (by simp)) (fieldKey_bad hk hz hnf))
  | @twice n es gs p key kt z hb h2 hn hk hg hz =>
    refine ⟨n + 1, _, rfl, rfl, fun d hp hd => ?_⟩
    have h2 := (fieldsText_keys hx hL h2).2
    obtain ⟨s1, l, h3, hl, h4, h5⟩ := visitStruct_uptoK (fieldOf D f) hb h2 hn hp hd (hk.tokStart.noLayout _)
    refine h5 _ _ fun f hfu => ?_
    obtain ⟨s2, a1, a2, a4⟩ := nextKey_key (deny := deny) (hp.keep h4) hk hz (key_known h2 hg) h3 hl
    refine ⟨s2, ?_, a2, a4.src⟩
    rw [structLoop]
    simp only [bind_apply, a1, gotOf_isSome hn hg, ↓reduceIte, fail_apply]
  | @missing n es gs w r Fs Fs' F hd h2 hn hF hFs hF1 hF2 =>
    have h2' := fieldsText_keys hx hL h2
    obtain ⟨w', e1, hi⟩ := delim_inner hd
    have e2 : w ++ ')' :: r = '(' :: (w' ++ r) := by
      rw [show w ++ ')' :: r = (w ++ [')']) ++ r by simp, e1]; rfl
    refine ⟨n + 1, w' ++ r, rfl, e2, fun d hp hd => ?_⟩
    obtain ⟨s1, h1, h3, h4⟩ := structLoop_keysIn hi h2'.2 hn (hp.mono h2'.1) hd
    refine ⟨s1, ?_, h3, h4.src⟩
    have hc := collectFields_absent (D := D) (f := f) (got := gotOf gs fun _ => none) (F := F) (Fs' := Fs') Fs
      (fun G hG => (hFs G hG).imp (gotOf_isSome hn) id) (by rw [gotOf_not gs _ _ hF1]) hF2
    rw [← hF] at hc
    unfold visitStruct
    simp only [bind_apply, getSt_apply, h1, hc, liftE, fail_apply]

omit [Env] in
/-- An error of the fields is an error of the struct. -/
theorem structAfterName_errs {α : Type} {x : Exts} {k : Nat} {name : Text} {visit : P α} {w r : Text} {e : Err} (h : ErrsD x k visit w e r) :
    ErrsD x (k + 1) (structAfterName name visit) ('(' :: w) (e.inStruct (nameOf name)) r := by
  intro d hp hd
  let d1 : St := { d with nv := false, prev := d.rest, rest := w }
  have hp1 : Pre x (k + 1) d1 := ⟨rfl, hp.exts, hp.budget⟩
  have e0 : consumeChar '(' d = .ok true { d with prev := d.rest, rest := w } := consumeChar_true hd
  have e1 : ({ d with prev := d.rest, rest := w, nv := false } : St) = d1 := rfl
  have en : (if !false && !name.isEmpty then some name else none) = nameOf name := by cases name <;> simp [nameOf]
  obtain ⟨s1, h1, h2, h3⟩ := ErrsD.guardQ (f := mapErr (structErrorName (nameOf name)) visit) (e := structErrorName (nameOf name) e) (r := r)
    (fun d hp hd => ErrsAt.mapErr (h d hp hd) _) d1 hp1 rfl
  refine ⟨s1, ?_, h2, h3⟩
  rw [← inStruct_eq] at h1
  unfold structAfterName
  simp only [bind_apply, getSt_apply, hp.nv, Bool.false_eq_true, ↓reduceIte, e0, setNv_apply]
  rw [e1, en, h1]

omit [Env] in
theorem structAfterName_bad {α : Type} {name : Text} {visit : P α} {d : St} {u : Text} (hn : d.nv = false) (hd : d.rest = u) (hu : u.head? ≠ some '(') :
    ErrsAt (structAfterName name visit) d (wantStruct name) u := by
  have e0 : consumeChar '(' d = .ok false d := consumeChar_false (by rw [hd]; exact head_start hu)
  refine ⟨d, ?_, hd, rfl⟩
  unfold structAfterName
  rw [wantStruct_eq]
  simp only [bind_apply, getSt_apply, hn, Bool.false_eq_true, ↓reduceIte, e0]
  split <;> rfl

end Ron
