import Verif.Lemmas.Adjacent
import Verif.Lemmas.TaggedSer
import Verif.Props.C22
/-! Adjacently tagged data: errors, and what is written. -/

set_option linter.unusedSectionVars false
set_option linter.unusedVariables false

namespace Ron

variable [Env]

/-! ### Reading up to a field -/

theorem foldLoop_prefix {κ σ : Type} {x : Exts} {n : Nat} {term : Char} {key : P κ} {check : σ → κ → Except Err Unit} {val : σ → κ → P σ}
    (hterm : term ∈ [')', ']', '}']) {ts : List Text} {u : Text} (hu : Body ts u) : ∀ (f : Nat) (st st' : σ) (d : St) (l b a r : Text),
    FoldReads x n key check val ts st st' → Pre x (n + 1) d → d.rest = l ++ (u ++ (b ++ ',' :: (a ++ r))) → Layout l → Layout b → Layout a →
    NoLayoutStart r →
    ∃ s', foldLoop term key check val (f + ts.length) true st d = foldLoop term key check val f true st' s' ∧ s'.rest = r ∧ KeepsD d s' := by
  induction hu with
  | @one t =>
    intro f st st' d l b a r h2 hp hd hl hb ha hr
    obtain ⟨kt, vt, k, st1, hk, hc, hv, he, rfl⟩ := h2
    cases he with
    | @mk l1 l2 hl1 hl2 =>
      obtain ⟨s1, b1, h1, h3, h4, h5⟩ := nextKey_ok (r := l2 ++ (vt ++ (b ++ ',' :: (a ++ r)))) hp hterm hk (by simpa using hd) hl hl1
      obtain ⟨s2, g1, g3, g4⟩ := nextValue_more (hp.keep h5) hv h3 h4 hl2 hb ha hr
      refine ⟨s2, ?_, g3, h5.trans g4⟩
      rw [List.length_singleton, foldLoop]
      simp only [bind_apply, h1, hc, liftE, pure_apply, g1]
  | @cons t b' a' u ts hb' ha' hu ih =>
    intro f st st' d l b a r h2 hp hd hl hb ha hr
    obtain ⟨kt, vt, k, st1, hk, hc, hv, he, h2'⟩ := h2
    have hts := h2'.tokStart
    cases he with
    | @mk l1 l2 hl1 hl2 =>
      obtain ⟨s1, b1, h1, h3, h4, h5⟩ := nextKey_ok (r := l2 ++ (vt ++ (b' ++ ',' :: (a' ++ (u ++ (b ++ ',' :: (a ++ r)))))))
        hp hterm hk (by simpa using hd) hl hl1
      obtain ⟨s2, g1, g3, g4⟩ := nextValue_more (hp.keep h5) hv h3 h4 hl2 hb' ha' ((hu.tokStart hts).noLayout _)
      obtain ⟨s3, m1, m3, m4⟩ := ih f st1 st' s2 [] b a r h2' (hp.keep (h5.trans g4)) (by simpa using g3) layout_nil hb ha hr
      refine ⟨s3, ?_, m3, h5.trans (g4.trans m4)⟩
      rw [List.length_cons, ← Nat.add_assoc, foldLoop]
      simp only [bind_apply, h1, hc, liftE, pure_apply, g1, m1]

theorem foldMap_upto {κ σ : Type} {x : Exts} {n : Nat} {term : Char} {key : P κ} {check : σ → κ → Except Err Unit} {val : σ → κ → P σ}
    (hterm : term ∈ [')', ']', '}']) {ts : List Text} {w : Text} (hw : Before ts w) {st st' : σ} {d : St} {r : Text}
    (h2 : FoldReads x n key check val ts st st') (hp : Pre x (n + 1) d) (hd : d.rest = w ++ r) (hr : NoLayoutStart r) :
    ∃ f l s', foldMap term key check val st d = foldLoop term key check val (f + 1) true st' s' ∧ Layout l ∧ s'.rest = l ++ r ∧ KeepsD d s' := by
  unfold foldMap
  simp only [bind_apply, getSt_apply]
  cases hw with
  | nil ha =>
    cases h2
    exact ⟨_, w, d, rfl, ha, hd, .refl _⟩
  | @items a b a' u ts ha hu hb ha' =>
    have hlen := hu.length h2.tokStart
    obtain ⟨f, hf⟩ : ∃ f, d.rest.length + 1 = f + 1 + ts.length := ⟨d.rest.length - ts.length, by rw [hd]; simp; omega⟩
    obtain ⟨s', h1, h3, h4⟩ := foldLoop_prefix hterm hu (f + 1) st st' d a b a' r h2 hp (by rw [hd]; simp) ha hb ha' hr
    exact ⟨f, [], s', by rw [hf, h1], .nil, h3, h4⟩

/-! ### Errors of the struct -/

/-- How the error names the type. -/
def nameIfAny (name : Text) : Option Text := if name.isEmpty then none else some name

theorem deAdjacent_fails {x : Exts} {k : Nat} {D : Nat → Ty} {f : Nat} {tag content name : Text} {variants : List (Text × Variant)} {p u : Text} {e : Err}
    (hp : OptName x name p) (hv : ∀ d, Pre x k d → d.rest = u → ∃ s', adjVisit D f tag content name variants d = .err e s') {d : St}
    (hpre : Pre x (k + 1) d) (hd : d.rest = p ++ '(' :: u) :
    ∃ s', deAdjacent D f tag content name variants d = .err (structErrorName (nameIfAny name) e) s' := by
  obtain ⟨b0, s0, g1, ⟨l0, g2, g3⟩, g4⟩ := structName_opt hp hpre.exts hd
  obtain ⟨s1, a1, a2, a3⟩ := skipWs_tok g3 g2 (noLayout_paren _)
  have hp1 := hpre.keep (g4.trans a3)
  let d1 : St := { s1 with nv := false, prev := s1.rest, rest := u }
  have hk1 : KeepsD s1 d1 := ⟨rfl, rfl, rfl, fun _ => rfl⟩
  obtain ⟨s2, h2⟩ := hv _ (hp1.keep hk1).lower rfl
  obtain ⟨s3, h3⟩ := deGuardQ_fails (f := mapErr (structErrorName (if !false && !name.isEmpty then some name else none)) (adjVisit D f tag content name variants))
    (e := structErrorName (nameIfAny name) e) (hp1.keep hk1).budget
    ⟨s2, by
      rw [mapErr_apply, h2]
      cases name <;> simp [nameIfAny]⟩
  refine ⟨s3, ?_⟩
  unfold deAdjacent
  simp only [bind_apply, getSt_apply, hpre.nv, Bool.not_false, ↓reduceIte, g1, a1]
  unfold structAfterName
  have e0 : consumeChar '(' s1 = .ok true { s1 with prev := s1.rest, rest := u } := consumeChar_true a2
  have e1 : ({ s1 with prev := s1.rest, rest := u, nv := false } : St) = d1 := rfl
  simp only [bind_apply, getSt_apply, hp1.nv, Bool.false_eq_true, ↓reduceIte, e0, setNv_apply]
  rw [e1, h3]

/-- The fields are read, and then something is missing. -/
theorem adj_failsAfter {x : Exts} {sfx : Bool} {D : Nat → Ty} {f : Nat} {tag content name : Text} (hne : tag ≠ content) {variants : List (Text × Variant)}
    {ts : List Text} {its : List AdjItem} {st : AdjSt} {w : Text} {e : Err} (hE : All2 (AdjText x sfx tag content) ts its)
    (hD : Delim '(' ')' ts ('(' :: w)) (h : AdjRun D f name variants its .start st) (hv : adjEnd D f name tag content st = .error e) (r : Text) {d : St}
    (hp : Pre x (adjLevels its) d) (hd : d.rest = w ++ r) : ∃ s', adjVisit D f tag content name variants d = .err e s' := by
  obtain ⟨w', hw', hi⟩ := delim_inner hD
  cases hw'
  have hfold := adj_fold (m := adjLevels its - 1) hne ts its _ _ hE h fun it hit => by have := adjLevels_mem it hit; omega
  obtain ⟨s', c1, c2, c3⟩ := foldMap_inner (by simp) hi hfold (hp.mono (adjLevels_pos hE)) (by simpa using hd)
  refine ⟨s', ?_⟩
  unfold adjVisit
  simp only [bind_apply, c1, hv, liftE]
  rfl

/-- A field that was there already, whatever follows. -/
theorem adj_failsTwice {x : Exts} {sfx : Bool} {D : Nat → Ty} {f : Nat} {tag content name : Text} (hne : tag ≠ content) {variants : List (Text × Variant)}
    {ts : List Text} {its : List AdjItem} {st : AdjSt} {w key kt l z : Text} {e : Err} (hE : All2 (AdjText x sfx tag content) ts its)
    (hw : Before ts w) (h : AdjRun D f name variants its .start st) (hk : NameTok key kt) (hl : Layout l)
    (hc : adjCheck tag content st (if key = tag then .tag else if key = content then .content else .other) = .error e) {d : St}
    (hp : Pre x (adjLevels its + 1) d) (hd : d.rest = w ++ (kt ++ (l ++ ':' :: z))) : ∃ s', adjVisit D f tag content name variants d = .err e s' := by
  have hfold := adj_fold (m := adjLevels its) hne ts its _ _ hE h fun it hit => by have := adjLevels_mem it hit; omega
  obtain ⟨g, a, s1, h1, h2, h3, h4⟩ := foldMap_upto (term := ')') (by simp) hw hfold hp hd (hk.tokStart.noLayout _)
  obtain ⟨s2, b, g1, -⟩ := nextKey_ok (term := ')') (b := l) (r := z) (hp.keep h4) (by simp)
    ((adjKey_reads (x := x) (tag := tag) (content := content) hk).mono (Nat.zero_le _)) h3 h2 hl
  refine ⟨s2, ?_⟩
  unfold adjVisit
  rw [bind_apply, h1, foldLoop]
  simp only [bind_apply, g1, hc, liftE]
  rfl

/-- The tag does not name a variant, whatever follows. -/
theorem adj_failsUnknown {x : Exts} {sfx : Bool} {D : Nat → Ty} {f : Nat} {tag content name : Text} (hne : tag ≠ content) {variants : List (Text × Variant)}
    {ts : List Text} {its : List AdjItem} {st : AdjSt} {w kt l l' id it z : Text} (hE : All2 (AdjText x sfx tag content) ts its)
    (hw : Before ts w) (h : AdjRun D f name variants its .start st) (hk : NameTok tag kt) (hl : Layout l) (hl' : Layout l')
    (hst : st = .start ∨ ∃ c, st = .content c) (hid : id ∉ variants.map Prod.fst) (hi : NameTok id it) (hz : IdentFollow z) {d : St}
    (hp : Pre x (max (adjLevels its) 2 + 1) d) (hd : d.rest = w ++ (kt ++ (l ++ ':' :: (l' ++ (it ++ z))))) :
    ∃ s', adjVisit D f tag content name variants d = .err (.noSuchEnumVariant (variants.map Prod.fst) id (nameIfAny name)) s' := by
  have hfold := adj_fold (m := max (adjLevels its) 2) hne ts its _ _ hE h fun it hit => by have := adjLevels_mem it hit; omega
  obtain ⟨g, a, s1, h1, h2, h3, h4⟩ := foldMap_upto (term := ')') (by simp) hw hfold hp hd (hk.tokStart.noLayout _)
  obtain ⟨s2, b, g1, g2, g3, g4⟩ := nextKey_ok (term := ')') (b := l) (r := l' ++ (it ++ z)) (hp.keep h4) (by simp)
    ((adjKey_reads (x := x) (tag := tag) (content := content) hk).mono (Nat.zero_le _)) h3 h2 hl
  rw [if_pos rfl] at g1
  have hp2 := hp.keep (h4.trans g4)
  obtain ⟨s3, k1, k2, k3⟩ := skipWs_tok g2 g3 (noLayout_colon _)
  obtain ⟨s4, m1, m2, m3⟩ := skipWs_tok (d := { s3 with prev := s3.rest, rest := l' ++ (it ++ z) }) rfl hl' (hi.tokStart.noLayout _)
  have hp4 := hp2.keep (k3.trans ((KeepsD.step _ _ _).trans m3))
  have hval : ∀ d : St, Pre x (max (adjLevels its) 2) d → d.rest = it ++ z →
      ∃ s', adjVal D f name variants st .tag d = .err (.noSuchEnumVariant (variants.map Prod.fst) id (nameIfAny name)) s' := by
    intro d hp hd
    obtain ⟨s', hfa⟩ := adjTag_fails (name := name) hi hid hz (hp.mono (by omega)) hd
    refine ⟨s', ?_⟩
    rcases hst with rfl | ⟨c, rfl⟩
    all_goals
      unfold adjVal
      simp only [bind_apply, hfa]
      rfl
  obtain ⟨s5, n1⟩ := deGuardQ_fails hp4.budget (hval _ hp4.lower m2)
  refine ⟨s5, ?_⟩
  unfold adjVisit
  rw [bind_apply, h1, foldLoop]
  have hnv : nextValue (adjVal D f name variants st .tag) s2 = .err (.noSuchEnumVariant (variants.map Prod.fst) id (nameIfAny name)) s5 := by
    unfold nextValue
    simp only [bind_apply, k1, consumeChar_true k2, ↓reduceIte, m1, n1]
  have hchk : adjCheck tag content st .tag = .ok () := by rcases hst with rfl | ⟨c, rfl⟩ <;> rfl
  simp only [bind_apply, g1, hchk, liftE, pure_apply, hnv]

/-- The content after the tag is an error, whatever follows. -/
theorem adj_failsContent {x : Exts} {sfx : Bool} {D : Nat → Ty} {f m : Nat} {tag content name : Text} (hne : tag ≠ content) {variants : List (Text × Variant)}
    {ts : List Text} {its : List AdjItem} {id : Text} {kd : Variant} {w kt l l' vt z : Text} {e : Err} (hE : All2 (AdjText x sfx tag content) ts its)
    (hw : Before ts w) (h : AdjRun D f name variants its .start (.tag id kd)) (hk : NameTok content kt) (hl : Layout l) (hl' : Layout l')
    (hf : FailsAt x m (adjTyped D f name id kd) vt e) {d : St}
    (hp : Pre x (max (adjLevels its) m + 1) d) (hd : d.rest = w ++ (kt ++ (l ++ ':' :: (l' ++ (vt ++ z))))) :
    ∃ s', adjVisit D f tag content name variants d = .err e s' := by
  have hfold := adj_fold (m := max (adjLevels its) m) hne ts its _ _ hE h fun it hit => by have := adjLevels_mem it hit; omega
  obtain ⟨g, a, s1, h1, h2, h3, h4⟩ := foldMap_upto (term := ')') (by simp) hw hfold hp hd (hk.tokStart.noLayout _)
  obtain ⟨s2, b, g1, g2, g3, g4⟩ := nextKey_ok (term := ')') (b := l) (r := l' ++ (vt ++ z)) (hp.keep h4) (by simp)
    ((adjKey_reads (x := x) (tag := tag) (content := content) hk).mono (Nat.zero_le _)) h3 h2 hl
  rw [if_neg (Ne.symm hne), if_pos rfl] at g1
  have hval : FailsAt x (max (adjLevels its) m) (adjVal D f name variants (.tag id kd) .content) vt e := by
    refine ⟨hf.1, fun d r hp hd => ?_⟩
    obtain ⟨s', hfa⟩ := hf.2 d r (hp.mono (by omega)) hd
    refine ⟨s', ?_⟩
    unfold adjVal
    simp only [bind_apply, hfa]
  obtain ⟨s3, n1⟩ := nextValue_fails (hp.keep (h4.trans g4)) hval g2 g3 hl'
  refine ⟨s3, ?_⟩
  unfold adjVisit
  rw [bind_apply, h1, foldLoop]
  simp only [bind_apply, g1, adjCheck, liftE, pure_apply, n1]

/-- A map that stands for a struct lacks something. -/
theorem fieldsAny_lacks {x : Exts} {sfx : Bool} {D : Nat → Ty} {n f : Nat} (hf : n ≤ f) {deny : Bool} {fields : List (Text × Ty)} {name id : Text}
    (hnd : (fields.map Prod.fst).Nodup) {ts : List Text} {is : List StrItem} {w : Text} (hE : All2 (StrText x sfx) ts is) (hD : Delim '{' '}' ts w)
    (hi : StrFits D n deny fields is) (hn : ((strFields is).map Prod.fst).Nodup) {e : Err}
    (hc : collectFields (fieldOf D f) (gotOf (strGot is) fun _ => none) fields = .error e) :
    FailsAt x (strLevels is + 1) (adjTyped D f name id (.struct deny fields)) w e := by
  obtain ⟨w', rfl, hin⟩ := delim_inner hD
  refine ⟨⟨_, _, rfl, by decide, by decide⟩, fun d r hp hd => ?_⟩
  have hfold := str_fold (x := x) (sfx := sfx) (m := strLevels is - 1) hf hnd ts is (fun _ => none) hE hi
    (fun i hi => by have := strLevels_mem i hi; omega) hn (fun _ _ => rfl)
  obtain ⟨s', h1⟩ := deMap_fails (k := strLevels is) (visit := visitStructStr (deTy D f) (fieldOf D f) deny fields) (d := d) (e := e) (w := w' ++ r)
    hp (by rw [hd]; rfl) (fun d hp hd => by
      obtain ⟨s1, g1, g2, g3⟩ := foldMap_inner (by simp) hin hfold (hp.mono (strLevels_pos hE)) hd
      refine ⟨s1, ?_⟩
      unfold visitStructStr
      simp only [bind_apply, g1, hc, liftE]
      rfl)
  refine ⟨s', ?_⟩
  unfold adjTyped
  simp only [bind_apply, fieldsAny_brace hd, h1]

/-- A key of a map that stands for a struct is rejected, whatever follows. -/
theorem fieldsAny_rejects {x : Exts} {sfx : Bool} {D : Nat → Ty} {n f : Nat} (hf : n ≤ f) {deny : Bool} {fields : List (Text × Ty)} {name id : Text}
    (hnd : (fields.map Prod.fst).Nodup) {ts : List Text} {is : List StrItem} {w key kt l : Text} (hE : All2 (StrText x sfx) ts is) (hw : Before ts w)
    (hi : StrFits D n deny fields is) (hn : ((strFields is).map Prod.fst).Nodup) (hk : StrLit kt key) (hl : Layout l) {e : Err}
    (hc : strCheck deny fields (gotOf (strGot is) fun _ => none) key = .error e) :
    FailsAt x (strLevels is + 2) (adjTyped D f name id (.struct deny fields)) ('{' :: (w ++ (kt ++ (l ++ [':'])))) e := by
  refine ⟨⟨_, _, rfl, by decide, by decide⟩, fun d r hp hd => ?_⟩
  have hfold := str_fold (x := x) (sfx := sfx) (m := strLevels is) hf hnd ts is (fun _ => none) hE hi
    (fun i hi => by have := strLevels_mem i hi; omega) hn (fun _ _ => rfl)
  have hkr := flatKey_reads (x := x) hk
  obtain ⟨s', h1⟩ := deMap_fails (k := strLevels is + 1) (visit := visitStructStr (deTy D f) (fieldOf D f) deny fields) (d := d) (e := e)
    (w := w ++ (kt ++ (l ++ ':' :: r))) hp (by rw [hd]; simp) (fun d hp hd => by
      obtain ⟨g, a, s1, h1, h2, h3, h4⟩ := foldMap_upto (term := '}') (by simp) hw hfold hp hd (hkr.1.noLayout _)
      obtain ⟨s2, b, g1, -⟩ := nextKey_ok (term := '}') (b := l) (r := r) (hp.keep h4) (by simp) (hkr.mono (Nat.zero_le _)) h3 h2 hl
      refine ⟨s2, ?_⟩
      unfold visitStructStr
      rw [bind_apply, h1, foldLoop]
      simp only [bind_apply, g1, hc, liftE]
      rfl)
  refine ⟨s', ?_⟩
  unfold adjTyped
  simp only [bind_apply, fieldsAny_brace (u := w ++ (kt ++ (l ++ ':' :: r))) (by rw [hd]; simp), h1]

/-! ### Values of the enum -/

/-- The parts of a value of the enum. -/
theorem adj_parts {D : Nat → Ty} {n : Nat} {name : Text} {variants : List (Text × Variant)} {v : SVal} (hT : HasTy D n (.enum name variants) v) :
    ∃ m id kd, n = m + 1 ∧ variants.find? (fun e => e.1 = id) = some (id, kd) ∧
      ((kd = .unit ∧ v = .unitVariant name id ∧ adjParts v = some (id, none)) ∨ ∃ u, adjParts v = some (id, some u) ∧ VarHas D m name id v u kd) := by
  cases n with
  | zero => exact hT.elim
  | succ m =>
    obtain ⟨id, kd, hm, hn, h⟩ := hT
    refine ⟨m, id, kd, rfl, find_nodup hm hn, ?_⟩
    cases kd with
    | unit => cases h; exact .inl ⟨rfl, rfl, rfl⟩
    | newtype T => obtain ⟨u, rfl, h⟩ := h; exact .inr ⟨u, rfl, rfl, h⟩
    | tuple Ts => obtain ⟨vs, rfl, h⟩ := h; exact .inr ⟨_, rfl, vs, rfl, rfl, h⟩
    | struct deny fields => obtain ⟨fs, rfl, hn', h⟩ := h; exact .inr ⟨_, rfl, fs, rfl, rfl, hn', h⟩

/-- The tag, then the content. -/
theorem adj_run {D : Nat → Ty} {n f : Nat} (hf : n ≤ f) {tag content name : Text} {variants : List (Text × Variant)} {v : SVal}
    (hT : HasTy D n (.enum name variants) v) (ht : AdjTold v) {id : Text} {c : Option SVal} (hp : adjParts v = some (id, c)) {its : List AdjItem}
    (hits : its.filter AdjItem.known = .tag id :: c.toList.map .typed) :
    ∃ st, AdjRun D f name variants its .start st ∧ adjEnd D f name tag content st = .ok v ∧
      ((c = none ∧ ∃ kd, st = .tag id kd) ∨ (c.isSome ∧ st = .done v)) := by
  obtain ⟨m, id', kd, rfl, hfi, ⟨rfl, rfl, h⟩ | ⟨u, h, hv⟩⟩ := adj_parts hT
  · rw [hp] at h
    cases h
    refine ⟨.tag id .unit, adjRun_known ?_, rfl, .inl ⟨rfl, _, rfl⟩⟩
    rw [hits]
    exact ⟨.tag id .unit, ⟨rfl, hfi⟩, rfl⟩
  · rw [hp] at h
    cases h
    refine ⟨.done v, adjRun_known ?_, rfl, .inr ⟨rfl, rfl⟩⟩
    rw [hits]
    exact ⟨.tag id kd, ⟨rfl, hfi⟩, .done v, ⟨m, by omega, hv, ht⟩, rfl⟩

/-- The content from the buffer. -/
theorem adjBuffered_ok {D : Nat → Ty} {n f : Nat} (hf : n ≤ f) {x : Exts} {name id : Text} {v u : SVal} {kd : Variant} (h : VarHas D n name id v u kd)
    (hb : u.Buffers x) : adjBuffered D f name id kd (u.content x) = .ok v := by
  cases kd with
  | unit => exact h.elim
  | newtype T =>
    obtain ⟨rfl, h⟩ := h
    simp only [adjBuffered, into_content true D n f T u hf h hb]
    rfl
  | tuple Ts =>
    obtain ⟨vs, rfl, rfl, h⟩ := h
    simp only [SVal.Buffers] at hb
    simp only [SVal.content, adjBuffered, contentTuple_ok h fun t v hm h => into_content true D n f t v hf h (buffersAll_mem hb.2 v hm)]
    rfl
  | struct deny fields =>
    obtain ⟨fs, rfl, rfl, hn, h⟩ := h
    simp only [SVal.Buffers] at hb
    have := contentStructOf_ok (isOption := fieldOf D f) (rec := Content.into true D f) (deny := deny) hn h fun t v hm h => by
      obtain ⟨d, hd, rfl⟩ := List.mem_map.mp hm
      exact into_content true D n f t d.2 hf h (buffersFields_mem hb.2 d hd)
    simp only [SVal.content, adjBuffered, this]
    rfl

/-- The content, then the tag. -/
theorem adj_runBuffered {D : Nat → Ty} {n f : Nat} (hf : n ≤ f) {x : Exts} {tag content name : Text} {variants : List (Text × Variant)} {v u : SVal}
    (hT : HasTy D n (.enum name variants) v) {id : Text} (hp : adjParts v = some (id, some u)) (hb : u.Buffers x) {its : List AdjItem}
    (hits : its.filter AdjItem.known = [.buffered (u.content x), .tag id]) : AdjRun D f name variants its .start (.done v) := by
  obtain ⟨m, id', kd, rfl, hfi, ⟨rfl, rfl, h⟩ | ⟨u', h, hv⟩⟩ := adj_parts hT
  · rw [hp] at h
    cases h
  · rw [hp] at h
    cases h
    refine adjRun_known ?_
    rw [hits]
    exact ⟨.content (u.content x), rfl, .done v, ⟨kd, hfi, adjBuffered_ok (by omega) hv hb⟩, rfl⟩

/-- What is written. -/
theorem adj_ser {tag content : Text} {v u : SVal} (h : adjSer tag content v = some u) :
    ∃ name id c, adjParts v = some (id, c) ∧ u = .struct name ((tag, .unitVariant name id) :: c.toList.map fun w => (content, w)) ∧
      ∀ D n nm variants, HasTy D n (.enum nm variants) v → nm = name := by
  have hn : ∀ {D : Nat → Ty} {n nm variants} {w : SVal}, HasTy D n (.enum nm variants) w →
      (∃ id, w = .unitVariant nm id) ∨ (∃ id u, w = .newtypeVariant nm id u) ∨ (∃ id vs, w = .tupleVariant nm id vs) ∨ ∃ id fs, w = .structVariant nm id fs := by
    intro D n nm variants w hT
    cases n with
    | zero => exact hT.elim
    | succ n =>
      obtain ⟨id, kd, -, -, h⟩ := hT
      cases kd with
      | unit => exact .inl ⟨id, h⟩
      | newtype => obtain ⟨u, h, -⟩ := h; exact .inr (.inl ⟨id, u, h⟩)
      | tuple => obtain ⟨u, h, -⟩ := h; exact .inr (.inr (.inl ⟨id, u, h⟩))
      | struct => obtain ⟨u, h, -⟩ := h; exact .inr (.inr (.inr ⟨id, u, h⟩))
  cases v
  all_goals simp only [adjSer, Option.some.injEq, reduceCtorEq] at h
  all_goals subst h
  all_goals refine ⟨_, _, _, rfl, rfl, fun D n nm variants hT => ?_⟩
  all_goals rcases hn hT with ⟨_, h⟩ | ⟨_, _, h⟩ | ⟨_, _, h⟩ | ⟨_, _, h⟩ <;> cases h <;> rfl

end Ron
