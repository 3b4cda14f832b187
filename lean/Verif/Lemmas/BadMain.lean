import Verif.Lemmas.BadFields
import Verif.Lemmas.BadRange
/-!
Malformed texts of any type: the error and the place.
-/

set_option linter.unusedSimpArgs false

namespace Ron

variable [Env]

omit [Env] in
theorem Errs.errsAt {α : Type} {f : P α} {d : St} {e : Err} {r : Text} (h : Errs f d e r) : ErrsAt f d e r := by
  obtain ⟨s', h1, h2, h3⟩ := h
  exact ⟨s', h1, h2, h3.src⟩

omit [Env] in
theorem inEnum_eq (name : Text) (e : Err) : (match e with
    | .noSuchEnumVariant ex fo none => if name.isEmpty then e else .noSuchEnumVariant ex fo (some name)
    | _ => e) = e.inEnum name := by
  unfold Err.inEnum
  split
  · cases name <;> simp
  · next h1 =>
    split
    · next h => exact absurd rfl (h1 _ _)
    · rfl

omit [Env] in
theorem bind_stops {α β : Type} {f : P α} {g : α → P β} {s s' : St} {e : Err} (h : f s = .err e s') : (f >>= g) s = .err e s' := by
  rw [bind_apply, h]

/-- An error of the data is an error of the enum. -/
theorem badEnum_errs {x : Exts} {k : Nat} {rec : Ty → P SVal} {isOption : Ty → Bool} {name id tok z r : Text}
    {variants : List (Text × Variant)} {kd : Variant} {e : Err} (ht : KeyTok id tok)
    (hf : variants.find? (fun e => e.1 = id) = some (id, kd)) (hz : NameEnds tok z)
    (hdata : ∀ d, Pre x (k + 1) d → d.rest = z → d.lastIdent = some id → ErrsAt (variantData rec isOption name id kd) d e r) :
    ErrsD x (k + 2) (deEnum name (visitEnum rec isOption name variants)) (tok ++ z) (e.inEnum name) r := by
  intro d hp hd
  let d1 : St := { d with nv := false }
  have hp1 : Pre x (k + 2) d1 := ⟨rfl, hp.exts, hp.budget⟩
  have key : ErrsD x (k + 1) (visitEnum rec isOption name variants) (tok ++ z) e r := fun d2 hp2 hd2 => by
    obtain ⟨s3, a1, a2, a3⟩ := skipWs_tok (d := d2) (l := []) (r := tok ++ z) (by simpa using hd2) .nil (ht.tokStart.noLayout _)
    have hp3 := hp2.keep a3
    obtain ⟨s4, b1, b2, b3⟩ := ht.readsAt (d := { s3 with limit := s3.limit.map (· - 1) }) hz a2
    have b3 := b3.toD
    have b1' : deIdentifier { s3 with limit := s3.limit.map (· - 1) } = .ok id { s4 with lastIdent := some id } := by
      unfold deIdentifier
      simp only [bind_apply, b1, modSt_apply, pure_apply]
    have b4 := deGuardQ_ok (f := do
      let id ← deIdentifier
      match variants.find? (fun e => e.1 = id) with
      | some (_, k) => pure (id, k)
      | none => fail (.noSuchEnumVariant (variants.map Prod.fst) id none)) (a := (id, kd)) (s' := { s4 with lastIdent := some id }) hp3.budget
      (by simp only [bind_apply, b1', hf, pure_apply]) ⟨b3.src, b3.exts, b3.limit, b3.nv⟩
    refine (hdata _ (hp3.keep b4.2) b2 rfl).keepB ((a3.trans b4.2).src) fun s' h => ?_
    unfold visitEnum
    rw [bind_apply, a1]
    exact (bind_eq (a := (id, kd)) b4.1).trans h
  obtain ⟨s', h1, h2, h3⟩ := key.guardR d1 hp1 hd
  refine ⟨s', ?_, h2, h3⟩
  unfold deEnum
  simp only [bind_apply, setNv_apply, mapErr_apply]
  rw [show ({ d with nv := false } : St) = d1 from rfl, h1]
  exact congrArg (fun e => Res.err e s') (inEnum_eq name e)

theorem badVariant_errs {x : Exts} {k : Nat} {rec : Ty → P SVal} {isOption : Ty → Bool} {name id tok z : Text}
    {variants : List (Text × Variant)} (ht : KeyTok id tok) (hf : id ∉ variants.map Prod.fst) (hz : NameEnds tok z) :
    ErrsD x (k + 2) (deEnum name (visitEnum rec isOption name variants)) (tok ++ z) (.noSuchEnumVariant (variants.map Prod.fst) id (nameOf name)) z := by
  intro d hp hd
  let d1 : St := { d with nv := false }
  have hp1 : Pre x (k + 2) d1 := ⟨rfl, hp.exts, hp.budget⟩
  have hnone : variants.find? (fun e => e.1 = id) = none := by
    rw [List.find?_eq_none]
    intro e he h
    exact hf (List.mem_map.mpr ⟨e, he, by simpa using h⟩)
  have key : ErrsD x (k + 1) (visitEnum rec isOption name variants) (tok ++ z) (.noSuchEnumVariant (variants.map Prod.fst) id none) z := fun d2 hp2 hd2 => by
    obtain ⟨s3, a1, a2, a3⟩ := skipWs_tok (d := d2) (l := []) (r := tok ++ z) (by simpa using hd2) .nil (ht.tokStart.noLayout _)
    have hp3 := hp2.keep a3
    obtain ⟨s4, b1, b2, b3, -⟩ := deIdentifier_runsAt (d := { s3 with limit := s3.limit.map (· - 1) }) ht hz a2
    have b4 : ErrsAt (deGuardQ (do
      let id ← deIdentifier
      match variants.find? (fun e => e.1 = id) with
      | some (_, k) => pure (id, k)
      | none => fail (.noSuchEnumVariant (variants.map Prod.fst) id none))) s3 (.noSuchEnumVariant (variants.map Prod.fst) id none) z :=
      ErrsAt.guardQ hp3 ⟨s4, by simp only [bind_apply, b1, hnone, fail_apply], b2, b3.src⟩
    refine b4.keepB a3.src fun s' h => ?_
    unfold visitEnum
    rw [bind_apply, a1]
    exact bind_stops h
  obtain ⟨s', h1, h2, h3⟩ := key.guardR d1 hp1 hd
  refine ⟨s', ?_, h2, h3⟩
  unfold deEnum
  simp only [bind_apply, setNv_apply, mapErr_apply]
  rw [show ({ d with nv := false } : St) = d1 from rfl, h1]
  simp only [nameOf_eq]
  cases name <;> simp

/-- No name where the name of a variant should be. -/
theorem badWordEnum_errs {x : Exts} {k : Nat} {rec : Ty → P SVal} {isOption : Ty → Bool} {name u r : Text}
    {variants : List (Text × Variant)} {e : Err} (hw : BadWord u e r) (hl : NoLayoutStart u) :
    ErrsD x (k + 2) (deEnum name (visitEnum rec isOption name variants)) u e r := by
  intro d hp hd
  let d1 : St := { d with nv := false }
  have hp1 : Pre x (k + 2) d1 := ⟨rfl, hp.exts, hp.budget⟩
  have key : ErrsD x (k + 1) (visitEnum rec isOption name variants) u e r := fun d2 hp2 hd2 => by
    obtain ⟨s3, a1, a2, a3⟩ := skipWs_tok (d := d2) (l := []) (r := u) (by simpa using hd2) .nil hl
    have hp3 := hp2.keep a3
    have b4 : ErrsAt (deGuardQ (do
      let id ← deIdentifier
      match variants.find? (fun e => e.1 = id) with
      | some (_, k) => pure (id, k)
      | none => fail (.noSuchEnumVariant (variants.map Prod.fst) id none))) s3 e r :=
      ErrsAt.guardQ hp3 (ErrsAt.bind (badWord_errs hw a2))
    refine b4.keepB a3.src fun s' h => ?_
    unfold visitEnum
    rw [bind_apply, a1]
    exact bind_stops h
  obtain ⟨s', h1, h2, h3⟩ := key.guardR d1 hp1 hd
  refine ⟨s', ?_, h2, h3⟩
  unfold deEnum
  simp only [bind_apply, setNv_apply, mapErr_apply]
  rw [show ({ d with nv := false } : St) = d1 from rfl, h1]
  cases hw <;> rfl

theorem badData_errs {D : Nat → Ty} {f : Nat} {x : Exts} (hx : x.unwrapVariantNewtypes = false) {rec : Ty → P SVal} {L : Ty → Nat → Text → SVal → Prop} {I : Ty → Nat → Text → Text → Prop}
    {B : Ty → Nat → Text → Err → Text → Prop} (hL : ∀ T n t v, L T n t v → Reads x n (rec T) t v)
    (hI : ∀ T n u q, I T n u q → RunsAt x n (rec T) u q) (hB : ∀ T n u e r, B T n u e r → ErrsD x n (rec T) u e r) {id name : Text} {k : Variant}
    {n : Nat} {l u r : Text} {e : Err} (hl : Layout l) (hu : NoLayoutStart u) (h : BadData x.implicitSome L I B (Optional D f) id k n u e r) {d : St} (hp : Pre x n d)
    (hd : d.rest = l ++ u) (hi : d.lastIdent = some id) : ErrsAt (variantData rec (fieldOf D f) name id k) d e r := by
  obtain ⟨s1, a1, a2, a3⟩ := skipWs_tok hd hl hu
  cases h with
  | opening hk hq =>
    have e0 : consumeChar '(' s1 = .ok false s1 := consumeChar_false (by rw [a2]; exact head_start hq)
    refine ⟨s1, ?_, a2, a3.src⟩
    cases k with
    | unit => exact absurd hk (by simp [Variant.HasData])
    | newtype T =>
      simp only [variantData, newtypeVariant, bind_apply, getSt_apply, a1, e0, Bool.false_eq_true, ↓reduceIte, fail_apply]
    | tuple Ts =>
      simp only [variantData, deTuple, bind_apply, getSt_apply, (hp.keep a3).nv, a1, e0, Bool.false_eq_true, ↓reduceIte, fail_apply]
    | struct deny fields =>
      simp only [variantData, structAfterName, bind_apply, getSt_apply, (hp.keep a3).nv, a1, e0, Bool.false_eq_true, ↓reduceIte, fail_apply, mapErr_apply, List.isEmpty_nil]
      rfl
  | newtype h =>
    refine ErrsAt.bind (badNewtypeVariant_errs hx (id := id) (fun n t v h => ?_) (fun n u q h => ?_) (fun n u e r h => ?_) hl h hp hd hi)
    · refine ⟨(hL _ _ _ _ h).1, fun d l q hp hd hl hq => ?_⟩
      obtain ⟨s', l', h1, h2⟩ := (hL _ _ _ _ h).2 d l q hp hd hl hq
      exact ⟨s', l', by simp only [mapErr_apply, h1], h2⟩
    · refine ⟨(hI _ _ _ _ h).1, fun d hp hd => ?_⟩
      obtain ⟨v, s', l', h1, h2⟩ := (hI _ _ _ _ h).2 d hp hd
      exact ⟨v, s', l', by simp only [mapErr_apply, h1], h2⟩
    · obtain ⟨e', h1, rfl⟩ := h
      intro d hp hd
      rw [inStruct_eq]
      exact ErrsAt.mapErr (hB _ _ _ _ _ h1 d hp hd) _
  | tuple h =>
    refine (ErrsAt.keepB (g := variantData rec (fieldOf D f) name id _) (badTuple_errs hL hI hB h s1 (hp.keep a3) a2) a3.src fun s' h => ?_)
    simp only [variantData, bind_apply, a1, h]
  | struct h =>
    obtain ⟨m, w, rfl, rfl, hv⟩ := badFields_visit hx hL hI hB h
    have := structAfterName_errs (name := []) hv s1 (hp.keep a3) a2
    rw [show nameOf [] = none from rfl, inStruct_eq none, structErrorName_none, ] at this
    rw [inStruct_eq]
    refine (ErrsAt.mapErr this (structErrorName (some id))).keepB a3.src fun s' h => ?_
    simp only [variantData, bind_apply, getSt_apply, a1, hi, h]

theorem badStruct_errs {D : Nat → Ty} {f : Nat} {x : Exts} (hx : x.unwrapVariantNewtypes = false) {rec : Ty → P SVal} {conv : Ty → Number → Except Err SVal}
    {L : Ty → Nat → Text → SVal → Prop} {I : Ty → Nat → Text → Text → Prop}
    {B : Ty → Nat → Text → Err → Text → Prop} (hL : ∀ T n t v, L T n t v → Reads x n (rec T) t v)
    (hI : ∀ T n u q, I T n u q → RunsAt x n (rec T) u q) (hB : ∀ T n u e r, B T n u e r → ErrsD x n (rec T) u e r) {name p : Text} {deny : Bool} {fields : List (Text × Ty)}
    {n : Nat} {u r : Text} {e : Err} (hn : NamePre x name p) (h : BadFields x.implicitSome L I B (Optional D f) deny fields n u e r) :
    ErrsD x n (deStruct rec (fieldOf D f) conv name deny fields) (p ++ u) (e.inStruct (nameOf name)) r := by
  obtain ⟨m, w, rfl, rfl, hv⟩ := badFields_visit hx hL hI hB h
  intro d hp hd
  have h0 := rangeKey_none hn hd (fields.map Prod.fst)
  obtain ⟨b0, s0, g1, ⟨l0, g2, g3⟩, g4⟩ := structKey_opt hn hp.exts hd
  obtain ⟨s1, a1, a2, a3⟩ := skipWs_tok g3 g2 (noLayout_paren _)
  refine ErrsAt.keepB (structAfterName_errs (name := name) hv s1 (hp.keep (g4.trans a3)) a2) (g4.trans a3).src fun s' h => ?_
  unfold deStruct
  simp only [bind_apply, h0, getSt_apply, hp.nv, Bool.not_false, ↓reduceIte, g1, a1, h]

theorem bind_pure_ok {α β : Type} {f : P α} {g : α → β} {s s' : St} {a : α} (h : f s = .ok a s') : (do let a ← f; pure (g a) : P β) s = .ok (g a) s' := by
  simp only [bind_apply, h, pure_apply]

/-- A byte read as `u8`. -/
theorem byteLit_runs {d : St} {t r : Text} {k : Nat} (hd : d.rest = t ++ r) (h : ByteLit t k) : RunsW (integer (.one .u8)) d (.u8, (k : Int)) r := by
  have ht : ∃ w, t = 'b' :: '\'' :: w := by cases h <;> exact ⟨_, rfl⟩
  obtain ⟨w, rfl⟩ := ht
  unfold RunsW
  rw [integer_byte hd, byteLiteral_one]
  obtain ⟨s', h1, h2, h3⟩ := byteLiteral_ok (b := d.rest) (s := { d with prev := d.rest, rest := w ++ r }) rfl h
  exact ⟨s', h1, h2, (KeepsW.step d _ _).trans h3⟩

/-- A byte read as another type. -/
theorem byteLit_errs {t : IntTy} (hne : t ≠ .u8) {d : St} {w r : Text} {k : Nat} (hd : d.rest = w ++ r) (h : ByteLit w k) :
    ErrsAt (integer (.one t)) d (.invalidValueForType t.called w) r := by
  have ht : ∃ u, w = 'b' :: '\'' :: u := by cases h <;> exact ⟨_, rfl⟩
  obtain ⟨u, rfl⟩ := ht
  obtain ⟨s', h1, h2, h3⟩ := byteLiteral_ok (b := d.rest) (s := { d with prev := d.rest, rest := u ++ r }) rfl h
  refine ⟨s', ?_, h2, h3.toD.src⟩
  rw [integer_byte (r := u ++ r) hd]
  unfold byteLiteral at h1 ⊢
  replace h1 := bind_ok h1; obtain ⟨c, s1, g1, h1⟩ := h1
  replace h1 := bind_ok h1; obtain ⟨n, s2, g2, h1⟩ := h1
  replace h1 := bind_ok h1; obtain ⟨q, s3, g3, h1⟩ := h1
  cases q with
  | false => cases h1
  | true =>
    replace h1 := bind_ok (if_tt h1); obtain ⟨s4, s5, g4, h1⟩ := h1
    cases g4
    cases h1
    rw [bind_apply, g1]; simp only
    rw [bind_apply, g2]; simp only
    rw [bind_apply, g3]; simp only
    simp only [↓reduceIte, bind_apply, getSt_apply, IntTarget.tryFrom, if_neg (Ne.symm hne), fail_apply, h2, hd]
    have he : ∀ a b : Text, List.take ((a ++ b).length - b.length) (a ++ b) = a := fun a b => by simp
    rw [he]
    cases t <;> rfl

/-- A variant with its data. -/
theorem data_closed {D : Nat → Ty} {x : Exts} (hx : x.unwrapVariantNewtypes = false) {f n : Nat} {name id tok w : Text} {variants : List (Text × Variant)} {k : Variant}
    {v : SVal} (h1 : KeyTok id tok) (h2 : variants.find? (fun e => e.1 = id) = some (id, k)) (hk : k.HasData) (hn : 1 ≤ n)
    (h3 : VariantText x.implicitSome (TyLang D x f) (Optional D f) name id k n w v) : ReadsC x (n + 1) (deTy D (f + 1) (.enum name variants)) (tok ++ w) v := by
  have ih := tyLang_reads (D := D) hx f
  cases k with
  | unit => exact hk.elim
  | newtype T =>
    obtain ⟨l0, p, u, rfl, hl0, h3, rfl⟩ := h3
    obtain ⟨m, rfl, h3⟩ := deeper_iff.mp h3
    have hp := inParens_readsT hx (ih T m · u) h3
    obtain ⟨p', rfl⟩ := inParens_open h3
    refine enum_closed hn h1 h2 (fun r => ?_) (fun d r hpre hd => ?_)
    · rw [List.append_assoc]
      exact layout_follow hl0 (parenOpen_follow _)
    · obtain ⟨s', g1, g2, g3⟩ := newtypeVariant_ok hp hl0 hpre (r := r) (by rw [hd]; simp)
      refine ⟨s', ?_, g2, g3⟩
      simp only [variantData, bind_apply, g1, pure_apply]
  | tuple Ts =>
    obtain ⟨l0, q0, vs, rfl, hl0, h3, rfl⟩ := h3
    obtain ⟨hr, w', rfl⟩ := tupleText_closed (ex := c!"tuple variant") ih h3
    refine enum_closed hn h1 h2 (fun r => ?_) (fun d r hpre hd => ?_)
    · rw [List.append_assoc]
      exact layout_follow hl0 (parenOpen_follow _)
    · obtain ⟨s1, a1, a2, a3⟩ := skipWs_tok (r := '(' :: w' ++ r) (by rw [hd]; simp) hl0 (noLayout_paren _)
      obtain ⟨s', g1, g2, g4⟩ := hr s1 r (hpre.keep a3) a2
      refine ⟨s', ?_, g2, a3.trans g4⟩
      simp only [variantData, bind_apply, a1, g1, pure_apply]
  | struct deny fields =>
    obtain ⟨l0, q0, fs, rfl, hl0, h3, rfl⟩ := h3
    obtain ⟨n, rfl, es, gs, hd, h3, h4, h5⟩ := deeper_iff.mp h3
    obtain ⟨h6, h7⟩ := fieldsText_keys hx ih h3
    obtain ⟨w', rfl, hi⟩ := delim_inner hd
    refine enum_closed hn h1 h2 (fun r => ?_) (ReadsC.mono (fun d r hpre hd' => ?_) (Nat.succ_le_succ h6))
    · rw [List.append_assoc]
      exact layout_follow hl0 (parenOpen_follow _)
    · obtain ⟨s1, a1, a2, a3⟩ := skipWs_tok (r := '(' :: (w' ++ r)) (by rw [hd']; simp) hl0 (noLayout_paren _)
      obtain ⟨s2, b1, b2, b3⟩ := structAfterName_ok [] (hpre.keep a3) a2 fun d' hp' hd' => by
        obtain ⟨s', c1, c2, c3⟩ := visitStruct_keys hi h7 h4 ((fields_all2 h4).mpr h5) hp' hd'
        exact ⟨s', [], c1, c2, .nil, c3⟩
      refine ⟨s2, ?_, b2, a3.trans b3⟩
      simp only [variantData, bind_apply, getSt_apply, a1, mapErr_apply, b1, pure_apply]

theorem notFull {name u : Text} {d : St} (h : ¬ FullRange name u) (hd : d.rest = u) :
    (if name = c!"RangeFull" then consumeStr c!".." else pure false : P Bool) d = .ok false d := by
  split
  · rename_i hn
    rw [consumeStr_apply, hd]
    cases hs : startsWith u c!".." with
    | false => rfl
    | true => rw [startsWith_iff] at hs; obtain ⟨r, rfl⟩ := hs; exact absurd ⟨hn, r, rfl⟩ h
  · rfl

/-- Before an optional value without parentheses. -/
theorem option_bareAt {x : Exts} (hi : x.implicitSome = true) {p u : Text} (h : SomeBare p u) (hu : NoLayoutStart u) {d : St} (he : d.exts = x)
    (hd : d.rest = p ++ u) : ∃ s1, s1.rest = u ∧ KeepsD d s1 ∧ ∀ {α : Type} (vn : α) (visit : P α), deOption vn visit d = deGuardR visit s1 := by
  rcases h with ⟨rfl, h1, h2⟩ | ⟨l, rfl, hl, h1, h2⟩
  · have e1 : consumeIdent c!"None" d = .ok false d := by
      rcases consumeIdent_cases c!"None" d with ⟨u', g1, g2, -⟩ | ⟨-, g⟩
      · exact absurd ⟨u', by rw [← g1, hd]; rfl, g2⟩ h1
      · exact g
    have e2 : consumeIdent c!"Some" d = .ok false d := by
      rcases consumeIdent_cases c!"Some" d with ⟨u', g1, g2, -⟩ | ⟨-, g⟩
      · exact absurd ⟨u', by rw [← g1, hd]; rfl, g2⟩ h2
      · exact g
    refine ⟨d, hd, KeepsD.refl d, fun vn visit => ?_⟩
    simp only [deOption, bind_apply, e1, e2, Bool.false_eq_true, ↓reduceIte, pure_apply, getSt_apply, he, hi]
  · have hd' : d.rest = c!"Some" ++ (l ++ u) := by rw [hd]; simp
    have e1 : consumeIdent c!"None" d = .ok false d :=
      consumeIdent_false (by rw [hd']; exact keyword_other (by simp [reservedNames]) (by simp [reservedNames]) h1 (by decide))
    have e2 := consumeIdent_true hd' h1
    obtain ⟨s1, g1, g2, g3⟩ := skipWs_tok (d := { d with prev := d.rest, rest := l ++ u }) rfl hl hu
    have e3 : consumeChar '(' s1 = .ok false s1 := consumeChar_false (by
      rw [g2]
      refine head_start fun e => ?_
      cases u with
      | nil => cases e
      | cons c u => injection e with e; subst e; exact h2 u rfl)
    have hi' : s1.exts.implicitSome = true := by rw [g3.exts]; show d.exts.implicitSome = true; rw [he]; exact hi
    refine ⟨s1, g2, (KeepsD.step d _ _).trans g3, fun vn visit => ?_⟩
    simp only [deOption, bind_apply, e1, e2, g1, e3, Bool.false_eq_true, ↓reduceIte, getSt_apply, hi']

theorem wholeAt_runs {D : Nat → Ty} {x : Exts} (hx : x.unwrapVariantNewtypes = false) {f : Nat} {T : Ty} {n : Nat} {u r : Text} (h : WholeAt D x f T n u r) :
    ∀ d, Pre x n d → d.rest = u → ∃ v s', deTy D f T d = .ok v s' ∧ s'.rest = r ∧ KeepsD d s' := by
  induction h with
  | ref h ih => exact ih
  | @closed _ _ _ t r v hc h h1 h2 h3 =>
    intro d hp hd
    obtain ⟨s', h1, h2, h3⟩ := tyLang_closed hx hc h h1 h2 h3 d r hp hd
    exact ⟨v, s', h1, h2, h3⟩
  | @int f n t u r i ha hb h =>
    intro d hp hd
    obtain ⟨s', h1, h2, h3⟩ := integer_good hd hb h
    refine ⟨.num (.int t i), s', ?_, h2, h3.toD⟩
    simp only [deTy, deInt_avail ha, bind_apply, h1, pure_apply]
  | @byte f n k t r h =>
    intro d hp hd
    obtain ⟨s', h1, h2, h3⟩ := byteLit_runs hd h
    refine ⟨.num (.int .u8 k), s', ?_, h2, h3.toD⟩
    have ha : IntTy.Avail .u8 := by rintro (h | h) <;> cases h
    simp only [deTy, deInt_avail ha, bind_apply, h1, pure_apply]
  | @f32 f n u r m h =>
    intro d hp hd
    obtain ⟨s', h1, h2, h3⟩ := float_good hd h
    exact ⟨.num m, s', bind_pure_ok h1, h2, h3.toD⟩
  | @f64 f n u r m h =>
    intro d hp hd
    obtain ⟨s', h1, h2, h3⟩ := float_good hd h
    exact ⟨.num m, s', bind_pure_ok h1, h2, h3.toD⟩
  | @bool f n b r hi =>
    intro d hp hd
    have e1 := consumeIdent_true hd hi
    cases b with
    | true => exact ⟨.bool true, _, by simp only [deTy, Ron.bool, bind_apply, show consumeIdent c!"true" d = _ from e1, ↓reduceIte, pure_apply]; rfl, rfl, KeepsD.step d _ _⟩
    | false =>
      have e2 : consumeIdent c!"true" d = .ok false d :=
        consumeIdent_false (by rw [hd]; exact keyword_other (by simp [reservedNames]) (by simp [reservedNames]) hi (by decide))
      exact ⟨.bool false, _, by simp only [deTy, Ron.bool, bind_apply, e2, show consumeIdent c!"false" d = _ from e1, Bool.false_eq_true, ↓reduceIte, pure_apply]; rfl, rfl, KeepsD.step d _ _⟩
  | @none f n T r hi =>
    intro d hp hd
    exact ⟨.none, _, by simp only [deTy, deOption, bind_apply, consumeIdent_true hd hi, ↓reduceIte, pure_apply]; rfl, rfl, KeepsD.step d _ _⟩
  | @full f n name r h =>
    intro d hp hd
    have e1 : consumeStr c!".." d = .ok true { d with prev := d.rest, rest := r } := by
      rw [consumeStr_apply, hd, (startsWith_iff _ _).mpr ⟨r, rfl⟩]
      rfl
    refine ⟨.unitStruct name, { d with prev := d.rest, rest := r }, ?_, rfl, KeepsD.step _ _ _⟩
    simp only [deTy, deUnitStruct, h.1, bind_apply, ↓reduceIte, e1, pure_apply]
  | @unitParens f n name r hr he =>
    intro d hp hd
    have hr := notFull hr hd
    have hc : checkIdent [] d = .ok true d := checkIdent_true (r := c!"()" ++ r) (by simpa using hd) (parenOpen_follow _).xid
    have h1 : consumeStructName name d = .ok false d := by
      unfold consumeStructName
      simp only [bind_apply, hc, ↓reduceIte, getSt_apply, hp.exts, he, Bool.false_eq_true, pure_apply]
    have e1 : consumeStr c!"()" d = .ok true { d with prev := d.rest, rest := r } := by
      rw [consumeStr_apply, hd, (startsWith_iff _ _).mpr ⟨r, rfl⟩]
      rfl
    refine ⟨.unitStruct name, { d with prev := d.rest, rest := r, nv := false }, ?_, rfl, ⟨rfl, rfl, rfl, fun _ => rfl⟩⟩
    simp only [deTy, deUnitStruct, bind_apply, hr, ↓reduceIte, pure_apply, Bool.false_eq_true, getSt_apply, hp.nv, h1, deUnit, e1, setNv_apply]
  | @unitName f n name tok r hr ht hz =>
    intro d hp hd
    have hr := notFull hr hd
    obtain ⟨s', h1, h2, h3⟩ := structKey_someAt ht hz hd
    refine ⟨.unitStruct name, { s' with nv := false }, ?_, h2, h3.trans (KeepsD.clear s')⟩
    simp only [deTy, deUnitStruct, bind_apply, hr, ↓reduceIte, pure_apply, Bool.false_eq_true, getSt_apply, hp.nv, h1, setNv_apply]
  | @variant f n name id tok r variants ht hf hz =>
    intro d hp hd
    let d1 : St := { d with nv := false }
    have hp1 : Pre x (n + 2) d1 := ⟨rfl, hp.exts, hp.budget⟩
    let d2 : St := { d1 with limit := d1.limit.map (· - 1) }
    have hp2 : Pre x (n + 1) d2 := hp1.lower
    have hd2 : d2.rest = tok ++ r := hd
    obtain ⟨s3, a1, a2, a3⟩ := skipWs_tok (d := d2) (l := []) (r := tok ++ r) (by simpa using hd2) .nil (ht.tokStart.noLayout _)
    have hp3 := hp2.keep a3
    obtain ⟨s4, b1, b2, b3, -⟩ := deIdentifier_runsAt (d := { s3 with limit := s3.limit.map (· - 1) }) ht hz a2
    have b4 := deGuardQ_ok (f := do
      let id ← deIdentifier
      match variants.find? (fun e => e.1 = id) with
      | some (_, k) => pure (id, k)
      | none => fail (.noSuchEnumVariant (variants.map Prod.fst) id none)) (a := (id, Variant.unit)) (s' := s4) hp3.budget
      (by simp only [bind_apply, b1, hf, pure_apply]) b3
    have hv : visitEnum (deTy D f) (fieldOf D f) name variants d2 = .ok (.unitVariant name id) { s4 with limit := s3.limit } := by
      unfold visitEnum
      rw [bind_apply, a1]
      exact (bind_eq (a := (id, Variant.unit)) b4.1).trans rfl
    obtain ⟨e1, e2⟩ := deGuardR_ok hp1.budget hv (a3.trans b4.2)
    refine ⟨.unitVariant name id, { s4 with limit := d1.limit }, ?_, b2, (KeepsD.clear d).trans e2⟩
    simp only [deTy, deEnum, bind_apply, setNv_apply, mapErr_apply]
    rw [e1]
  | @data f n name id tok w r variants k v ht hf hk h =>
    intro d hp hd
    obtain ⟨s', h1, h2, h3⟩ := data_closed hx ht hf hk (by omega) h d r hp (by simpa using hd)
    exact ⟨v, s', h1, h2, h3⟩
  | @fields f n name p q r deny fields fs hn h =>
    intro d hp hd
    cases n with
    | zero => exact h.elim
    | succ n =>
      obtain ⟨es, gs, hd', h3, h4, h5⟩ := h
      obtain ⟨h6, h7⟩ := fieldsText_keys hx (tyLang_reads hx f) h3
      obtain ⟨s', g1, g2, g3⟩ := (struct_closed (conv := numTo D f) hn hd' h7 h4 ((fields_all2 h4).mpr h5)).mono (Nat.succ_le_succ h6) d r hp (by rw [hd, List.append_assoc])
      exact ⟨_, s', g1, g2, g3⟩
  | @range f n name u r deny fields es fs h hf =>
    intro d hp hd
    obtain ⟨s', g1, g2, g3⟩ := rangeAt_read (s := d) (hd ▸ h)
    have hn := rangeFields_names hf
    refine ⟨.struct name fs, s', ?_, g2, g3.toD⟩
    simp only [deTy, deStruct, bind_apply, hn, g1]
    rw [(visitRange_iff h hn).mpr (by simpa only [numTo_iff] using hf)]
    rfl
  | @some f n T l q r v hl h =>
    intro d hp hd
    obtain ⟨m, rfl, h⟩ := deeper_iff.mp h
    obtain ⟨s', h1, h2, h3⟩ := option_closed (vn := SVal.none) (inParens_paren h (fun t ht => (hx ▸ (tyLang_reads hx _ _ _ _ _ ht).toT : ReadsT x m x.unwrapVariantNewtypes _ t v).bind_pure SVal.some)
        fun t ht => (tyLang_reads hx _ _ _ _ _ ht).1) hl d r hp (by simpa using hd)
    exact ⟨.some v, s', h1, h2, h3⟩
  | @implicit f n T p u r hi hb hu h ih =>
    intro d hp hd
    obtain ⟨s1, a1, a2, a3⟩ := option_bareAt hi hb hu hp.exts hd
    have hp1 := hp.keep a2
    obtain ⟨v, s', h1, h2, h3⟩ := ih { s1 with limit := s1.limit.map (· - 1) } hp1.lower a1
    obtain ⟨e1, e2⟩ := deGuardR_ok (f := do let a ← deTy D f T; pure (SVal.some a)) (a := SVal.some v) (s' := s') hp1.budget (by simp only [bind_apply, h1, pure_apply]) h3
    refine ⟨.some v, { s' with limit := s1.limit }, ?_, h2, a2.trans e2⟩
    simp only [deTy]
    rw [a3]
    exact e1
  | @unwrapped f n name u r T hu h ih =>
    intro d hp hd
    let d1 : St := { d with nv := false }
    have hp1 : Pre x (n + 1) d1 := ⟨rfl, hp.exts, hp.budget⟩
    obtain ⟨v, s', h1, h2, h3⟩ := ih { d1 with limit := d1.limit.map (· - 1) } hp1.lower hd
    obtain ⟨e1, e2⟩ := deGuardR_ok hp1.budget h1 h3
    refine ⟨.newtypeStruct name v, { s' with limit := d1.limit }, ?_, h2, (KeepsD.clear d).trans e2⟩
    have hu' : d.exts.unwrapNewtypes = true := by rw [hp.exts]; exact hu
    simp only [deTy, deNewtype, bind_apply, getSt_apply, hu', Bool.true_or, ↓reduceIte, setNv_apply]
    rw [e1]
    rfl

theorem itemAt_runs {D : Nat → Ty} {x : Exts} (hx : x.unwrapVariantNewtypes = false) {f : Nat} {T : Ty} {n : Nat} {u q : Text} (h : ItemAt D x f T n u q) :
    RunsAt x n (deTy D f T) u q := by
  cases h with
  | delim h hl hq =>
    refine ⟨(halts_stop.mp hq).noLayout, fun d hp hd => ?_⟩
    obtain ⟨s', l', h1, h2, h3, h4⟩ := (tyLang_reads hx _ _ _ _ _ h).2 d _ q hp hd hl (halts_stop.mp hq)
    exact ⟨_, s', l', h1, h2, h3, h4⟩
  | whole h hl hq =>
    refine ⟨hq, fun d hp hd => ?_⟩
    obtain ⟨v, s', h1, h2, h3⟩ := wholeAt_runs hx h d hp hd
    exact ⟨v, s', _, h1, h2, hl, h3⟩

/-- What is not the name of the struct. -/
theorem badName_errs {x : Exts} {name u r : Text} {e : Err} (h : BadName x name u e r) {d : St} (hx : d.exts = x) (hd : d.rest = u) :
    ErrsAt (consumeStructName name) d e r := by
  cases h with
  | missing he hn =>
    have hc : checkIdent [] d = .ok true d := checkIdent_true (r := u) (by simpa using hd) hn
    refine ⟨d, ?_, hd, rfl⟩
    unfold consumeStructName
    simp only [bind_apply, hc, ↓reduceIte, getSt_apply, hx, he, fail_apply]
  | @other id tok z hne ht hid hz =>
    obtain ⟨s', h1, h2, h3⟩ := ht.readsAt hz hd
    have hc : checkIdent [] d = .ok false d := checkIdent_false (.inr (by simpa [hd] using ht.head r))
    have hne' : name.isEmpty = false := by simpa using hne
    refine ⟨s', ?_, h2, h3.toD.src⟩
    unfold consumeStructName
    simp only [bind_apply, hc, Bool.false_eq_true, ↓reduceIte, attempt_apply, h1, hne', ne_eq, hid, not_false_eq_true, fail_apply]
  | @unnamed id tok z hne ht hz =>
    subst hne
    obtain ⟨s', h1, h2, h3⟩ := ht.readsAt hz hd
    have hc : checkIdent [] d = .ok false d := checkIdent_false (.inr (by simpa [hd] using ht.head r))
    refine ⟨s', ?_, h2, h3.toD.src⟩
    unfold consumeStructName
    simp only [bind_apply, hc, Bool.false_eq_true, ↓reduceIte, attempt_apply, h1, List.isEmpty_nil, fail_apply]
  | @raw w z h1 h2 h3 hz =>
    have hi := identifier_suggest h1 h2 hz hd
    have hc : checkIdent [] d = .ok false d := by
      refine checkIdent_false (.inr ?_)
      cases w with
      | nil => exact absurd rfl h1.1
      | cons c w =>
        rw [hd]
        cases hx : Env.xidCont c with
        | true => exact hx
        | false => exact absurd (fun c' r' e => by cases e; exact hx) h3
    refine ⟨d, ?_, hd, rfl⟩
    unfold consumeStructName
    simp only [bind_apply, hc, Bool.false_eq_true, ↓reduceIte, attempt_apply, hi]
    by_cases hw : w = name
    · subst hw; simp only [↓reduceIte, fail_apply]
    · simp only [hw, ↓reduceIte, fail_apply]
  | noWord h =>
    have hc : checkIdent [] d = .ok false d := checkIdent_false (.inr (by simpa [hd] using h.head))
    obtain ⟨s', h1, h2, h3⟩ := identifier_noWord h hd
    refine ⟨s', ?_, h2, h3⟩
    unfold consumeStructName
    simp only [bind_apply, hc, Bool.false_eq_true, ↓reduceIte, attempt_apply, h1, fail_apply]

/-- The same where the type is read. -/
theorem named_errs {D : Nat → Ty} {x : Exts} {f n : Nat} {name u r : Text} {T : Ty} {e : Err} (hT : Named x name u T) (h : BadName x name u e r) :
    ErrsD x n (deTy D (f + 1) T) u e r := by
  intro d hp hd
  obtain ⟨s', h1, h2, h3⟩ := badName_errs h hp.exts hd
  refine ⟨s', ?_, h2, h3⟩
  cases hT with
  | struct hr => simp only [deTy, deStruct, bind_apply, rangeStruct_noHead (s := d) (by rw [hd]; exact hr), getSt_apply, hp.nv, Bool.not_false, ↓reduceIte, h1]
  | newtype hu => simp only [deTy, deNewtype, bind_apply, getSt_apply, hp.nv, hp.exts, hu, Bool.or_self, Bool.false_eq_true, ↓reduceIte, h1]
  | tupleStruct => simp only [deTy, deTupleStruct, bind_apply, getSt_apply, hp.nv, Bool.not_false, ↓reduceIte, h1]

/-- Neither a name nor a parenthesis. -/
theorem nameless_errs {D : Nat → Ty} {x : Exts} {f n : Nat} {name u : Text} {T : Ty} (hT : Named x name u T) (he : x.explicitStructNames = false)
    (hi : NoIdentStart u) (hl : NoLayoutStart u) (hq : u.head? ≠ some '(') : ErrsD x n (deTy D (f + 1) T) u (wantStruct name) u := by
  intro d hp hd
  have hc : checkIdent [] d = .ok true d := checkIdent_true (r := u) (by simpa using hd) hi
  have h1 : consumeStructName name d = .ok false d := by
    unfold consumeStructName
    simp only [bind_apply, hc, ↓reduceIte, getSt_apply, hp.exts, he, Bool.false_eq_true, pure_apply]
  obtain ⟨s1, g1, g2, g3⟩ := skipWs_tok (l := []) (by simpa using hd) .nil hl
  cases hT with
  | @struct deny fields hr =>
    refine ErrsAt.keepB (structAfterName_bad (name := name) (visit := visitStruct (deTy D f) (fieldOf D f) deny fields) (hp.keep g3).nv g2 hq) g3.src fun s' h => ?_
    simp only [deTy, deStruct, bind_apply, rangeStruct_noHead (s := d) (by rw [hd]; exact hr), getSt_apply, hp.nv, Bool.not_false, ↓reduceIte, h1, g1, h]
  | newtype hu =>
    have e0 : consumeChar '(' s1 = .ok false s1 := consumeChar_false (by rw [g2]; exact head_start hq)
    refine ⟨s1, ?_, g2, g3.src⟩
    simp only [deTy, deNewtype, bind_apply, getSt_apply, hp.exts, hu, hp.nv, Bool.or_self, Bool.false_eq_true, ↓reduceIte, h1, g1, e0, wantStruct_eq]
    cases name <;> rfl
  | tupleStruct =>
    have e0 : consumeChar '(' d = .ok false d := consumeChar_false (by rw [hd]; exact head_start hq)
    refine ⟨d, ?_, hd, rfl⟩
    simp only [deTy, deTupleStruct, deTuple, bind_apply, getSt_apply, hp.nv, Bool.not_false, ↓reduceIte, h1, mapErr_apply, e0, Bool.false_eq_true, fail_apply,
      wantStruct_eq]
    cases name <;> rfl

/-- Bytes as a list. -/
theorem byteList_errs {D : Nat → Ty} {x : Exts} {f : Nat} (hB : ∀ n u e r, BadTy D x f (.int .u8) n u e r → ErrsD x n (deTy D f (.int .u8)) u e r)
    (hI : ∀ n u q, ItemAt D x f (.int .u8) n u q → RunsAt x n (deTy D f (.int .u8)) u q) {n : Nat} {u r : Text} {e : Err}
    (h : BadSeq (fun _ t (b : UInt8) => IntTok .u8 t b.toNat) (ItemAt D x f (.int .u8)) (BadTy D x f (.int .u8)) n ('[' :: u) e r) :
    ErrsD x n deBytes ('[' :: u) e r := by
  have ha : IntTy.u8.Avail := by rintro (h | h) <;> cases h
  have hs := badSeq_errs (x := x) (seed := (do let (_, v) ← integer (.one .u8); pure (UInt8.ofNat v.toNat) : P UInt8))
    (fun n t v h => by
      have := (int_tok_reads (x := x) h).bind_pure (fun p : IntTy × Int => UInt8.ofNat p.2.toNat)
      have e : UInt8.ofNat ((v.toNat : Int).toNat) = v := by simp
      simp only [e] at this
      exact this.reads.mono (Nat.zero_le _))
    (fun n u q h => by
      cases f with
      | zero =>
        refine ⟨(hI n u q h).1, fun d hp hd => ?_⟩
        obtain ⟨_, _, _, g, -⟩ := (hI n u q h).2 d hp hd
        cases g
      | succ f =>
        obtain ⟨h1, h2⟩ := hI n u q h
        refine ⟨h1, fun d hp hd => ?_⟩
        obtain ⟨v, s', l, g1, g2⟩ := h2 d hp hd
        simp only [deTy, deInt_avail ha, bind_apply] at g1
        cases hi : integer (.one .u8) d with
        | err e s => rw [hi] at g1; cases g1
        | ok a s =>
          rw [hi] at g1
          cases g1
          exact ⟨_, _, l, by simp only [bind_apply, hi]; rfl, g2⟩)
    (fun n u e r h => by
      cases f with
      | zero => exact h.elim
      | succ f =>
        intro d hp hd
        obtain ⟨s', g1, g2⟩ := hB n u e r h d hp hd
        simp only [deTy, deInt_avail ha, bind_apply] at g1
        cases hi : integer (.one .u8) d with
        | ok a s => rw [hi] at g1; cases g1
        | err e s =>
          rw [hi] at g1
          cases g1
          exact ⟨_, by simp only [bind_apply, hi], g2⟩) h
  intro d hp hd
  refine (hs d hp hd).imp fun s' h => ⟨?_, h.2⟩
  have : startsWith d.rest ['['] = true := by rw [hd]; simp
  simp only [deBytes, bind_apply, checkChar_apply, this, ↓reduceIte]
  exact h.1

/-- Every text that is no text of the type is rejected: with this error, at this place. -/
theorem badTy_errs {D : Nat → Ty} {x : Exts} (hx : x.unwrapVariantNewtypes = false) : ∀ (f : Nat) (T : Ty) (n : Nat) (u : Text) (e : Err) (r : Text),
    BadTy D x f T n u e r → ErrsD x n (deTy D f T) u e r
  | 0, _, _, _, _, _, h => h.elim
  | f + 1, T, n, u, e, r, h => by
    have hB : ∀ T n u e r, BadTy D x f T n u e r → ErrsD x n (deTy D f T) u e r := badTy_errs hx f
    have hL : ∀ T n w v, TyLang D x f T n w v → Reads x n (deTy D f T) w v := tyLang_reads hx f
    have hI : ∀ T n u q, ItemAt D x f T n u q → RunsAt x n (deTy D f T) u q := fun T n u q => itemAt_runs hx
    replace h : BadLevel x (TyLang D x f) (ItemAt D x f) (BadTy D x f) D (Optional D f) (NumAs D f) (NoNumber D f) T n u e r := h
    cases h with
    | bool h1 h2 =>
      intro d hp hd
      refine ⟨d, ?_, hd, rfl⟩
      have e1 : consumeIdent c!"true" d = .ok false d := by
        rcases consumeIdent_cases c!"true" d with ⟨u, g1, g2, -⟩ | ⟨-, g⟩
        · exact absurd ⟨u, hd ▸ g1, g2⟩ h1
        · exact g
      have e2 : consumeIdent c!"false" d = .ok false d := by
        rcases consumeIdent_cases c!"false" d with ⟨u, g1, g2, -⟩ | ⟨-, g⟩
        · exact absurd ⟨u, hd ▸ g1, g2⟩ h2
        · exact g
      simp only [deTy, Ron.bool, bind_apply, e1, e2, Bool.false_eq_true, ↓reduceIte, fail_apply]
    | int ha hb h =>
      intro d hp hd
      simp only [deTy, deInt_avail ha]
      exact ErrsAt.bind (integer_badInt hd hb h).errsAt
    | byte ha h =>
      intro d hp hd
      simp only [deTy, deInt_avail ha]
      exact ErrsAt.bind (integer_bad hd h).errsAt
    | otherByte ha hne h =>
      intro d hp hd
      simp only [deTy, deInt_avail ha]
      exact ErrsAt.bind (byteLit_errs hne hd h)
    | f32 h => intro d hp hd; exact ErrsAt.bind (float_bad hd h).errsAt
    | f64 h => intro d hp hd; exact ErrsAt.bind (float_bad hd h).errsAt
    | char h => intro d hp hd; exact ErrsAt.bind (charLit_bad hd h).errsAt
    | str h => intro d hp hd; exact ErrsAt.bind (string_bad hd h).errsAt
    | bytes hb h =>
      intro d hp hd
      refine ErrsAt.bind ((byteString_bad hd h).errsAt.keepB rfl fun s' h => ?_)
      have e1 : checkChar '[' d = .ok false d := by
        show Res.ok (startsWith d.rest ['[']) d = _
        rw [hd, head_start hb]
      simp only [deBytes, bind_apply, e1, Bool.false_eq_true, ↓reduceIte, h]
    | byteList h => exact ErrsD.bind (byteList_errs (hB _) (hI _) h)
    | unit h =>
      intro d hp hd
      refine ⟨d, ?_, hd, rfl⟩
      have e1 : consumeStr c!"()" d = .ok false d := by
        rw [consumeStr_apply, hd]
        cases hs : startsWith u c!"()" with
        | false => rfl
        | true => rw [startsWith_iff] at hs; obtain ⟨r, rfl⟩ := hs; exact absurd rfl (h r)
      simp only [deTy, deUnit, bind_apply, getSt_apply, hp.nv, e1, Bool.false_eq_true, ↓reduceIte, fail_apply]
    | seq h => exact ErrsD.bind (badSeq_errs (hL _) (hI _) (hB _) h)
    | tupleOpening h =>
      intro d hp hd
      have e0 : consumeChar '(' d = .ok false d := consumeChar_false (by rw [hd]; exact head_start h)
      refine ⟨d, ?_, hd, rfl⟩
      simp only [deTy, deTuple, bind_apply, getSt_apply, hp.nv, e0, Bool.false_eq_true, ↓reduceIte, fail_apply]
    | tuple h => exact ErrsD.bind (badTuple_errs hL hI hB h)
    | @tupleStruct _ name p u r Ts e hn h =>
      intro d hp hd
      obtain ⟨w, rfl⟩ := badTuple_open h
      have key : ∃ b s', consumeStructName name d = .ok b s' ∧ s'.rest = '(' :: w ∧ KeepsD d s' := by
        rcases hn with ⟨he, rfl⟩ | hn
        · exact ⟨false, d, structName_none (u := w) (hp.exts ▸ he) (by simpa using hd), by simpa using hd, .refl _⟩
        · obtain ⟨s', g1, g2, g3⟩ := structKey_some (r := '(' :: w) hn (parenOpen_follow _) (by simpa using hd)
          exact ⟨true, s', g1, g2, g3⟩
      obtain ⟨b, s1, h1, h2, h3⟩ := key
      obtain ⟨s2, g1, g2, g3⟩ := badTuple_errs hL hI hB h s1 (hp.keep h3) h2
      refine ⟨s2, ?_, g2, g3.trans h3.src⟩
      simp only [deTy, deTupleStruct, bind_apply, getSt_apply, hp.nv, Bool.not_false, ↓reduceIte, h1, mapErr_apply, g1]
      simp [Err.inTupleStruct]
    | map h => exact ErrsD.bind (badMap_errs (hL _) (hL _) (hI _) (hI _) (hB _) (hB _) h)
    | noOption hi h1 h2 =>
      intro d hp hd
      refine ⟨d, ?_, hd, rfl⟩
      have e1 : consumeIdent c!"None" d = .ok false d := by
        rcases consumeIdent_cases c!"None" d with ⟨u, g1, g2, -⟩ | ⟨-, g⟩
        · exact absurd ⟨u, hd ▸ g1, g2⟩ h1
        · exact g
      have e2 : consumeIdent c!"Some" d = .ok false d := by
        rcases consumeIdent_cases c!"Some" d with ⟨u, g1, g2, -⟩ | ⟨-, g⟩
        · exact absurd ⟨u, hd ▸ g1, g2⟩ h2
        · exact g
      simp only [deTy, deOption, bind_apply, e1, e2, Bool.false_eq_true, ↓reduceIte, pure_apply, getSt_apply, hp.exts, hi, fail_apply]
    | @someOpening _ T l u hi hl hfol hu hq =>
      intro d hp hd
      have e1 : consumeIdent c!"None" d = .ok false d :=
        consumeIdent_false (by rw [hd]; exact keyword_other (by simp [reservedNames]) (by simp [reservedNames]) hfol (by decide))
      have e2 := consumeIdent_true hd hfol
      obtain ⟨s1, g1, g2, g3⟩ := skipWs_tok (d := { d with prev := d.rest, rest := l ++ r }) rfl hl hu
      have e3 : consumeChar '(' s1 = .ok false s1 := consumeChar_false (by rw [g2]; exact head_start hq)
      have hi' : s1.exts.implicitSome = false := by rw [g3.exts]; show d.exts.implicitSome = false; rw [hp.exts]; exact hi
      refine ⟨s1, ?_, g2, g3.src⟩
      simp only [deTy, deOption, bind_apply, e1, e2, g1, e3, Bool.false_eq_true, ↓reduceIte, pure_apply, getSt_apply, hi', fail_apply]
    | @some _ T l u r e hl h =>
      refine badSome_errs hx (L := fun n t v => ∃ w, TyLang D x f T n t w ∧ v = .some w) (I := ItemAt D x f T) (B := BadTy D x f T) (fun n t v h => ?_) (fun n u q h => ?_)
        (fun n u e r h => ?_) hl ?_
      · obtain ⟨w, h, rfl⟩ := h
        exact (hL _ _ _ _ h).bind_pure SVal.some
      · refine ⟨(hI _ _ _ _ h).1, fun d hp hd => ?_⟩
        obtain ⟨v, s', l', h1, h2⟩ := (hI _ _ _ _ h).2 d hp hd
        exact ⟨.some v, s', l', by simp only [bind_apply, h1, pure_apply], h2⟩
      · exact ErrsD.bind (hB _ _ _ _ _ h)
      · cases h with
        | item h1 h2 h3 => exact .item h1 h2 h3
        | close h1 h2 h3 h4 => exact .close h1 h2 h3 h4
        | more h1 h2 h3 h4 h5 => exact .more h1 ⟨_, h2, rfl⟩ h3 h4 h5
    | @implicit _ T p u r e hi hb hu h =>
      intro d hp hd
      obtain ⟨s1, a1, a2, a3⟩ := option_bareAt hi hb hu hp.exts hd
      refine ErrsAt.keepB ((ErrsD.bind (g := fun a => pure (SVal.some a)) (hB _ _ _ _ _ h)).guardR s1 (hp.keep a2) a1) a2.src fun s' h => ?_
      simp only [deTy]
      rw [a3]
      exact h
    | @newtypeOpening _ name tok l u T hun ht hz hl hu hq =>
      intro d hp hd
      obtain ⟨s0, h1, h2, h3⟩ := structKey_someAt ht hz hd
      obtain ⟨s1, g1, g2, g3⟩ := skipWs_tok h2 hl hu
      have e0 : consumeChar '(' s1 = .ok false s1 := consumeChar_false (by rw [g2]; exact head_start hq)
      refine ⟨s1, ?_, g2, (h3.trans g3).src⟩
      simp only [deTy, deNewtype, bind_apply, getSt_apply, hp.exts, hun, hp.nv, Bool.or_self, Bool.false_eq_true, ↓reduceIte, h1, g1, e0, wantStruct_eq]
      cases name <;> rfl
    | newtype hun hn h => exact ErrsD.bind (badNewtype_errs hun (hL _) (hI _) (hB _) hn h)
    | @unwrapped n name u r T e hun h =>
      refine ErrsD.bind fun d hp hd => ?_
      have e1 : ({ d with nv := false } : St) = d := nv_same hp.nv
      obtain ⟨s', h1, h2, h3⟩ := (hB _ _ _ _ _ h).guardR d hp hd
      refine ⟨s', ?_, h2, h3⟩
      simp only [deNewtype, bind_apply, getSt_apply, hp.exts, hun, Bool.true_or, ↓reduceIte, setNv_apply]
      rw [← hp.exts, e1, h1]
    | @range _ name u r deny fields e h =>
      intro d hp hd
      obtain ⟨s', h1, h2, h3⟩ := badRange_errs hd h
      refine ⟨s', ?_, h2, h3.toD.src⟩
      simp only [deTy, deStruct, bind_apply, h1]
    | @bound _ name u r deny fields es h hb =>
      intro d hp hd
      obtain ⟨s', h1, h2, h3⟩ := rangeAt_read (s := d) (hd ▸ h)
      refine ⟨s', ?_, h2, h3.toD.src⟩
      simp only [deTy, deStruct, bind_apply, hb.1, h1, noBound_visit h hb]
      rfl
    | @structOpening n name tok l u deny fields ht hz hl hu hr hq =>
      intro d hp hd
      have h0 := rangeStruct_noHead (s := d) (by rw [hd]; exact hr)
      obtain ⟨s0, h1, h2, h3⟩ := structKey_someAt ht hz hd
      obtain ⟨s1, g1, g2, g3⟩ := skipWs_tok h2 hl hu
      refine ErrsAt.keepB (structAfterName_bad (name := name) (visit := visitStruct (deTy D f) (fieldOf D f) deny fields) (hp.keep (h3.trans g3)).nv g2 hq) (h3.trans g3).src fun s' h => ?_
      simp only [deTy, deStruct, bind_apply, h0, getSt_apply, hp.nv, Bool.not_false, ↓reduceIte, h1, g1, h]
    | struct hn h => exact badStruct_errs hx hL hI hB hn h
    | name hT h => exact named_errs hT h
    | nameless hT he hi hl hq => exact nameless_errs hT he hi hl hq
    | unitStructName hr h =>
      refine ErrsD.bind fun d hp hd => ?_
      have hr := notFull hr hd
      obtain ⟨s', h1, h2, h3⟩ := badName_errs h hp.exts hd
      refine ⟨s', ?_, h2, h3⟩
      simp only [deUnitStruct, bind_apply, hr, ↓reduceIte, pure_apply, Bool.false_eq_true, getSt_apply, hp.nv, h1]
    | @unitStruct _ name u hr he hi h =>
      refine ErrsD.bind fun d hp hd => ?_
      have hr := notFull hr hd
      refine ⟨d, ?_, hd, rfl⟩
      have hc : checkIdent [] d = .ok true d := checkIdent_true (r := u) (by simpa using hd) hi
      have h1 : consumeStructName name d = .ok false d := by
        unfold consumeStructName
        simp only [bind_apply, hc, ↓reduceIte, getSt_apply, hp.exts, he, Bool.false_eq_true, pure_apply]
      have e1 : consumeStr c!"()" d = .ok false d := by
        rw [consumeStr_apply, hd]
        cases hs : startsWith u c!"()" with
        | false => rfl
        | true => rw [startsWith_iff] at hs; obtain ⟨r, rfl⟩ := hs; exact absurd rfl (h r)
      simp only [deUnitStruct, bind_apply, hr, ↓reduceIte, pure_apply, Bool.false_eq_true, getSt_apply, hp.nv, h1, deUnit, e1, fail_apply]
    | @tupleStructOpening _ name tok z Ts ht hz hq =>
      intro d hp hd
      obtain ⟨s0, h1, h2, h3⟩ := structKey_someAt ht hz hd
      have e0 : consumeChar '(' s0 = .ok false s0 := consumeChar_false (by rw [h2]; exact head_start hq)
      refine ⟨s0, ?_, h2, h3.src⟩
      simp only [deTy, deTupleStruct, deTuple, bind_apply, getSt_apply, hp.nv, (hp.keep h3).nv, Bool.not_false, ↓reduceIte, h1, mapErr_apply, e0, Bool.false_eq_true, fail_apply,
        wantStruct_eq]
      cases name <;> rfl
    | word hw hl => exact badWordEnum_errs hw hl
    | variant ht hf hz => exact badVariant_errs ht hf hz
    | data ht hf hz hl hu h =>
      exact badEnum_errs ht hf hz fun d hp hd hi => badData_errs hx hL hI hB hl hu h hp hd hi
    | ref h => exact hB _ _ _ _ _ h

end Ron
