import Verif.Lemmas.TyLangReads
import Verif.Lemmas.TyLangDoc
import Verif.Spec.Closed
/-!
Texts that show where they end are read whatever follows them.
-/

set_option linter.unusedSimpArgs false

namespace Ron

variable [Env]

/-- `seed` reads the text `t` as `v` whatever follows. -/
def ReadsC {α : Type} (x : Exts) (k : Nat) (seed : P α) (t : Text) (v : α) : Prop :=
  ∀ d r, Pre x k d → d.rest = t ++ r → ∃ s', seed d = .ok v s' ∧ s'.rest = r ∧ KeepsD d s'

section
variable {x : Exts} {rec : Ty → P SVal} {R : Ty → Nat → Text → SVal → Prop}

omit [Env] in
theorem ReadsC.mono {α : Type} {k k' : Nat} {seed : P α} {t : Text} {v : α} (h : ReadsC x k seed t v) (hk : k ≤ k') : ReadsC x k' seed t v :=
  fun d r hp => h d r (hp.mono hk)

omit [Env] in
theorem ReadsC.bind_pure {α β : Type} {k : Nat} {seed : P α} {t : Text} {v : α} (h : ReadsC x k seed t v) (g : α → β) :
    ReadsC x k (do let a ← seed; pure (g a)) t (g v) := by
  intro d r hp hd
  obtain ⟨s', h1, h2, h3⟩ := h d r hp hd
  exact ⟨s', by simp only [bind_apply, h1, pure_apply], h2, h3⟩

omit [Env] in
theorem readsC_tok {α : Type} {seed : P α} {t : Text} {v : α} (h : ∀ d r, d.rest = t ++ r → RunsW seed d v r) : ReadsC x 0 seed t v := by
  intro d r _ hd
  obtain ⟨s', h1, h2, h3⟩ := h d r hd
  exact ⟨s', h1, h2, h3.toD⟩

omit [Env] in
theorem seqText_closed {α : Type} {seed : P α} {L : Nat → Text → α → Prop} (ih : ∀ n t v, L n t v → Reads x n seed t v) {n : Nat} {w : Text} {vs : List α}
    (h : SeqText L n w vs) : ReadsC x n (deSeq (readSeq ']' seed)) w vs := by
  cases n with
  | zero => exact h.elim
  | succ n =>
    obtain ⟨ts, hd, h2⟩ := h
    obtain ⟨h3, h4⟩ := deeper_all2 (R := fun m t v => Reads x m seed t v) (All2.imp (fun t v h => by
      obtain ⟨m, e, h⟩ := deeper_iff.mp h; exact ⟨m, e, ih _ _ _ h⟩) h2)
    refine ReadsC.mono (fun d r hp hd' => ?_) (Nat.succ_le_succ h3)
    obtain ⟨w', rfl, hi⟩ := delim_inner hd
    obtain ⟨s', g1, g2, g3, -⟩ := deSeq_ok (r := r) hp.exts hp.budget (by simpa using hd') fun d' hp' hd' => readSeq_inner (by simp) hi h4 hp' hd'
    exact ⟨s', g1, g2, g3⟩

omit [Env] in
theorem mapText_closed {fk fv : P SVal} {K V : Nat → Text → SVal → Prop} (ihk : ∀ n t v, K n t v → Reads x n fk t v)
    (ihv : ∀ n t v, V n t v → Reads x n fv t v) {n : Nat} {w : Text} {es : List (SVal × SVal)} (h : MapText K V n w es) :
    ReadsC x n (deMap (readMap '}' fk fv)) w es := by
  cases n with
  | zero => exact h.elim
  | succ n =>
    obtain ⟨ts, hd, h2⟩ := h
    obtain ⟨h3, h4⟩ := deeper_all2 (n := n) (R := fun m t e => ReadsEntry x m fk fv t e) (All2.imp (fun t v ⟨k, u, h1, h2, h3⟩ => by
      obtain ⟨m, rfl, h1⟩ := deeper_iff.mp h1
      exact ⟨m, rfl, k, u, ihk _ _ _ h1, ihv _ _ _ h2, h3⟩) h2)
    refine ReadsC.mono (fun d r hp hd' => ?_) (Nat.succ_le_succ h3)
    obtain ⟨w', rfl, hi⟩ := delim_inner hd
    obtain ⟨s', g1, g2, g3, -⟩ := deMap_ok (r := r) hp.exts hp.budget (by simpa using hd') fun d' hp' hd' => readMap_inner (by simp) hi h4 hp' hd'
    exact ⟨s', g1, g2, g3⟩

omit [Env] in
theorem tupleText_closed {ex : Text} (ih : ∀ T n t v, R T n t v → Reads x n (rec T) t v) {n : Nat} {Ts : List Ty} {w : Text} {vs : List SVal}
    (h : TupleText R Ts n w vs) : ReadsC x n (deTuple (tupleLoop ex (Ts.map rec) 0 true)) w vs ∧ ∃ w', w = '(' :: w' := by
  cases n with
  | zero => exact h.elim
  | succ n =>
    obtain ⟨ts, hd, h2⟩ := h
    obtain ⟨h3, h4⟩ := reads3_all3 (x := x) (rec := rec) n (all3_imp (fun T t v h => by
      obtain ⟨m, e, h⟩ := deeper_iff.mp h; exact ⟨m, e, ih _ _ _ _ h⟩) h2)
    obtain ⟨w', rfl, hi⟩ := delim_inner hd
    refine ⟨ReadsC.mono (fun d r hp hd' => ?_) (Nat.succ_le_succ h3), w', rfl⟩
    exact deTuple_ok (r := r) hp (by simpa using hd') fun d' hp' hd' => tupleLoop_inner ex hi (i := 0) h4 hp' hd'

theorem tupleStruct_closed {k : Nat} {name p w : Text} {α : Type} {visit : P α} {v : α} (hn : NameTight x name p)
    {w' : Text} (hw : w = '(' :: w') (h : ReadsC x k (deTuple visit) w v) : ReadsC x k (deTupleStruct name visit) (p ++ w) v := by
  subst hw
  intro d r hp hd
  have key : ∃ b s', consumeStructName name d = .ok b s' ∧ s'.rest = '(' :: w' ++ r ∧ KeepsD d s' := by
    rcases hn with ⟨he, rfl⟩ | hn
    · exact ⟨false, d, structName_none (u := w' ++ r) (hp.exts ▸ he) (by simpa using hd), by simpa using hd, .refl _⟩
    · obtain ⟨s', g1, g2, g3⟩ := structKey_some (r := '(' :: (w' ++ r)) hn (parenOpen_follow _) (by simpa using hd)
      exact ⟨true, s', g1, g2, g3⟩
  obtain ⟨b, s', h1, h2, h3⟩ := key
  obtain ⟨s2, g1, g2, g4⟩ := h s' r (hp.keep h3) h2
  refine ⟨s2, ?_, g2, h3.trans g4⟩
  unfold deTupleStruct
  simp only [bind_apply, getSt_apply, hp.nv, Bool.not_false, ↓reduceIte, h1, mapErr_apply, g1]

theorem struct_closed {k : Nat} {isOption : Ty → Bool} {conv : Ty → Number → Except Err SVal} {name p q : Text}
    {deny : Bool} {fields : List (Text × Ty)} {es : List Text} {gs : List (Option (Text × SVal))} {fs : List (Text × SVal)}
    (hp : NamePre x name p) (hw : Delim '(' ')' es q) (h2 : All2 (KeyText x k rec deny fields) es gs) (hn : (keysOf gs).Nodup)
    (hc : collectFields isOption (gotOf gs fun _ => none) fields = .ok fs) :
    ReadsC x ((if es = [] then 0 else k + 1) + 1) (deStruct rec isOption conv name deny fields) (p ++ q) (.struct name fs) := by
  obtain ⟨w', rfl, hi⟩ := delim_inner hw
  intro d r hpre hd
  have hd' : d.rest = p ++ '(' :: (w' ++ r) := by rw [hd]; simp
  have h0 := rangeKey_none hp hd' (fields.map Prod.fst)
  obtain ⟨b0, s0, g1, ⟨l0, g2, g3⟩, g4⟩ := structKey_opt hp hpre.exts hd'
  obtain ⟨s1, a1, a2, a3⟩ := skipWs_tok g3 g2 (noLayout_paren _)
  obtain ⟨s2, b1, b2, b3⟩ := structAfterName_ok name (hpre.keep (g4.trans a3)) a2 fun d' hp' hd' => by
    obtain ⟨s', c1, c2, c3⟩ := visitStruct_keys hi h2 hn hc hp' hd'
    exact ⟨s', [], c1, c2, .nil, c3⟩
  refine ⟨s2, ?_, b2, (g4.trans a3).trans b3⟩
  unfold deStruct
  simp only [bind_apply, h0, getSt_apply, hpre.nv, Bool.not_false, ↓reduceIte, g1, a1, b1, pure_apply]

theorem newtype_closed {k : Nat} {α : Type} {v : α} {visit : P α} {p q name : Text} (hp : NamePre x name p)
    (h : Paren (fun t => Reads x k visit t v) q) (hu : x.unwrapNewtypes = false) :
    ReadsC x (k + 1) (deNewtype name visit) (p ++ q) v := by
  obtain ⟨a, t, b, ha, ht, hb, rfl⟩ := h
  intro d r hpre hd
  obtain ⟨b0, s0, h1, ⟨l, hl, h2⟩, h3⟩ := structKey_opt (d := d) (u := a ++ (t ++ (b ++ ')' :: r))) hp hpre.exts
    (by rw [hd]; simp)
  obtain ⟨s1, g1, g2, g3⟩ := skipWs_tok h2 hl (noLayout_paren _)
  have g4 := consumeChar_true g2
  have hk0 : KeepsD d { s1 with prev := s1.rest, rest := a ++ (t ++ (b ++ ')' :: r)) } := (h3.trans g3).trans (KeepsD.step s1 _ _)
  obtain ⟨s2, s3, c, s4, k1, kk, k2, kn, k3, k4, k5, k6⟩ := content_ok ht.toT ha hb (hk0.exts.trans hpre.exts) (hpre.budget.keep hk0) rfl
  have e2 : { s2 with nv := false } = s2 := by
    have : s2.nv = false := kk.nv (hk0.nv hpre.nv)
    rw [← this]
  have e3 : { s3 with nv := false } = s3 := by
    have : s3.nv = false := kn rfl
    rw [← this]
  rw [e2] at k2
  rw [e3] at k3
  have g5 := consumeChar_true k4
  refine ⟨_, ?_, rfl, (hk0.trans k5).trans (KeepsD.step s4 s4.rest r)⟩
  unfold deNewtype
  simp only [bind_apply, getSt_apply, hpre.exts, hu, hpre.nv, Bool.or_self, Bool.false_eq_true, ↓reduceIte, h1, g1, g4, k1, k2, k3, g5,
    pure_apply]

theorem option_closed {k : Nat} {α : Type} {vn v : α} {visit : P α} {l p : Text}
    (h : Paren (fun t => ReadsT x k x.unwrapVariantNewtypes visit t v) p) (hl : Layout l) :
    ReadsC x (k + 1) (deOption vn visit) (c!"Some" ++ (l ++ p)) v := by
  obtain ⟨a, t, b, ha, ht, hb, rfl⟩ := h
  intro d r hp hd
  have hd' : d.rest = c!"Some" ++ (l ++ '(' :: (a ++ (t ++ (b ++ ')' :: r)))) := by rw [hd]; simp
  have hfol : NoIdentStart (l ++ '(' :: (a ++ (t ++ (b ++ ')' :: r)))) := (layout_follow hl (parenOpen_follow _)).xid
  have h0 : consumeIdent c!"None" d = .ok false d :=
    consumeIdent_false (by rw [hd']; exact keyword_other (by simp [reservedNames]) (by simp [reservedNames]) hfol (by decide))
  have h1 := consumeIdent_true hd' hfol
  obtain ⟨s1, g1, g2, g3⟩ := skipWs_tok (d := { d with prev := d.rest, rest := l ++ '(' :: (a ++ (t ++ (b ++ ')' :: r))) }) rfl hl
    (noLayout_paren _)
  have g4 := consumeChar_true g2
  have hk0 : KeepsD d { s1 with prev := s1.rest, rest := a ++ (t ++ (b ++ ')' :: r)) } :=
    ((KeepsD.step d _ _).trans g3).trans (KeepsD.step s1 _ _)
  obtain ⟨s2, s3, c, s4, k1, kk, k2, -, k3, k4, k5, k6⟩ := content_ok ht ha hb (hk0.exts.trans hp.exts) (hp.budget.keep hk0) rfl
  have he : s2.exts.unwrapVariantNewtypes = x.unwrapVariantNewtypes := by rw [kk.exts, hk0.exts, hp.exts]
  have g5 := consumeChar_true k4
  refine ⟨_, ?_, rfl, (hk0.trans k5).trans (KeepsD.step s4 s4.rest r)⟩
  unfold deOption
  simp only [bind_apply, h0, h1, ↓reduceIte, Bool.false_eq_true, g1, g4, k1, modSt_apply, he, k2, setNv_apply, k3, g5, pure_apply]

theorem enum_closed {k : Nat} {isOption : Ty → Bool} {name id tok w' : Text}
    {variants : List (Text × Variant)} {kd : Variant} {V : SVal} (hk : 1 ≤ k) (ht : KeyTok id tok)
    (hf : variants.find? (fun e => e.1 = id) = some (id, kd)) (hfol : ∀ r, IdentFollow (w' ++ r))
    (hdata : ReadsC x k (variantData rec isOption name id kd) w' V) :
    ReadsC x (k + 1) (deEnum name (visitEnum rec isOption name variants)) (tok ++ w') V := by
  intro d r hp hd
  let d1 : St := { d with nv := false }
  have hp1 : Pre x (k + 1) d1 := ⟨rfl, hp.exts, hp.budget⟩
  let d2 : St := { d1 with limit := d1.limit.map (· - 1) }
  have hp2 : Pre x k d2 := hp1.lower
  have hd2 : d2.rest = tok ++ (w' ++ r) := by show d.rest = _; rw [hd]; simp
  obtain ⟨s3, a1, a2, a3⟩ := skipWs_tok (d := d2) (l := []) (r := tok ++ (w' ++ r)) (by simpa using hd2) .nil
    (ht.tokStart.noLayout _)
  have hp3 := hp2.keep a3
  obtain ⟨k', rfl⟩ : ∃ k', k = k' + 1 := ⟨k - 1, by omega⟩
  obtain ⟨s4, b1, b2, b3⟩ := deIdentifier_runs (d := { s3 with limit := s3.limit.map (· - 1) }) ht (hfol r) a2
  have b4 := deGuardQ_ok (f := do
    let id ← deIdentifier
    match variants.find? (fun e => e.1 = id) with
    | some (_, k) => pure (id, k)
    | none => fail (.noSuchEnumVariant (variants.map Prod.fst) id none)) (a := (id, kd)) (s' := s4) hp3.budget
    (by simp only [bind_apply, b1, hf, pure_apply]) b3
  obtain ⟨s5, c1, c2, c4⟩ := hdata _ r (hp3.keep b4.2) b2
  have hv : visitEnum rec isOption name variants d2 = .ok V s5 := by
    unfold visitEnum
    rw [bind_apply, a1]
    refine (bind_eq (a := (id, kd)) (deGuardQ_ok hp3.budget ?_ b3).1).trans c1
    simp only [bind_apply, b1, hf, pure_apply]
  obtain ⟨e1, e2⟩ := deGuardR_ok hp1.budget hv ((a3.trans b4.2).trans c4)
  refine ⟨{ s5 with limit := d1.limit }, ?_, c2, (KeepsD.clear d).trans e2⟩
  unfold deEnum
  simp only [bind_apply, setNv_apply, mapErr_apply]
  rw [e1]

end

theorem bytes_closed {x : Exts} {n : Nat} {w : Text} {b : List UInt8}
    (h : BytesLit w b ∨ SeqText (fun _ t (b : UInt8) => IntTok .u8 t b.toNat) n w b) : ReadsC x n deBytes w b := by
  rcases h with h | h
  · refine ReadsC.mono (readsC_tok fun d r hd => ?_) (Nat.zero_le _)
    obtain ⟨s', h1, h2, h3⟩ := byteString_ok hd h
    obtain ⟨u, hu, -, -⟩ := h.form r
    refine ⟨s', ?_, h2, h3⟩
    unfold deBytes
    have : startsWith d.rest ['['] = false := by rw [hd, hu]; simp
    simp only [bind_apply, checkChar_apply, this, Bool.false_eq_true, ↓reduceIte, h1]
  · have hr := seqText_closed (x := x) (seed := (do let (_, v) ← integer (.one .u8); pure (UInt8.ofNat v.toNat) : P UInt8)) (fun n t v h => by
      have := (int_tok_reads (x := x) h).bind_pure (fun p : IntTy × Int => UInt8.ofNat p.2.toNat)
      have e : UInt8.ofNat ((v.toNat : Int).toNat) = v := by simp
      simp only [e] at this
      exact this.reads.mono (Nat.zero_le _)) h
    have hw : ∃ w', w = '[' :: w' := by
      cases n with
      | zero => exact h.elim
      | succ n =>
        obtain ⟨ts, hd, -⟩ := h
        obtain ⟨w', e, -⟩ := delim_inner hd
        exact ⟨w', e⟩
    obtain ⟨w', rfl⟩ := hw
    intro d r hp hd
    obtain ⟨s', h1, h2⟩ := hr d r hp hd
    refine ⟨s', ?_, h2⟩
    unfold deBytes
    have : startsWith d.rest ['['] = true := by rw [hd]; simp
    simp only [bind_apply, checkChar_apply, this, ↓reduceIte]
    exact h1

/-- Two texts that are read whatever follows: neither is the beginning of the other. -/
theorem closed_whole {x : Exts} {k k' : Nat} {seed : P SVal} {p s : Text} {v v' : SVal} (h : ReadsC x k seed p v) (h' : ReadsC x k' seed (p ++ s) v') :
    s = [] := by
  have hp : ∀ k, Pre x k { St.init (p ++ s) with exts := x } := fun k => ⟨rfl, rfl, fun m hm => by cases hm⟩
  obtain ⟨s1, e1, r1, -⟩ := h _ s (hp k) rfl
  obtain ⟨s2, e2, r2, -⟩ := h' _ [] (hp k') (by simp [St.init])
  rw [e1] at e2
  cases e2
  exact r1.symm.trans r2

/-- A text of such a type that is not one of the words is read whatever follows. -/
theorem tyLang_closed {D : Nat → Ty} {x : Exts} (hx : x.unwrapVariantNewtypes = false) {f : Nat} {T : Ty} (hc : Closed D x f T) :
    ∀ {n : Nat} {p : Text} {v : SVal}, TyLang D x f T n p v → p ≠ c!"true" → p ≠ c!"false" → p ≠ c!"None" → ReadsC x n (deTy D f T) p v := by
  induction hc with
  | bool =>
    intro n p v h h1 h2 _
    obtain ⟨b, rfl, -⟩ := h
    cases b
    · exact absurd rfl h2
    · exact absurd rfl h1
  | @unit f =>
    intro n p v h _ _ _
    obtain ⟨rfl, rfl⟩ := h
    intro d r hp hd
    have hc : consumeStr c!"()" d = .ok true { d with prev := d.rest, rest := d.rest.drop 2 } := consumeStr_true (by rw [hd]; simp)
    refine ⟨{ d with prev := d.rest, rest := d.rest.drop 2, nv := false }, ?_, by simp [hd], ⟨rfl, rfl, rfl, fun _ => rfl⟩⟩
    simp only [deTy, deUnit, bind_apply, getSt_apply, hp.nv, Bool.false_eq_true, ↓reduceIte, hc, setNv_apply, pure_apply]
  | @option f T hi =>
    intro n p v h _ _ h3
    rcases h with ⟨rfl, -⟩ | ⟨l, q, u, rfl, hl, h, rfl⟩ | ⟨hi', -⟩
    · exact absurd rfl h3
    · obtain ⟨m, rfl, h⟩ := deeper_iff.mp h
      exact option_closed (inParens_paren h (fun t ht => (hx ▸ (tyLang_reads hx _ _ _ _ _ ht).toT : ReadsT x m x.unwrapVariantNewtypes _ t u).bind_pure SVal.some)
        fun t ht => (tyLang_reads hx _ _ _ _ _ ht).1) hl
    · rw [hi] at hi'; cases hi'
  | @char f =>
    intro n p v h _ _ _
    have key : ∀ {n p v}, TyLang D x (f + 1) .char n p v → ReadsC x 0 (deTy D (f + 1) .char) p v := by
      rintro n p v ⟨c, h1, rfl⟩
      exact (readsC_tok fun d r hd => charLit_ok' hd h1).bind_pure SVal.char
    exact (key h).mono (by omega)
  | @str f =>
    intro n p v h _ _ _
    have key : ∀ {n p v}, TyLang D x (f + 1) .str n p v → ReadsC x 0 (deTy D (f + 1) .str) p v := by
      rintro n p v ⟨c, h1, rfl⟩
      exact (readsC_tok fun d r hd => string_ok hd h1).bind_pure SVal.str
    exact (key h).mono (by omega)
  | @bytes f =>
    intro n p v h _ _ _
    have key : ∀ {n p v}, TyLang D x (f + 1) .bytes n p v → ReadsC x n (deTy D (f + 1) .bytes) p v := by
      rintro n p v ⟨b, h1, rfl⟩
      exact (bytes_closed h1).bind_pure SVal.bytes
    exact (key h).mono (by omega)
  | @seq f T =>
    intro n p v h _ _ _
    have key : ∀ {n p v}, TyLang D x (f + 1) (.seq T) n p v → ReadsC x n (deTy D (f + 1) (.seq T)) p v := by
      rintro n p v ⟨vs, h1, rfl⟩
      exact (seqText_closed (tyLang_reads hx f T) h1).bind_pure (fun vs => SVal.seq (some vs.length) vs)
    exact (key h).mono (by omega)
  | @tuple f Ts =>
    intro n p v h _ _ _
    have key : ∀ {n p v}, TyLang D x (f + 1) (.tuple Ts) n p v → ReadsC x n (deTy D (f + 1) (.tuple Ts)) p v := by
      rintro n p v ⟨vs, h1, rfl⟩
      exact (tupleText_closed (tyLang_reads hx f) h1).1.bind_pure SVal.tuple
    exact (key h).mono (by omega)
  | @tupleStruct f name Ts =>
    intro n p v h _ _ _
    have key : ∀ {n p v}, TyLang D x (f + 1) (.tupleStruct name Ts) n p v → ReadsC x n (deTy D (f + 1) (.tupleStruct name Ts)) p v := by
      rintro n p v ⟨p, q, vs, rfl, h1, h2, rfl⟩
      obtain ⟨h3, w', h4⟩ := tupleText_closed (ex := c!"tuple struct") (tyLang_reads hx f) h2
      exact (tupleStruct_closed h1 h4 h3).bind_pure (SVal.tupleStruct name)
    exact (key h).mono (by omega)
  | @map f K V =>
    intro n p v h _ _ _
    have key : ∀ {n p v}, TyLang D x (f + 1) (.map K V) n p v → ReadsC x n (deTy D (f + 1) (.map K V)) p v := by
      rintro n p v ⟨es, h1, rfl⟩
      exact (mapText_closed (tyLang_reads hx f K) (tyLang_reads hx f V) h1).bind_pure (fun es => SVal.map (some es.length) es)
    exact (key h).mono (by omega)
  | @struct f name deny fields hr =>
    intro n p v h _ _ _
    have key : ∀ {n p v}, TyLang D x (f + 1) (.struct name deny fields) n p v → ReadsC x n (deTy D (f + 1) (.struct name deny fields)) p v := by
      rintro n p v ⟨fs, rfl, ⟨p, q, rfl, h1, h2⟩ | ⟨es, h1, h2⟩⟩
      rotate_left
      · exfalso
        apply hr
        have hn := rangeFields_names h2
        cases h1 with
        | range => exact .inl ⟨rfl, hn⟩
        | inclusive hk =>
          rcases hk with rfl | rfl
          · exact .inr (.inl ⟨rfl, .inl hn⟩)
          · exact .inr (.inl ⟨rfl, .inr hn⟩)
        | start => exact .inr (.inr (.inl ⟨rfl, hn⟩))
        | stop => exact .inr (.inr (.inr (.inl ⟨rfl, hn⟩)))
        | last hk =>
          rcases hk with rfl | rfl
          · exact .inr (.inr (.inr (.inr ⟨rfl, .inl hn⟩)))
          · exact .inr (.inr (.inr (.inr ⟨rfl, .inr hn⟩)))
      · cases n with
        | zero => exact h2.elim
        | succ n =>
          obtain ⟨es, gs, hd, h3, h4, h5⟩ := h2
          obtain ⟨h6, h7⟩ := fieldsText_keys hx (tyLang_reads hx f) h3
          exact (struct_closed h1 hd h7 h4 ((fields_all2 h4).mpr h5)).mono (Nat.succ_le_succ h6)
    exact (key h).mono (by omega)
  | @enum f name variants hv =>
    intro n p v h _ _ _
    have key : ∀ {n p v}, TyLang D x (f + 1) (.enum name variants) n p v → ReadsC x n (deTy D (f + 1) (.enum name variants)) p v := by
      intro n p v h
      have ih := tyLang_reads (D := D) hx f
      obtain ⟨n, rfl, hn, id, k, tok, r, rfl, h1, h2, h3⟩ := deeper_iff.mp h
      have hn : 1 ≤ n := by omega
      cases k with
      | unit => exact (hv _ (List.mem_of_find?_eq_some h2)).elim
      | newtype T =>
        obtain ⟨l0, p, u, rfl, hl0, h3, rfl⟩ := h3
        obtain ⟨m, rfl, h3⟩ := deeper_iff.mp h3
        have hp := inParens_readsT hx (ih T m · u) h3
        obtain ⟨p', rfl⟩ := inParens_open h3
        refine enum_closed hn h1 h2 (fun r => ?_) (fun d r hpre hd => ?_)
        · rw [List.append_assoc]
          exact layout_follow hl0 (parenOpen_follow _)
        · obtain ⟨s', g1, g2, g3⟩ := newtypeVariant_ok hp hl0 hpre (r := r) (by rw [hd]; simp)
          refine ⟨s', ?_, g2, g3⟩
          simp only [variantData, bind_apply, g1, pure_apply]
      | tuple Ts =>
        obtain ⟨l0, q0, vs, rfl, hl0, h3, rfl⟩ := h3
        obtain ⟨hr, w', rfl⟩ := tupleText_closed (ex := c!"tuple variant") ih h3
        refine enum_closed hn h1 h2 (fun r => ?_) (fun d r hpre hd => ?_)
        · rw [List.append_assoc]
          exact layout_follow hl0 (parenOpen_follow _)
        · obtain ⟨s1, a1, a2, a3⟩ := skipWs_tok (r := '(' :: w' ++ r) (by rw [hd]; simp) hl0 (noLayout_paren _)
          obtain ⟨s', g1, g2, g4⟩ := hr s1 r (hpre.keep a3) a2
          refine ⟨s', ?_, g2, a3.trans g4⟩
          simp only [variantData, bind_apply, a1, g1, pure_apply]
      | struct deny fields =>
        obtain ⟨l0, q0, fs, rfl, hl0, h3, rfl⟩ := h3
        obtain ⟨n, rfl, es, gs, hd, h3, h4, h5⟩ := deeper_iff.mp h3
        obtain ⟨h6, h7⟩ := fieldsText_keys hx ih h3
        obtain ⟨w', rfl, hi⟩ := delim_inner hd
        refine enum_closed hn h1 h2 (fun r => ?_) (ReadsC.mono (fun d r hpre hd' => ?_) (Nat.succ_le_succ h6))
        · rw [List.append_assoc]
          exact layout_follow hl0 (parenOpen_follow _)
        · obtain ⟨s1, a1, a2, a3⟩ := skipWs_tok (r := '(' :: (w' ++ r)) (by rw [hd']; simp) hl0 (noLayout_paren _)
          obtain ⟨s2, b1, b2, b3⟩ := structAfterName_ok [] (hpre.keep a3) a2 fun d' hp' hd' => by
            obtain ⟨s', c1, c2, c3⟩ := visitStruct_keys hi h7 h4 ((fields_all2 h4).mpr h5) hp' hd'
            exact ⟨s', [], c1, c2, .nil, c3⟩
          refine ⟨s2, ?_, b2, a3.trans b3⟩
          simp only [variantData, bind_apply, getSt_apply, a1, mapErr_apply, b1, pure_apply]
    exact (key h).mono (by omega)
  | @newtype f name T hu =>
    intro n p v h _ _ _
    have key : ∀ {n p v}, TyLang D x (f + 1) (.newtype name T) n p v → ReadsC x n (deTy D (f + 1) (.newtype name T)) p v := by
      rintro n p v ⟨u, rfl, h⟩
      rw [hu] at h
      simp only [Bool.false_eq_true, ↓reduceIte] at h
      obtain ⟨p, q, rfl, h1, h2⟩ := h
      obtain ⟨m, rfl, h2⟩ := deeper_iff.mp h2
      exact (newtype_closed h1 (inParens_paren h2 (fun t ht => tyLang_reads hx _ _ _ _ _ ht) fun t ht => (tyLang_reads hx _ _ _ _ _ ht).1) hu).bind_pure
        (SVal.newtypeStruct name)
    exact (key h).mono (by omega)
  | @unwrapped f name T hu _ ih =>
    intro n p v h h1 h2 h3
    obtain ⟨u, rfl, h⟩ := h
    rw [hu] at h
    simp only [↓reduceIte] at h
    obtain ⟨m, rfl, h⟩ := deeper_iff.mp h
    have hr := ih h h1 h2 h3
    refine ReadsC.bind_pure (seed := deNewtype name (deTy D f T)) (fun d r hp hd => ?_) (SVal.newtypeStruct name)
    have hp' : Pre x (m + 1) { d with nv := false } := hp.keep (KeepsD.clear d)
    obtain ⟨s', g1, g2, g3⟩ := hr _ r hp'.lower hd
    obtain ⟨k1, k2⟩ := deGuardR_ok hp'.budget g1 g3
    refine ⟨{ s' with limit := d.limit }, ?_, g2, (KeepsD.clear d).trans k2⟩
    have hu' : d.exts.unwrapNewtypes = true := by rw [hp.exts]; exact hu
    unfold deNewtype
    simp only [bind_apply, getSt_apply, hu', Bool.true_or, ↓reduceIte, setNv_apply]
    exact k1
  | @ref f i _ ih =>
    intro n p v h h1 h2 h3
    exact ih h h1 h2 h3

/-- Of two texts of such a type neither is the beginning of the other. -/
theorem tyLang_whole {D : Nat → Ty} {x : Exts} (hx : x.unwrapVariantNewtypes = false) {f : Nat} {T : Ty} (hc : Closed D x f T) :
    ∀ {n n' : Nat} {p s : Text} {v v' : SVal}, TyLang D x f T n p v → TyLang D x f T n' (p ++ s) v' → s = [] := by
  induction hc with
  | bool =>
    intro n n' p s v v' h h'
    obtain ⟨b, rfl, -⟩ := h
    obtain ⟨b', e, -⟩ := h'
    cases b <;> cases b' <;> simp at e <;> exact e
  | unit =>
    intro n n' p s v v' h h'
    obtain ⟨rfl, -⟩ := h
    have := h'.1
    simpa using this
  | @char f =>
    intro n n' p s v v' h h'
    have key : ∀ {n p v}, TyLang D x (f + 1) .char n p v → ReadsC x 0 (deTy D (f + 1) .char) p v := by
      rintro n p v ⟨c, h1, rfl⟩
      exact (readsC_tok fun d r hd => charLit_ok' hd h1).bind_pure SVal.char
    exact closed_whole (key h) (key h')
  | @str f =>
    intro n n' p s v v' h h'
    have key : ∀ {n p v}, TyLang D x (f + 1) .str n p v → ReadsC x 0 (deTy D (f + 1) .str) p v := by
      rintro n p v ⟨c, h1, rfl⟩
      exact (readsC_tok fun d r hd => string_ok hd h1).bind_pure SVal.str
    exact closed_whole (key h) (key h')
  | @bytes f =>
    intro n n' p s v v' h h'
    have key : ∀ {n p v}, TyLang D x (f + 1) .bytes n p v → ReadsC x n (deTy D (f + 1) .bytes) p v := by
      rintro n p v ⟨b, h1, rfl⟩
      exact (bytes_closed h1).bind_pure SVal.bytes
    exact closed_whole (key h) (key h')
  | @option f T hi =>
    intro n n' p s v v' h h'
    have hN : ∀ {l q : Text}, c!"None" ++ s ≠ c!"Some" ++ (l ++ q) := fun e => by cases e
    rcases h with ⟨rfl, -⟩ | ⟨l, q, u, rfl, hl, h, -⟩ | ⟨hi', -⟩
    · rcases h' with ⟨e, -⟩ | ⟨l', q', u', e, -⟩ | ⟨hi', -⟩
      · simpa using e
      · exact absurd e hN
      · rw [hi] at hi'; cases hi'
    · rcases h' with ⟨e, -⟩ | ⟨l', q', u', e, hl', h', -⟩ | ⟨hi', -⟩
      · cases e
      · have key : ∀ {n l q u}, Layout l → Deeper (fun n q u => InParens (fun t => TyLang D x f T n t u) q) n q u →
            ReadsC x n (deOption SVal.none (do let a ← deTy D f T; pure (SVal.some a))) (c!"Some" ++ (l ++ q)) (SVal.some u) := by
          intro n l q u hl h
          obtain ⟨m, rfl, h⟩ := deeper_iff.mp h
          exact option_closed (inParens_paren h (fun t ht => (hx ▸ (tyLang_reads hx _ _ _ _ _ ht).toT : ReadsT x m x.unwrapVariantNewtypes _ t u).bind_pure SVal.some)
            fun t ht => (tyLang_reads hx _ _ _ _ _ ht).1) hl
        refine closed_whole (key hl h) (k' := n') (v' := .some u') ?_
        rw [e]
        exact key hl' h'
      · rw [hi] at hi'; cases hi'
    · rw [hi] at hi'; cases hi'
  | @seq f T =>
    intro n n' p s v v' h h'
    have key : ∀ {n p v}, TyLang D x (f + 1) (.seq T) n p v → ReadsC x n (deTy D (f + 1) (.seq T)) p v := by
      rintro n p v ⟨vs, h1, rfl⟩
      exact (seqText_closed (tyLang_reads hx f T) h1).bind_pure (fun vs => SVal.seq (some vs.length) vs)
    exact closed_whole (key h) (key h')
  | @tuple f Ts =>
    intro n n' p s v v' h h'
    have key : ∀ {n p v}, TyLang D x (f + 1) (.tuple Ts) n p v → ReadsC x n (deTy D (f + 1) (.tuple Ts)) p v := by
      rintro n p v ⟨vs, h1, rfl⟩
      exact (tupleText_closed (tyLang_reads hx f) h1).1.bind_pure SVal.tuple
    exact closed_whole (key h) (key h')
  | @tupleStruct f name Ts =>
    intro n n' p s v v' h h'
    have key : ∀ {n p v}, TyLang D x (f + 1) (.tupleStruct name Ts) n p v → ReadsC x n (deTy D (f + 1) (.tupleStruct name Ts)) p v := by
      rintro n p v ⟨p, q, vs, rfl, h1, h2, rfl⟩
      obtain ⟨h3, w', h4⟩ := tupleText_closed (ex := c!"tuple struct") (tyLang_reads hx f) h2
      exact (tupleStruct_closed h1 h4 h3).bind_pure (SVal.tupleStruct name)
    exact closed_whole (key h) (key h')
  | @map f K V =>
    intro n n' p s v v' h h'
    have key : ∀ {n p v}, TyLang D x (f + 1) (.map K V) n p v → ReadsC x n (deTy D (f + 1) (.map K V)) p v := by
      rintro n p v ⟨es, h1, rfl⟩
      exact (mapText_closed (tyLang_reads hx f K) (tyLang_reads hx f V) h1).bind_pure (fun es => SVal.map (some es.length) es)
    exact closed_whole (key h) (key h')
  | @struct f name deny fields hr =>
    intro n n' p s v v' h h'
    have key : ∀ {n p v}, TyLang D x (f + 1) (.struct name deny fields) n p v → ReadsC x n (deTy D (f + 1) (.struct name deny fields)) p v := by
      rintro n p v ⟨fs, rfl, ⟨p, q, rfl, h1, h2⟩ | ⟨es, h1, h2⟩⟩
      rotate_left
      · exfalso
        apply hr
        have hn := rangeFields_names h2
        cases h1 with
        | range => exact .inl ⟨rfl, hn⟩
        | inclusive hk =>
          rcases hk with rfl | rfl
          · exact .inr (.inl ⟨rfl, .inl hn⟩)
          · exact .inr (.inl ⟨rfl, .inr hn⟩)
        | start => exact .inr (.inr (.inl ⟨rfl, hn⟩))
        | stop => exact .inr (.inr (.inr (.inl ⟨rfl, hn⟩)))
        | last hk =>
          rcases hk with rfl | rfl
          · exact .inr (.inr (.inr (.inr ⟨rfl, .inl hn⟩)))
          · exact .inr (.inr (.inr (.inr ⟨rfl, .inr hn⟩)))
      · cases n with
        | zero => exact h2.elim
        | succ n =>
          obtain ⟨es, gs, hd, h3, h4, h5⟩ := h2
          obtain ⟨h6, h7⟩ := fieldsText_keys hx (tyLang_reads hx f) h3
          exact (struct_closed h1 hd h7 h4 ((fields_all2 h4).mpr h5)).mono (Nat.succ_le_succ h6)
    exact closed_whole (key h) (key h')
  | @enum f name variants hv =>
    intro n n' p s v v' h h'
    have key : ∀ {n p v}, TyLang D x (f + 1) (.enum name variants) n p v → ReadsC x n (deTy D (f + 1) (.enum name variants)) p v := by
      intro n p v h
      have ih := tyLang_reads (D := D) hx f
      obtain ⟨n, rfl, hn, id, k, tok, r, rfl, h1, h2, h3⟩ := deeper_iff.mp h
      have hn : 1 ≤ n := by omega
      cases k with
      | unit => exact (hv _ (List.mem_of_find?_eq_some h2)).elim
      | newtype T =>
        obtain ⟨l0, p, u, rfl, hl0, h3, rfl⟩ := h3
        obtain ⟨m, rfl, h3⟩ := deeper_iff.mp h3
        have hp := inParens_readsT hx (ih T m · u) h3
        obtain ⟨p', rfl⟩ := inParens_open h3
        refine enum_closed hn h1 h2 (fun r => ?_) (fun d r hpre hd => ?_)
        · rw [List.append_assoc]
          exact layout_follow hl0 (parenOpen_follow _)
        · obtain ⟨s', g1, g2, g3⟩ := newtypeVariant_ok hp hl0 hpre (r := r) (by rw [hd]; simp)
          refine ⟨s', ?_, g2, g3⟩
          simp only [variantData, bind_apply, g1, pure_apply]
      | tuple Ts =>
        obtain ⟨l0, q0, vs, rfl, hl0, h3, rfl⟩ := h3
        obtain ⟨hr, w', rfl⟩ := tupleText_closed (ex := c!"tuple variant") ih h3
        refine enum_closed hn h1 h2 (fun r => ?_) (fun d r hpre hd => ?_)
        · rw [List.append_assoc]
          exact layout_follow hl0 (parenOpen_follow _)
        · obtain ⟨s1, a1, a2, a3⟩ := skipWs_tok (r := '(' :: w' ++ r) (by rw [hd]; simp) hl0 (noLayout_paren _)
          obtain ⟨s', g1, g2, g4⟩ := hr s1 r (hpre.keep a3) a2
          refine ⟨s', ?_, g2, a3.trans g4⟩
          simp only [variantData, bind_apply, a1, g1, pure_apply]
      | struct deny fields =>
        obtain ⟨l0, q0, fs, rfl, hl0, h3, rfl⟩ := h3
        obtain ⟨n, rfl, es, gs, hd, h3, h4, h5⟩ := deeper_iff.mp h3
        obtain ⟨h6, h7⟩ := fieldsText_keys hx ih h3
        obtain ⟨w', rfl, hi⟩ := delim_inner hd
        refine enum_closed hn h1 h2 (fun r => ?_) (ReadsC.mono (fun d r hpre hd' => ?_) (Nat.succ_le_succ h6))
        · rw [List.append_assoc]
          exact layout_follow hl0 (parenOpen_follow _)
        · obtain ⟨s1, a1, a2, a3⟩ := skipWs_tok (r := '(' :: (w' ++ r)) (by rw [hd']; simp) hl0 (noLayout_paren _)
          obtain ⟨s2, b1, b2, b3⟩ := structAfterName_ok [] (hpre.keep a3) a2 fun d' hp' hd' => by
            obtain ⟨s', c1, c2, c3⟩ := visitStruct_keys hi h7 h4 ((fields_all2 h4).mpr h5) hp' hd'
            exact ⟨s', [], c1, c2, .nil, c3⟩
          refine ⟨s2, ?_, b2, a3.trans b3⟩
          simp only [variantData, bind_apply, getSt_apply, a1, mapErr_apply, b1, pure_apply]
    exact closed_whole (key h) (key h')
  | @newtype f name T hu =>
    intro n n' p s v v' h h'
    have key : ∀ {n p v}, TyLang D x (f + 1) (.newtype name T) n p v → ReadsC x n (deTy D (f + 1) (.newtype name T)) p v := by
      rintro n p v ⟨u, rfl, h⟩
      rw [hu] at h
      simp only [Bool.false_eq_true, ↓reduceIte] at h
      obtain ⟨p, q, rfl, h1, h2⟩ := h
      obtain ⟨m, rfl, h2⟩ := deeper_iff.mp h2
      exact (newtype_closed h1 (inParens_paren h2 (fun t ht => tyLang_reads hx _ _ _ _ _ ht) fun t ht => (tyLang_reads hx _ _ _ _ _ ht).1) hu).bind_pure
        (SVal.newtypeStruct name)
    exact closed_whole (key h) (key h')
  | @unwrapped f name T hu _ ih =>
    intro n n' p s v v' h h'
    obtain ⟨u, -, h⟩ := h
    obtain ⟨u', -, h'⟩ := h'
    rw [hu] at h h'
    simp only [↓reduceIte] at h h'
    obtain ⟨m, -, h⟩ := deeper_iff.mp h
    obtain ⟨m', -, h'⟩ := deeper_iff.mp h'
    exact ih h h'
  | ref _ ih =>
    intro n n' p s v v' h h'
    exact ih h h'

/-- The layout and the attributes of a document can be told from the rest in one way. -/
theorem parts_unique {l hdr r l' hdr' r' : Text} {e e' : Exts} (hl : Layout l) (hh : Attrs hdr e) (hr : NoLayoutStart r) (hs : startsWith r ['#'] = false)
    (hl' : Layout l') (hh' : Attrs hdr' e') (hr' : NoLayoutStart r') (hs' : startsWith r' ['#'] = false)
    (heq : l ++ (hdr ++ r) = l' ++ (hdr' ++ r')) : r = r' ∧ e = e' := by
  obtain ⟨s1, a1, a2, a3, -⟩ := parserNew_ok hl hh hr hs (St.init (l ++ (hdr ++ r))) rfl
  obtain ⟨s2, b1, b2, b3, -⟩ := parserNew_ok hl' hh' hr' hs' (St.init (l ++ (hdr ++ r))) heq
  rw [a1] at b1
  cases b1
  refine ⟨a2.symm.trans b2, ?_⟩
  have : ∀ e : Exts, (St.init (l ++ (hdr ++ r))).exts.union e = e := fun e => by cases e; simp [St.init, Exts.union, Exts.empty]
  rw [a3, this, this] at b3
  exact b3

theorem longer_start {r s : Text} (hne : r ≠ []) (hr : NoLayoutStart r) (hs : startsWith r ['#'] = false) :
    NoLayoutStart (r ++ s) ∧ startsWith (r ++ s) ['#'] = false := by
  cases r with
  | nil => exact absurd rfl hne
  | cons a r => exact ⟨fun c t e => by cases e; exact hr _ _ rfl, by simpa using hs⟩

/-- Two documents of a closed type one of which begins with the other. -/
theorem docs_same {o : Options} {D : Nat → Ty} (hD : ∀ i, (D i).Every Ty.Described) {f : Nat} {T : Ty} (hT : T.Every Ty.Described) {p s : Text}
    {v v' : SVal} (h : fromStr o (deTy D f T) p = .ok v) (h' : fromStr o (deTy D f T) (p ++ s) = .ok v') :
    ∃ l hdr e r, p = l ++ (hdr ++ r) ∧ Layout l ∧ Attrs hdr e ∧ (r ≠ [] ∧ NoLayoutStart r ∧ startsWith r ['#'] = false) ∧
      ((e.union o.defaultExtensions).unwrapVariantNewtypes = false →
      Closed D (e.union o.defaultExtensions) f T → v = v' ∧ ∃ w u, r = w ++ u ∧ Trail u ∧ Trail (u ++ s)) := by
  obtain ⟨l, hdr, e, r, rfl, hl, hh, ⟨hne, hr, hs⟩, hk⟩ := fromStr_typed_any hD hT h
  obtain ⟨l', hdr', e', r', heq, hl', hh', ⟨hne', hr', hs'⟩, hk'⟩ := fromStr_typed_any hD hT h'
  obtain ⟨hr2, hs2⟩ := longer_start (s := s) hne hr hs
  obtain ⟨rfl, rfl⟩ := parts_unique hl hh hr2 hs2 hl' hh' hr' hs' (by simpa using heq)
  refine ⟨l, hdr, e, r, rfl, hl, hh, ⟨hne, hr, hs⟩, fun hx hc => ?_⟩
  obtain ⟨n, w, u, rfl, k2, -, -, k4⟩ := hk hx
  obtain ⟨n', w', u', k1', k2', -, -, k4'⟩ := hk' hx
  have hw : w = w' := by
    rw [List.append_assoc] at k1'
    rcases List.append_eq_append_iff.mp k1' with ⟨a, rfl, -⟩ | ⟨a, rfl, -⟩
    · rw [tyLang_whole hx hc k2 k2', List.append_nil]
    · rw [tyLang_whole hx hc k2' k2, List.append_nil]
  subst hw
  rw [List.append_assoc, List.append_cancel_left_eq] at k1'
  subst k1'
  refine ⟨?_, w, u, rfl, k4, k4'⟩
  have key := fun n v (h : TyLang D (e.union o.defaultExtensions) f T n w v) => doc_reads (o := { recursionLimit := none, defaultExtensions := e.union o.defaultExtensions }) (l := []) (hdr := []) (l' := [])
    (tyLang_reads hx f T n w v h) .nil .nil (by cases e.union o.defaultExtensions; simp [Exts.union, Exts.empty]) (fun _ h => (nomatch h)) .nil
  have := key n v k2
  rw [key n' v' k2'] at this
  exact (Except.ok.inj this).symm

end Ron
