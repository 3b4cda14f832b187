import Verif.Lemmas.TyCompound
/-! Reading data as its own type. -/

set_option linter.unusedSimpArgs false

namespace Ron

variable [Env]

/-! ### Content in parentheses -/

omit [Env] in
/-- One item in parentheses, after the opening parenthesis. -/
theorem content_ok {α : Type} {x : Exts} {k : Nat} {nv : Bool} {visit : P α} {v : α} {a t b r : Text} {d : St}
    (h : ReadsT x k nv visit t v) (ha : Layout a) (hb : TailOf t b) (hx : d.exts = x) (hbu : Budget d (k + 1))
    (hd : d.rest = a ++ (t ++ (b ++ ')' :: r))) :
    ∃ s1 s2 c s3, skipWs d = .ok () s1 ∧ KeepsD d s1 ∧ deGuardQ visit { s1 with nv := nv } = .ok v s2 ∧
      (nv = false → s2.nv = false) ∧
      comma { s2 with nv := false } = .ok c s3 ∧ s3.rest = ')' :: r ∧ KeepsD d s3 ∧ s3.nv = false := by
  obtain ⟨s1, b1, h1, h2, h3, h4⟩ := skip_content hd ha h.1 hb
  have hb1 : Budget { s1 with nv := nv } (k + 1) := fun m hm => hbu m (h4.limit ▸ hm)
  obtain ⟨s2, b2, g1, g2, g3, g4⟩ := h.guardQ.2 { s1 with nv := nv } b1 r rfl (h4.exts.trans hx) hb1 h2 h3
  obtain ⟨c, s3, k1, k2, k3⟩ := comma_tail (d := { s2 with nv := false }) g2 g3 (by simp)
  refine ⟨s1, s2, c, s3, h1, h4, g1, fun e => g4.nv e, k1, k2, ⟨?_, ?_, ?_, fun _ => k3.nv rfl⟩, k3.nv rfl⟩
  · rw [k3.src]; exact g4.src.trans h4.src
  · rw [k3.exts]; exact g4.exts.trans h4.exts
  · rw [k3.limit]; exact g4.limit.trans h4.limit

omit [Env] in
theorem noLayout_paren (r : Text) : NoLayoutStart ('(' :: r) := fun c r' e => by cases e; exact ⟨by decide, by decide⟩

/-! ### Options -/

theorem option_none {x : Exts} {α : Type} {vn : α} {visit : P α} : ReadsA x 0 (deOption vn visit) c!"None" vn := by
  refine readsA_tok (tokStart_plain (reserved_plain (by simp [reservedNames]))) fun d l q hd hl hq => ?_
  have := consumeIdent_true hd (follow_ident hl hq).xid
  refine ⟨{ d with prev := d.rest, rest := l ++ q }, ?_, rfl, .step _ _ _⟩
  unfold deOption
  simp only [bind_apply, this, ↓reduceIte, pure_apply]

theorem option_some {x : Exts} {k : Nat} {α : Type} {vn v : α} {visit : P α} {l p : Text}
    (h : Paren (fun t => ReadsT x k x.unwrapVariantNewtypes visit t v) p) (hl : Layout l) :
    ReadsA x (k + 1) (deOption vn visit) (c!"Some" ++ (l ++ p)) v := by
  obtain ⟨a, t, b, ha, ht, hb, rfl⟩ := h
  refine ⟨(tokStart_plain (reserved_plain (by simp [reservedNames]))).append _, fun d l1 q hx hbu hd hl1 hq => ?_⟩
  have hd' : d.rest = c!"Some" ++ (l ++ '(' :: (a ++ (t ++ (b ++ ')' :: (l1 ++ q))))) := by rw [hd]; simp
  have hfol : NoIdentStart (l ++ '(' :: (a ++ (t ++ (b ++ ')' :: (l1 ++ q))))) := (layout_follow hl (parenOpen_follow _)).xid
  have h0 : consumeIdent c!"None" d = .ok false d :=
    consumeIdent_false (by rw [hd']; exact keyword_other (by simp [reservedNames]) (by simp [reservedNames]) hfol (by decide))
  have h1 := consumeIdent_true hd' hfol
  obtain ⟨s1, g1, g2, g3⟩ := skipWs_tok (d := { d with prev := d.rest, rest := l ++ '(' :: (a ++ (t ++ (b ++ ')' :: (l1 ++ q)))) }) rfl hl
    (noLayout_paren _)
  have g4 := consumeChar_true g2
  have hk0 : KeepsD d { s1 with prev := s1.rest, rest := a ++ (t ++ (b ++ ')' :: (l1 ++ q))) } :=
    ((KeepsD.step d _ _).trans g3).trans (KeepsD.step s1 _ _)
  obtain ⟨s2, s3, c, s4, k1, kk, k2, -, k3, k4, k5, k6⟩ := content_ok ht ha hb (hk0.exts.trans hx) (hbu.keep hk0) rfl
  have he : s2.exts.unwrapVariantNewtypes = x.unwrapVariantNewtypes := by rw [kk.exts, hk0.exts, hx]
  have g5 := consumeChar_true k4
  refine ⟨_, l1, ?_, rfl, hl1, (hk0.trans k5).trans (KeepsD.step s4 s4.rest (l1 ++ q))⟩
  unfold deOption
  simp only [bind_apply, h0, h1, ↓reduceIte, Bool.false_eq_true, g1, g4, k1, modSt_apply, he, k2, setNv_apply, k3, g5, pure_apply]

/-- The text is not read as `Some` or `None`. -/
theorem notOption_idents {w f : Text} (h : NotOption w) (hf : IdentFollow f) {kw : Text} (hk : kw ∈ [c!"Some", c!"None"]) :
    startsWith (w ++ f) kw = false ∨ headXid ((w ++ f).drop kw.length) = true := by
  by_cases hs : startsWith (w ++ f) kw = true
  · right
    have hkx : ∀ c ∈ kw, Env.xidCont c = true := by
      simp only [List.mem_cons, List.not_mem_nil, or_false] at hk
      rcases hk with rfl | rfl <;> exact reserved_xid (by simp [reservedNames])
    obtain ⟨u, hu⟩ := (startsWith_iff _ _).mp hs
    rcases List.append_eq_append_iff.mp hu with ⟨a, ha, hb⟩ | ⟨a, ha, hb⟩
    · cases a with
      | nil =>
        obtain ⟨c, u', e, -⟩ := h kw hk [] (by simpa using ha.symm)
        cases e
      | cons c a =>
        have h1 := hf.xid c (a ++ u) (by rw [hb]; simp)
        have h2 := hkx c (by rw [ha]; simp)
        rw [h1] at h2; cases h2
    · obtain ⟨c, u', rfl, hc⟩ := h kw hk a ha
      rw [hu, List.drop_left, hb]
      exact hc
  · exact .inl (by simpa using hs)

theorem deOption_implicit {x : Exts} {α : Type} {vn : α} {visit : P α} {d : St} {w f : Text} (h : NotOption w) (hf : IdentFollow f)
    (hd : d.rest = w ++ f) (hx : d.exts = x) (hi : x.implicitSome = true) : deOption vn visit d = deGuardR visit d := by
  have h1 : consumeIdent c!"None" d = .ok false d := consumeIdent_false (by rw [hd]; exact notOption_idents h hf (by simp))
  have h2 : consumeIdent c!"Some" d = .ok false d := consumeIdent_false (by rw [hd]; exact notOption_idents h hf (by simp))
  unfold deOption
  simp only [bind_apply, h1, h2, Bool.false_eq_true, ↓reduceIte, pure_apply, getSt_apply, hx, hi]

theorem tail_follow {b r : Text} (h : Tail b) : IdentFollow (b ++ ')' :: r) := by
  obtain ⟨l, q, hl, e, hq⟩ := tail_split (r := r) (term := ')') h
  rw [e]
  exact follow_ident hl (by rcases hq with rfl | ⟨c, -, rfl⟩ <;> exact stop_cons (by simp))

theorem option_implicit {x : Exts} {k : Nat} {α : Type} {vn v : α} {visit : P α} {w : Text} (hr : Reads x k visit w v)
    (h : NotOption w) (hi : x.implicitSome = true) : Reads x (k + 1) (deOption vn visit) w v := by
  refine ⟨hr.1, fun d l q hp hd hl hq => ?_⟩
  obtain ⟨s', l', h1, h2⟩ := hr.guardR.2 d l q hp hd hl hq
  exact ⟨s', l', by rw [deOption_implicit h (follow_ident hl hq) hd hp.exts hi]; exact h1, h2⟩

theorem option_implicitT {x : Exts} {k : Nat} {nv : Bool} {α : Type} {vn v : α} {visit : P α} {w : Text} (hr : ReadsT x k nv visit w v)
    (h : NotOption w) (hi : x.implicitSome = true) : ReadsT x (k + 1) nv (deOption vn visit) w v := by
  refine ⟨hr.1, fun d b r hn hx hbu hd hb => ?_⟩
  obtain ⟨s', b', h1, h2⟩ := hr.guardR.2 d b r hn hx hbu hd hb
  exact ⟨s', b', by rw [deOption_implicit h (tail_follow hb.1) hd hx hi]; exact h1, h2⟩

/-! ### Newtypes -/

theorem newtype_unwrapped {x : Exts} {k : Nat} {α : Type} {v : α} {visit : P α} {w name : Text} (hr : Reads x k visit w v)
    (hu : x.unwrapNewtypes = true) : Reads x (k + 1) (deNewtype name visit) w v := by
  refine ⟨hr.1, fun d l q hp hd hl hq => ?_⟩
  obtain ⟨s', l', h1, h2, h3, h4⟩ := hr.guardR.2 { d with nv := false } l q (hp.keep (.clear d)) hd hl hq
  refine ⟨s', l', ?_, h2, h3, (KeepsD.clear d).trans h4⟩
  have hu' : d.exts.unwrapNewtypes = true := by rw [hp.exts]; exact hu
  unfold deNewtype
  simp only [bind_apply, getSt_apply, hu', Bool.true_or, ↓reduceIte, setNv_apply, h1]

theorem newtype_nv {x : Exts} {k : Nat} {α : Type} {v : α} {visit : P α} {w name : Text} (hr : Reads x k visit w v) :
    ReadsT x (k + 1) true (deNewtype name visit) w v := by
  refine ⟨.inr hr.1, fun d b r hn hx hbu hd hb => ?_⟩
  obtain ⟨s', b', h1, h2, h3, h4⟩ := hr.guardR.toT.2 { d with nv := false } b r rfl hx (hbu.keep (.clear d)) hd hb
  refine ⟨s', b', ?_, h2, h3, (KeepsD.clear d).trans h4⟩
  unfold deNewtype
  simp only [bind_apply, getSt_apply, hn, Bool.or_true, ↓reduceIte, setNv_apply, h1]

theorem newtype_wrapped {x : Exts} {k : Nat} {α : Type} {v : α} {visit : P α} {p q name : Text} (hp : OptName x name p)
    (h : Paren (fun t => Reads x k visit t v) q) (hu : x.unwrapNewtypes = false) :
    Reads x (k + 1) (deNewtype name visit) (p ++ q) v := by
  obtain ⟨a, t, b, ha, ht, hb, rfl⟩ := h
  refine ⟨hp.tokStart _, fun d l1 q hpre hd hl1 hq => ?_⟩
  obtain ⟨b0, s0, h1, ⟨l, hl, h2⟩, h3⟩ := structName_opt (d := d) (u := a ++ (t ++ (b ++ ')' :: (l1 ++ q)))) hp hpre.exts
    (by rw [hd]; simp)
  obtain ⟨s1, g1, g2, g3⟩ := skipWs_tok h2 hl (noLayout_paren _)
  have g4 := consumeChar_true g2
  have hk0 : KeepsD d { s1 with prev := s1.rest, rest := a ++ (t ++ (b ++ ')' :: (l1 ++ q))) } :=
    (h3.trans g3).trans (KeepsD.step s1 _ _)
  obtain ⟨s2, s3, c, s4, k1, kk, k2, kn, k3, k4, k5, k6⟩ := content_ok ht.toT ha hb (hk0.exts.trans hpre.exts) (hpre.budget.keep hk0) rfl
  have e2 : { s2 with nv := false } = s2 := by
    have : s2.nv = false := kk.nv (hk0.nv hpre.nv)
    rw [← this]
  have e3 : { s3 with nv := false } = s3 := by
    have : s3.nv = false := kn rfl
    rw [← this]
  rw [e2] at k2
  rw [e3] at k3
  have g5 := consumeChar_true k4
  refine ⟨_, l1, ?_, rfl, hl1, (hk0.trans k5).trans (KeepsD.step s4 s4.rest (l1 ++ q))⟩
  unfold deNewtype
  simp only [bind_apply, getSt_apply, hpre.exts, hu, hpre.nv, Bool.or_self, Bool.false_eq_true, ↓reduceIte, h1, g1, g4, k1, k2, k3, g5,
    pure_apply]

theorem newtypeVariant_ok {x : Exts} {k : Nat} {α : Type} {v : α} {seed : P α} {l p r : Text} {d : St}
    (h : Paren (fun t => ReadsT x k x.unwrapVariantNewtypes seed t v) p) (hl : Layout l) (hp : Pre x (k + 1) d)
    (hd : d.rest = l ++ (p ++ r)) : ∃ s', newtypeVariant seed d = .ok v s' ∧ s'.rest = r ∧ KeepsD d s' := by
  obtain ⟨a, t, b, ha, ht, hb, rfl⟩ := h
  obtain ⟨s1, g1, g2, g3⟩ := skipWs_tok (r := '(' :: (a ++ (t ++ (b ++ ')' :: r)))) (by rw [hd]; simp) hl (noLayout_paren _)
  have g4 := consumeChar_true g2
  have hk0 : KeepsD d { s1 with prev := s1.rest, rest := a ++ (t ++ (b ++ ')' :: r)) } := g3.trans (KeepsD.step s1 _ _)
  obtain ⟨s2, s3, c, s4, k1, kk, k2, -, k3, k4, k5, k6⟩ := content_ok (ht.mapErr (structErrorName d.lastIdent)) ha hb
    (hk0.exts.trans hp.exts) (hp.budget.keep hk0) rfl
  have he : s2.exts.unwrapVariantNewtypes = x.unwrapVariantNewtypes := by rw [kk.exts, hk0.exts, hp.exts]
  have g5 := consumeChar_true k4
  refine ⟨_, ?_, rfl, (hk0.trans k5).trans (KeepsD.step s4 s4.rest r)⟩
  unfold newtypeVariant
  simp only [bind_apply, getSt_apply, ↓reduceIte, g1, g4, k1, modSt_apply, he, k2, setNv_apply, k3, g5, pure_apply]

/-! ### Enums -/

theorem deIdentifier_ok {n t r : Text} {d : St} (h : NameTok n t) (hr : IdentFollow r) (hd : d.rest = t ++ r) :
    ∃ s', deIdentifier d = .ok n s' ∧ s'.rest = r ∧ KeepsD d s' := by
  obtain ⟨s', h1, h2, h3⟩ := h.reads hr hd
  have h3 := h3.toD
  refine ⟨{ s' with lastIdent := some n }, ?_, h2, ⟨h3.src, h3.exts, h3.limit, h3.nv⟩⟩
  unfold deIdentifier
  simp only [bind_apply, h1, modSt_apply, pure_apply]

omit [Env] in
theorem bind_eq {α β : Type} {f : P α} {g : α → P β} {s s' : St} {a : α} (h : f s = .ok a s') : (f >>= g) s = g a s' := by
  rw [bind_apply, h]

theorem enum_reads {x : Exts} {k : Nat} {rec : Ty → P SVal} {isOption : Ty → Bool} {name id tok w' : Text}
    {variants : List (Text × Variant)} {kd : Variant} {V : SVal} (hk : 1 ≤ k) (ht : NameTok id tok)
    (hf : variants.find? (fun e => e.1 = id) = some (id, kd))
    (hfol : ∀ l q, Layout l → Stop q → IdentFollow (w' ++ (l ++ q)))
    (hdata : ∀ d l q, Pre x k d → d.rest = w' ++ (l ++ q) → Layout l → Stop q → RunsTo (variantData rec isOption name id kd) d V q) :
    ReadsA x (k + 1) (deEnum name (visitEnum rec isOption name variants)) (tok ++ w') V := by
  refine ⟨ht.tokStart.append _, fun d l q hx hbu hd hl hq => ?_⟩
  let d1 : St := { d with nv := false }
  have hp1 : Pre x (k + 1) d1 := ⟨rfl, hx, hbu⟩
  let d2 : St := { d1 with limit := d1.limit.map (· - 1) }
  have hp2 : Pre x k d2 := hp1.lower
  have hd2 : d2.rest = tok ++ (w' ++ (l ++ q)) := by show d.rest = _; rw [hd]; simp
  obtain ⟨s3, a1, a2, a3⟩ := skipWs_tok (d := d2) (l := []) (r := tok ++ (w' ++ (l ++ q))) (by simpa using hd2) .nil
    (ht.tokStart.noLayout _)
  have hp3 := hp2.keep a3
  obtain ⟨k', rfl⟩ : ∃ k', k = k' + 1 := ⟨k - 1, by omega⟩
  obtain ⟨s4, b1, b2, b3⟩ := deIdentifier_ok (d := { s3 with limit := s3.limit.map (· - 1) }) ht (hfol l q hl hq) a2
  have b4 := deGuardQ_ok (f := do
    let id ← deIdentifier
    match variants.find? (fun e => e.1 = id) with
    | some (_, k) => pure (id, k)
    | none => fail (.noSuchEnumVariant (variants.map Prod.fst) id none)) (a := (id, kd)) (s' := s4) hp3.budget
    (by simp only [bind_apply, b1, hf, pure_apply]) b3
  obtain ⟨s5, l5, c1, c2, c3, c4⟩ := hdata _ l q (hp3.keep b4.2) b2 hl hq
  have hv : visitEnum rec isOption name variants d2 = .ok V s5 := by
    unfold visitEnum
    rw [bind_apply, a1]
    refine (bind_eq (a := (id, kd)) (deGuardQ_ok hp3.budget ?_ b3).1).trans c1
    simp only [bind_apply, b1, hf, pure_apply]
  obtain ⟨e1, e2⟩ := deGuardR_ok hp1.budget hv ((a3.trans b4.2).trans c4)
  refine ⟨{ s5 with limit := d1.limit }, l5, ?_, c2, c3, (KeepsD.clear d).trans e2⟩
  unfold deEnum
  simp only [bind_apply, setNv_apply, mapErr_apply]
  rw [e1]

/-! ### Costs -/

omit [Env] in
theorem costAll_mem : ∀ {vs : List SVal}, ∀ v ∈ vs, v.cost + 1 ≤ costAll vs
  | [], _, h => by simp at h
  | u :: vs, v, h => by
    rw [costAll]
    rcases List.mem_cons.mp h with rfl | h
    · omega
    · have := costAll_mem v h; omega
omit [Env] in
theorem costEntries_mem : ∀ {kvs : List (SVal × SVal)}, ∀ e ∈ kvs, e.1.cost + 1 ≤ costEntries kvs ∧ e.2.cost + 1 ≤ costEntries kvs
  | [], _, h => by simp at h
  | (k, u) :: kvs, v, h => by
    rw [costEntries]
    rcases List.mem_cons.mp h with rfl | h
    · simp only; omega
    · have := costEntries_mem v h; omega
omit [Env] in
theorem costFields_mem : ∀ {fs : List (Text × SVal)}, ∀ f ∈ fs, f.2.cost + 1 ≤ costFields fs
  | [], _, h => by simp at h
  | (k, u) :: fs, v, h => by
    rw [costFields]
    rcases List.mem_cons.mp h with rfl | h
    · simp only; omega
    · have := costFields_mem v h; omega

/-! ### Lists of items -/

theorem all2_swap {α β : Type} {R : α → β → Prop} : ∀ {as : List α} {bs : List β}, All2 R as bs → All2 (fun b a => R a b) bs as
  | [], [], _ => trivial
  | _ :: _, _ :: _, h => ⟨h.1, all2_swap h.2⟩
  | [], _ :: _, h => h.elim
  | _ :: _, [], h => h.elim

theorem reads3_of {x : Exts} {sfx : Bool} {k : Nat} {H : Ty → SVal → Prop} {rec : Ty → P SVal}
    (ih : ∀ T v, H T v → ∀ w, Rend x sfx false v w → Reads x v.cost (rec T) w v) :
    ∀ {Ts : List Ty} {vs : List SVal} {ts : List Text}, All2 H Ts vs → RendAll x sfx vs ts → (∀ v ∈ vs, v.cost ≤ k) →
      Reads3 x k (Ts.map rec) ts vs
  | [], [], [], _, _, _ => trivial
  | T :: Ts, v :: vs, t :: ts, h1, h2, h3 =>
    ⟨(ih T v h1.1 t h2.1).mono (h3 v (by simp)), reads3_of ih h1.2 h2.2 fun v hv => h3 v (by simp [hv])⟩
  | [], _ :: _, _, h, _, _ => h.elim
  | _ :: _, [], _, h, _, _ => h.elim
  | [], [], _ :: _, _, h, _ => h.elim
  | _ :: _, _ :: _, [], _, h, _ => h.elim

omit [Env] in
theorem find_nodup {α : Type} : ∀ {fields : List (Text × α)} {e : Text × α}, e ∈ fields → (fields.map Prod.fst).Nodup →
    fields.find? (fun f => f.1 = e.1) = some e
  | [], _, h, _ => by simp at h
  | f :: fs, e, h, hn => by
    rw [List.map_cons, List.nodup_cons] at hn
    rcases List.mem_cons.mp h with rfl | h
    · simp
    · have hne : f.1 ≠ e.1 := fun he => hn.1 (he ▸ List.mem_map.mpr ⟨e, h, rfl⟩)
      rw [List.find?_cons_of_neg (by simpa using hne)]
      exact find_nodup h hn.2

/-- The fields of a struct in the order of the type. -/
theorem fieldTexts_of {x : Exts} {sfx : Bool} {k : Nat} {H : Ty → SVal → Prop} {rec : Ty → P SVal} {deny : Bool} {fields : List (Text × Ty)}
    (hn : (fields.map Prod.fst).Nodup)
    (ih : ∀ T v, H T v → ∀ w, Rend x sfx false v w → Reads x v.cost (rec T) w v) :
    ∀ {Fs : List (Text × Ty)} {fs : List (Text × SVal)} {es : List Text}, (∀ F ∈ Fs, F ∈ fields) →
      All2 (fun F f => F.1 = f.1 ∧ H F.2 f.2) Fs fs → RendFields x sfx fs es → (∀ f ∈ fs, f.2.cost ≤ k) →
      All2 (FieldText x k rec deny fields) es (fs.map some)
  | [], [], [], _, _, _, _ => trivial
  | (F, T) :: Fs, (key, v) :: fs, e :: es, hm, h1, h2, h3 => by
    obtain ⟨kt, vt, g1, g2, g3⟩ := h2.1
    obtain ⟨rfl, hT⟩ := h1.1
    refine ⟨⟨_, kt, vt, g1, g3, rfl, T, find_nodup (hm _ (by simp)) hn, (ih T v hT vt g2).mono (h3 (F, v) (by simp))⟩, ?_⟩
    exact fieldTexts_of hn ih (fun F hF => hm F (by simp [hF])) h1.2 h2.2 fun f hf => h3 f (by simp [hf])
  | [], _ :: _, _, _, h, _, _ => h.elim
  | _ :: _, [], _, _, h, _, _ => h.elim
  | [], [], _ :: _, _, _, h, _ => h.elim
  | _ :: _, _ :: _, [], _, _, h, _ => by cases h

omit [Env] in
theorem keysOf_map (fs : List (Text × SVal)) : keysOf (fs.map some) = fs.map Prod.fst := by
  simp [keysOf, List.filterMap_map]

omit [Env] in
theorem all2_names {H : Ty → SVal → Prop} : ∀ {Fs : List (Text × Ty)} {fs : List (Text × SVal)},
    All2 (fun F f => F.1 = f.1 ∧ H F.2 f.2) Fs fs → Fs.map Prod.fst = fs.map Prod.fst
  | [], [], _ => rfl
  | _ :: _, _ :: _, h => by simp only [List.map_cons, h.1.1, all2_names h.2]
  | [], _ :: _, h => h.elim
  | _ :: _, [], h => h.elim

omit [Env] in
theorem all2_right {α β : Type} {R : α → β → Prop} : ∀ {as : List α} {bs : List β}, All2 R as bs →
    All2 (fun a b => R a b ∧ b ∈ bs) as bs
  | [], [], _ => trivial
  | _ :: _, _ :: _, h => ⟨⟨h.1, by simp⟩, (all2_right h.2).imp fun _ _ h => ⟨h.1, by simp [h.2]⟩⟩
  | [], _ :: _, h => h.elim
  | _ :: _, [], h => h.elim

omit [Env] in
theorem collect_self {isOption : Ty → Bool} {H : Ty → SVal → Prop} {fields : List (Text × Ty)} {fs : List (Text × SVal)}
    (hn : (fields.map Prod.fst).Nodup) (h : All2 (fun F f => F.1 = f.1 ∧ H F.2 f.2) fields fs) :
    collectFields isOption (gotOf (fs.map some) fun _ => none) fields = .ok fs := by
  refine collectFields_ok ((all2_right h).imp fun F f hf => ⟨hf.1.1, .inl ?_⟩)
  refine gotOf_mem _ _ _ _ ?_ ?_
  · rw [keysOf_map, ← all2_names h]; exact hn
  · rw [hf.1.1]
    exact List.mem_map.mpr ⟨f, hf.2, rfl⟩

/-! ### Compound values -/

omit [Env] in
theorem bare_inner {ts : List Text} {w b : Text} (h : Bare ts w) (hb : TailOf w b) : Inner ')' ts (w ++ (b ++ [')'])) := by
  rcases h with ⟨rfl, rfl⟩ | h
  · exact .nil (hb.2 rfl)
  · exact .items (a := []) .nil h hb.1

omit [Env] in
theorem bare_start {ts : List Text} {w : Text} (h : Bare ts w) (ht : ∀ t ∈ ts, TokStart t) : w = [] ∨ TokStart w := by
  rcases h with ⟨-, rfl⟩ | h
  · exact .inl rfl
  · exact .inr (h.tokStart ht)

omit [Env] in
theorem noLayout_close (r : Text) : NoLayoutStart (')' :: r) := (stop_cons (c := ')') (by simp)).noLayout

omit [Env] in
theorem delim_tokStart {o c : Char} {ts : List Text} {w : Text} (h : Delim o c ts w) (ho : TokStart [o]) : TokStart w := by
  cases h with
  | nil _ => exact ho.append _
  | items _ _ _ => exact ho.append _

omit [Env] in
theorem tuple_reads {x : Exts} {k : Nat} {ex : Text} {ss : List (P SVal)} {ts : List Text} {vs : List SVal} {w : Text}
    (h3 : Reads3 x k ss ts vs) (hw : Delim '(' ')' ts w) :
    Reads x ((if ts = [] then 0 else k + 1) + 1) (deTuple (tupleLoop ex ss 0 true)) w vs := by
  refine ⟨delim_tokStart hw ⟨_, _, rfl, by decide, by decide⟩, fun d l q hp hd hl hq => ?_⟩
  obtain ⟨w', rfl, hi⟩ := delim_inner hw
  obtain ⟨s', h1, h2, h4⟩ := deTuple_ok (r := l ++ q) hp (by simpa using hd) fun d' hp' hd' =>
    tupleLoop_inner ex hi (i := 0) h3 hp' hd'
  exact ⟨s', l, h1, h2, hl, h4⟩

omit [Env] in
theorem tuple_readsT {x : Exts} {k : Nat} {ex : Text} {ss : List (P SVal)} {ts : List Text} {vs : List SVal} {w : Text}
    (h3 : Reads3 x k ss ts vs) (hw : Bare ts w) :
    ReadsT x ((if ts = [] then 0 else k + 1) + 1) true (deTuple (tupleLoop ex ss 0 true)) w vs := by
  refine ⟨bare_start hw h3.tokStart, fun d b r hn hx hbu hd hb => ?_⟩
  obtain ⟨s', h1, h2, h4, -⟩ := deTuple_nv (Q := fun q => q = ')' :: r) hn hx hbu hd fun d' hp' hd' => by
    obtain ⟨s', l, g1, g2, g3, g4⟩ := tupleLoop_inner ex (bare_inner hw hb) (i := 0) (r := r) h3 hp' (by rw [hd']; simp)
    exact ⟨s', l, _, g1, g2, g3, noLayout_close r, rfl, g4⟩
  exact ⟨s', [], h1, h2, .plain .nil, h4⟩

theorem tupleStruct_reads {x : Exts} {k : Nat} {name p w : Text} {α : Type} {visit : P α} {v : α} (hn : OptNameTight x name p)
    {w' : Text} (hw : w = '(' :: w') (h : Reads x k (deTuple visit) w v) : Reads x k (deTupleStruct name visit) (p ++ w) v := by
  subst hw
  refine ⟨hn.toOptName.tokStart _, fun d l q hp hd hl hq => ?_⟩
  have key : ∃ b s', consumeStructName name d = .ok b s' ∧ s'.rest = '(' :: w' ++ (l ++ q) ∧ KeepsD d s' := by
    rcases hn with ⟨he, rfl⟩ | hn
    · exact ⟨false, d, structName_none (u := w' ++ (l ++ q)) (hp.exts ▸ he) (by simpa using hd), by simpa using hd, .refl _⟩
    · obtain ⟨s', g1, g2, g3⟩ := structName_some (r := '(' :: (w' ++ (l ++ q))) hn (parenOpen_follow _) (by simpa using hd)
      exact ⟨true, s', g1, g2, g3⟩
  obtain ⟨b, s', h1, h2, h3⟩ := key
  obtain ⟨s2, l2, g1, g2, g3, g4⟩ := h.2 s' l q (hp.keep h3) h2 hl hq
  refine ⟨s2, l2, ?_, g2, g3, h3.trans g4⟩
  unfold deTupleStruct
  simp only [bind_apply, getSt_apply, hp.nv, Bool.not_false, ↓reduceIte, h1, mapErr_apply, g1]

theorem tupleStruct_readsT {x : Exts} {k : Nat} {name w : Text} {α : Type} {visit : P α} {v : α}
    (h : ReadsT x k true (deTuple visit) w v) : ReadsT x k true (deTupleStruct name visit) w v := by
  refine ⟨h.1, fun d b r hn hx hbu hd hb => ?_⟩
  obtain ⟨s', b', h1, h2⟩ := h.2 d b r hn hx hbu hd hb
  refine ⟨s', b', ?_, h2⟩
  unfold deTupleStruct
  simp only [bind_apply, getSt_apply, hn, Bool.not_true, Bool.false_eq_true, ↓reduceIte, mapErr_apply, h1, pure_apply]

/-- A struct in parentheses. -/
theorem struct_reads {x : Exts} {k : Nat} {rec : Ty → P SVal} {isOption : Ty → Bool} {conv : Ty → Number → Except Err SVal} {name p q : Text}
    {deny : Bool} {fields : List (Text × Ty)} {es : List Text} {gs : List (Option (Text × SVal))} {fs : List (Text × SVal)}
    (hp : OptName x name p) (hw : Delim '(' ')' es q) (h2 : All2 (FieldText x k rec deny fields) es gs) (hn : (keysOf gs).Nodup)
    (hc : collectFields isOption (gotOf gs fun _ => none) fields = .ok fs) :
    Reads x ((if es = [] then 0 else k + 1) + 1) (deStruct rec isOption conv name deny fields) (p ++ q) (.struct name fs) := by
  obtain ⟨w', rfl, hi⟩ := delim_inner hw
  refine ⟨hp.tokStart _, fun d l q hpre hd hl hq => ?_⟩
  have hd' : d.rest = p ++ '(' :: (w' ++ (l ++ q)) := by rw [hd]; simp
  have h0 := rangeStruct_none (d := d) (by rw [hd']; exact hp.notNum) name (fields.map Prod.fst)
  obtain ⟨b0, s0, g1, ⟨l0, g2, g3⟩, g4⟩ := structName_opt hp hpre.exts hd'
  obtain ⟨s1, a1, a2, a3⟩ := skipWs_tok g3 g2 (noLayout_paren _)
  obtain ⟨s2, b1, b2, b3⟩ := structAfterName_ok name (hpre.keep (g4.trans a3)) a2 fun d' hp' hd' => by
    obtain ⟨s', c1, c2, c3⟩ := visitStruct_inner hi h2 hn hc hp' hd'
    exact ⟨s', [], c1, c2, .nil, c3⟩
  refine ⟨s2, l, ?_, b2, hl, (g4.trans a3).trans b3⟩
  unfold deStruct
  simp only [bind_apply, h0, getSt_apply, hpre.nv, Bool.not_false, ↓reduceIte, g1, a1, b1, pure_apply]

/-- The fields of a struct directly inside a newtype variant. -/
theorem struct_readsT {x : Exts} {k : Nat} {rec : Ty → P SVal} {isOption : Ty → Bool} {conv : Ty → Number → Except Err SVal} {name w : Text}
    {deny : Bool} {fields : List (Text × Ty)} {es : List Text} {gs : List (Option (Text × SVal))} {fs : List (Text × SVal)}
    (hw : Bare es w) (h2 : All2 (FieldText x k rec deny fields) es gs) (hn : (keysOf gs).Nodup)
    (hc : collectFields isOption (gotOf gs fun _ => none) fields = .ok fs) :
    ReadsT x ((if es = [] then 0 else k + 1) + 1) true (deStruct rec isOption conv name deny fields) w (.struct name fs) := by
  have hts : ∀ t ∈ es, TokStart t := by
    intro t ht
    obtain ⟨g, -, hg⟩ := All2.mem_left h2 t ht
    exact hg.tokStart
  refine ⟨bare_start hw hts, fun d b r hnv hx hbu hd hb => ?_⟩
  have hnum : NotNum d.rest := by
    rw [hd]
    rcases hw with ⟨rfl, rfl⟩ | hw
    · exact tail_notNum hb.1
    · have first : ∀ e ∈ es, ∀ z, NotNum (e ++ z) := by
        intro e he z
        obtain ⟨g, -, key, kt, vt, c1, c2, -⟩ := All2.mem_left h2 e he
        cases c2 with
        | mk c3 c4 =>
          rw [List.append_assoc, List.append_assoc]
          exact c1.notNum (layout_follow c3 (stop_identFollow (stop_cons (by simp))))
      cases hw with
      | one => exact first _ (by simp) _
      | cons => rw [List.append_assoc]; exact first _ (by simp) _
  have h0 := rangeStruct_none (d := d) hnum name (fields.map Prod.fst)
  obtain ⟨s1, b1, a1, a2, a3, a4⟩ := skip_content (d := d) (a := []) (by simpa using hd) .nil (bare_start hw hts) hb
  have hnv1 : s1.nv = true := by
    rw [(skipWs_inv a1).1.nv]; exact hnv
  obtain ⟨s2, h1, h3, h4, -⟩ := structAfterName_nv (Q := fun q => q = ')' :: r) name hnv1 (a4.exts.trans hx) (hbu.keep a4) a2
    fun d' hp' hd' => by
      obtain ⟨s', c1, c2, c3⟩ := visitStruct_inner (r := r) (bare_inner hw a3) h2 hn hc hp' (by rw [hd']; simp)
      exact ⟨s', [], _, c1, c2, .nil, noLayout_close r, rfl, c3⟩
  refine ⟨s2, [], ?_, h3, .plain .nil, a4.trans h4⟩
  unfold deStruct
  simp only [bind_apply, h0, getSt_apply, hnv, Bool.not_true, Bool.false_eq_true, ↓reduceIte, pure_apply, a1, h1]

end Ron
