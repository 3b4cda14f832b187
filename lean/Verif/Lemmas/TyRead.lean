import Verif.Spec.HasTy
import Verif.Lemmas.RendDen
/-! Reading typed text. -/

set_option linter.unusedSimpArgs false

namespace Ron

variable [Env]

/-! ### Content of parentheses -/

/-- `seed` reads the text `t` as `v` directly inside parentheses, with the newtype flag `nv`. -/
def ReadsT {α : Type} (x : Exts) (k : Nat) (nv : Bool) (seed : P α) (t : Text) (v : α) : Prop :=
  (t = [] ∨ TokStart t) ∧ ∀ d b r, d.nv = nv → d.exts = x → Budget d k → d.rest = t ++ (b ++ ')' :: r) → TailOf t b →
    ∃ s' b', seed d = .ok v s' ∧ s'.rest = b' ++ ')' :: r ∧ Tail b' ∧ KeepsD d s'

/-- `seed` reads the text `t` as `v` whatever the newtype flag is. -/
def ReadsA {α : Type} (x : Exts) (k : Nat) (seed : P α) (t : Text) (v : α) : Prop :=
  TokStart t ∧ ∀ d l q, d.exts = x → Budget d k → d.rest = t ++ (l ++ q) → Layout l → Stop q → RunsTo seed d v q

omit [Env] in
theorem ReadsA.reads {α : Type} {x : Exts} {k : Nat} {seed : P α} {t : Text} {v : α} (h : ReadsA x k seed t v) :
    Reads x k seed t v := ⟨h.1, fun d l q hp => h.2 d l q hp.exts hp.budget⟩

omit [Env] in
theorem ReadsA.mono {α : Type} {x : Exts} {k k' : Nat} {seed : P α} {t : Text} {v : α} (h : ReadsA x k seed t v) (hk : k ≤ k') :
    ReadsA x k' seed t v := ⟨h.1, fun d l q hx hb => h.2 d l q hx (hb.mono hk)⟩

omit [Env] in
theorem ReadsT.mono {α : Type} {x : Exts} {k k' : Nat} {nv : Bool} {seed : P α} {t : Text} {v : α} (h : ReadsT x k nv seed t v)
    (hk : k ≤ k') : ReadsT x k' nv seed t v := ⟨h.1, fun d b r hn hx hb => h.2 d b r hn hx (hb.mono hk)⟩

omit [Env] in
theorem ReadsA.toT {α : Type} {x : Exts} {k : Nat} {seed : P α} {t : Text} {v : α} (h : ReadsA x k seed t v) (nv : Bool) :
    ReadsT x k nv seed t v := by
  refine ⟨.inr h.1, fun d b r _ hx hbu hd hb => ?_⟩
  obtain ⟨b1, q, hb1, e, hq⟩ := tail_split (r := r) (term := ')') hb.1
  have hstop : Stop q := by
    rcases hq with rfl | ⟨c, -, rfl⟩ <;> exact stop_cons (by simp)
  obtain ⟨s2, l2, g1, g2, g3, g4⟩ := h.2 d b1 q hx hbu (by rw [hd, e]) hb1 hstop
  rcases hq with rfl | ⟨c, hc, rfl⟩
  · exact ⟨s2, l2, g1, g2, .plain g3, g4⟩
  · exact ⟨s2, l2 ++ ',' :: c, g1, by rw [g2]; simp, .comma g3 hc, g4⟩

omit [Env] in
theorem Reads.toT {α : Type} {x : Exts} {k : Nat} {seed : P α} {t : Text} {v : α} (h : Reads x k seed t v) :
    ReadsT x k false seed t v :=
  ⟨.inr h.1, fun _ _ _ hn hx hbu hd hb => h.tail ⟨hn, hx, hbu⟩ (by simp) hd hb.1⟩

omit [Env] in
theorem ReadsT.guardQ {α : Type} {x : Exts} {k : Nat} {nv : Bool} {seed : P α} {t : Text} {v : α} (h : ReadsT x k nv seed t v) :
    ReadsT x (k + 1) nv (deGuardQ seed) t v := by
  refine ⟨h.1, fun d b r hn hx hbu hd hb => ?_⟩
  obtain ⟨s', b', h1, h2, h3, h4⟩ := h.2 { d with limit := d.limit.map (· - 1) } b r hn hx hbu.lower hd hb
  obtain ⟨g1, g2⟩ := deGuardQ_ok hbu h1 h4
  exact ⟨_, b', g1, h2, h3, g2⟩

omit [Env] in
theorem ReadsT.guardR {α : Type} {x : Exts} {k : Nat} {nv : Bool} {seed : P α} {t : Text} {v : α} (h : ReadsT x k nv seed t v) :
    ReadsT x (k + 1) nv (deGuardR seed) t v := by
  refine ⟨h.1, fun d b r hn hx hbu hd hb => ?_⟩
  obtain ⟨s', b', h1, h2, h3, h4⟩ := h.2 { d with limit := d.limit.map (· - 1) } b r hn hx hbu.lower hd hb
  obtain ⟨g1, g2⟩ := deGuardR_ok hbu h1 h4
  exact ⟨_, b', g1, h2, h3, g2⟩

omit [Env] in
theorem ReadsT.mapErr {α : Type} {x : Exts} {k : Nat} {nv : Bool} {seed : P α} {t : Text} {v : α} (h : ReadsT x k nv seed t v)
    (g : Err → Err) : ReadsT x k nv (Ron.mapErr g seed) t v := by
  refine ⟨h.1, fun d b r hn hx hbu hd hb => ?_⟩
  obtain ⟨s', b', h1, h2⟩ := h.2 d b r hn hx hbu hd hb
  exact ⟨s', b', by rw [mapErr_apply, h1], h2⟩

omit [Env] in
theorem ReadsT.bind_pure {α β : Type} {x : Exts} {k : Nat} {nv : Bool} {seed : P α} {t : Text} {v : α} (h : ReadsT x k nv seed t v)
    (g : α → β) : ReadsT x k nv (do let a ← seed; pure (g a)) t (g v) := by
  refine ⟨h.1, fun d b r hn hx hbu hd hb => ?_⟩
  obtain ⟨s', b', h1, h2⟩ := h.2 d b r hn hx hbu hd hb
  exact ⟨s', b', by simp only [bind_apply, h1, pure_apply], h2⟩

omit [Env] in
theorem ReadsA.bind_pure {α β : Type} {x : Exts} {k : Nat} {seed : P α} {t : Text} {v : α} (h : ReadsA x k seed t v) (g : α → β) :
    ReadsA x k (do let a ← seed; pure (g a)) t (g v) := by
  refine ⟨h.1, fun d l q hx hb hd hl hq => ?_⟩
  obtain ⟨s', l', h1, h2⟩ := h.2 d l q hx hb hd hl hq
  exact ⟨s', l', by simp only [bind_apply, h1, pure_apply], h2⟩

omit [Env] in
/-- A token. -/
theorem readsA_tok {α : Type} {x : Exts} {seed : P α} {t : Text} {v : α} (ht : TokStart t)
    (h : ∀ d l q, d.rest = t ++ (l ++ q) → Layout l → Stop q → RunsW seed d v (l ++ q)) : ReadsA x 0 seed t v :=
  ⟨ht, fun d l q _ _ hd hl hq => (h d l q hd hl hq).runsTo hl⟩

omit [Env] in
/-- After the opening parenthesis. -/
theorem skip_content {d : St} {a t b r : Text} (hd : d.rest = a ++ (t ++ (b ++ ')' :: r))) (ha : Layout a)
    (ht : t = [] ∨ TokStart t) (hb : TailOf t b) :
    ∃ s' b', skipWs d = .ok () s' ∧ s'.rest = t ++ (b' ++ ')' :: r) ∧ TailOf t b' ∧ KeepsD d s' := by
  rcases ht with rfl | ht
  · obtain ⟨s', h1, h2, h3⟩ := skipWs_tok (d := d) (l := a ++ b) (r := ')' :: r) (by rw [hd]; simp) (ha.append (hb.2 rfl))
      (stop_cons (c := ')') (by simp)).noLayout
    exact ⟨s', [], h1, by simpa using h2, ⟨.plain .nil, fun _ => .nil⟩, h3⟩
  · obtain ⟨s', h1, h2, h3⟩ := skipWs_tok hd ha (ht.noLayout _)
    exact ⟨s', b, h1, h2, hb, h3⟩

/-! ### Scalars -/

theorem bool_reads {x : Exts} (b : Bool) : ReadsA x 0 Ron.bool (if b then c!"true" else c!"false") b := by
  have ht : TokStart (if b then c!"true" else c!"false") := by
    cases b <;> exact tokStart_plain (reserved_plain (by simp [reservedNames]))
  refine readsA_tok ht fun d l q hd hl hq => ?_
  have hf := follow_ident hl hq
  cases b with
  | true =>
    obtain ⟨g, gt, gs, gu⟩ := anyPlain_kw (w := c!"true") (by simp [reservedNames]) hd hf.xid
    refine ⟨{ d with prev := d.rest, rest := l ++ q }, ?_, rfl, .step _ _ _⟩
    unfold Ron.bool
    simp only [bind_apply, gt, ↓reduceIte, pure_apply]
  | false =>
    obtain ⟨g, gt, gs, gu⟩ := anyPlain_kw (w := c!"false") (by simp [reservedNames]) hd hf.xid
    refine ⟨{ d with prev := d.rest, rest := l ++ q }, ?_, rfl, .step _ _ _⟩
    unfold Ron.bool
    simp only [bind_apply, g c!"true" (by simp [reservedNames]) (by simp), gt, ↓reduceIte, pure_apply, Bool.false_eq_true]

theorem deInt_avail {t : IntTy} (h : t.Avail) : deInt t = integer (.one t) := by
  unfold deInt
  rw [if_neg]
  rintro ⟨h1, h2⟩
  rw [h h1] at h2
  cases h2

/-- An integer literal at its own type. -/
theorem integer_reads {x : Exts} {t : IntTy} {i : Int} (sfx : Bool) (ht : t.Avail) (hi : t.InRange i) :
    ReadsA x 0 (integer (.one t)) ((Number.int t i).text sfx) (t, i) := by
  refine readsA_tok (tokStart_number _ _) fun d l q hd hl hq => ?_
  have hr := (follow_ident hl hq).xid
  obtain ⟨p, hp⟩ := integer_lit (tg := .one t) (l := litOf i (if sfx then some t else none)) hd (litOf_valid _ _) hr (by
    intro t' h
    have : (if sfx = true then some t else none) = some t' := h
    split at this <;> cases this; exact ht)
  refine ⟨_, ?_, ?_, KeepsW.step d p (l ++ q)⟩
  · rw [hp, litOf_value]
    by_cases hs : sfx
    · rw [if_pos (by simp [litOf, hs, litType]; exact hi)]
      simp [litOf, hs, IntTarget.tryFrom]
    · rw [if_pos (by simp [litOf, hs, litType, intTypeOf]; exact hi)]
      simp [litOf, hs, intResult]
  · rfl

theorem f32_reads {x : Exts} {b : F32} (sfx : Bool) (hb : b.canon = b) :
    ReadsA x 0 (float .f32) ((Number.f32 b).text sfx) (.f32 b) := by
  refine readsA_tok (tokStart_number _ _) fun d l q hd hl hq => ?_
  have := float_read32 b sfx (s := d) (r := l ++ q) (by rw [hd]; simp [Number.text]) (follow_num hl hq)
  rwa [hb] at this

theorem f64_reads {x : Exts} {b : F64} (sfx : Bool) (hb : b.canon = b) :
    ReadsA x 0 (float .f64) ((Number.f64 b).text sfx) (.f64 b) := by
  refine readsA_tok (tokStart_number _ _) fun d l q hd hl hq => ?_
  have := float_read64 b sfx (s := d) (r := l ++ q) (by rw [hd]; simp [Number.text]) (follow_num hl hq)
  rwa [hb] at this

omit [Env] in
theorem charText_tokStart (c : Char) : TokStart (charText c) := by
  obtain ⟨u, hu⟩ := charText_form c; rw [hu]; exact ⟨_, _, rfl, by decide, by decide⟩

theorem charLit_reads {x : Exts} (c : Char) : ReadsA x 0 charLit (charText c) c :=
  readsA_tok (charText_tokStart c) fun _ _ _ hd _ _ => charLit_ok hd

theorem string_reads {x : Exts} {w t : Text} (h : StrLit w t) : ReadsA x 0 string w t :=
  readsA_tok (scalar_tokStart (.str h)) fun _ _ _ hd _ _ => string_ok hd h

theorem bytes_reads {x : Exts} {w : Text} {b : List UInt8} (h : BytesLit w b) : ReadsA x 0 deBytes w b := by
  refine readsA_tok (scalar_tokStart (.bytes h)) fun d l q hd _ _ => ?_
  obtain ⟨s', h1, h2, h3⟩ := byteString_ok hd h
  obtain ⟨u, hu, -, -⟩ := h.form (l ++ q)
  refine ⟨s', ?_, h2, h3⟩
  unfold deBytes
  have : startsWith d.rest ['['] = false := by rw [hd, hu]; simp
  simp only [bind_apply, checkChar_apply, this, Bool.false_eq_true, ↓reduceIte, h1]

/-! ### Struct names -/

theorem structName_none {name : Text} {d : St} (hx : d.exts.explicitStructNames = false) {u : Text} (hd : d.rest = '(' :: u) :
    consumeStructName name d = .ok false d := by
  have h : checkIdent [] d = .ok true d := checkIdent_true (r := '(' :: u) (by simpa using hd) (parenOpen_follow _).xid
  unfold consumeStructName
  simp only [bind_apply, h, ↓reduceIte, getSt_apply, hx, Bool.false_eq_true, pure_apply]

theorem NameTok.head {name tok : Text} (h : NameTok name tok) (r : Text) : headXid (tok ++ r) = true := by
  obtain ⟨hn, rfl | ⟨rfl, hp, -⟩⟩ := h
  · exact xid_cont_ascii (by decide)
  · obtain ⟨c, cs, rfl, hc, -⟩ := hp
    exact identFirst_xid hc

theorem structName_some {name tok r : Text} {d : St} (h : NameTok name tok) (hr : IdentFollow r) (hd : d.rest = tok ++ r) :
    ∃ s', consumeStructName name d = .ok true s' ∧ s'.rest = r ∧ KeepsD d s' := by
  obtain ⟨s', h1, h2, h3⟩ := h.reads hr hd
  refine ⟨s', ?_, h2, h3.toD⟩
  have hc : checkIdent [] d = .ok false d := checkIdent_false (.inr (by simpa [hd] using h.head r))
  unfold consumeStructName
  have hne : name.isEmpty = false := by simpa using h.1.1
  simp only [bind_apply, hc, Bool.false_eq_true, ↓reduceIte, attempt_apply, h1, hne, ne_eq, not_true_eq_false, pure_apply]

/-- An optional name. -/
theorem structName_opt {x : Exts} {name p u : Text} {d : St} (h : OptName x name p) (hx : d.exts = x) (hd : d.rest = p ++ '(' :: u) :
    ∃ b s', consumeStructName name d = .ok b s' ∧ (∃ l, Layout l ∧ s'.rest = l ++ '(' :: u) ∧ KeepsD d s' := by
  rcases h with ⟨he, rfl⟩ | ⟨tok, l, h1, h2, rfl⟩
  · exact ⟨false, d, structName_none (hx ▸ he) hd, ⟨[], .nil, hd⟩, .refl _⟩
  · obtain ⟨s', g1, g2, g3⟩ := structName_some (r := l ++ '(' :: u) h1 (layout_follow h2 (parenOpen_follow _)) (by simpa using hd)
    exact ⟨true, s', g1, ⟨l, h2, g2⟩, g3⟩

theorem OptName.tokStart {x : Exts} {name p : Text} (h : OptName x name p) (u : Text) : TokStart (p ++ '(' :: u) := by
  rcases h with ⟨-, rfl⟩ | ⟨tok, l, h1, h2, rfl⟩
  · exact ⟨_, _, rfl, by decide, by decide⟩
  · simpa using h1.tokStart.append _

theorem OptNameTight.toOptName {x : Exts} {name p : Text} (h : OptNameTight x name p) : OptName x name p := by
  rcases h with ⟨h, rfl⟩ | h
  · exact .inl ⟨h, rfl⟩
  · exact .inr ⟨p, [], h, .nil, by simp⟩

/-! ### Units -/

omit [Env] in
theorem unit_reads {x : Exts} : Reads x 0 deUnit c!"()" () := by
  refine ⟨⟨_, _, rfl, by decide, by decide⟩, fun d l q hp hd hl hq => ?_⟩
  have hu : consumeStr c!"()" d = .ok true { d with prev := d.rest, rest := d.rest.drop 2 } := consumeStr_true (by rw [hd]; simp)
  refine ⟨{ d with prev := d.rest, rest := d.rest.drop 2, nv := false }, l, ?_, by simp [hd], hl, ⟨rfl, rfl, rfl, fun _ => rfl⟩⟩
  unfold deUnit
  simp only [bind_apply, getSt_apply, hp.nv, Bool.false_eq_true, ↓reduceIte, hu, setNv_apply]

omit [Env] in
theorem unit_readsT {x : Exts} : ReadsT x 0 true deUnit [] () := by
  refine ⟨.inl rfl, fun d b r hn hx hbu hd hb => ?_⟩
  refine ⟨{ d with nv := false }, b, ?_, by simpa using hd, hb.1, .clear d⟩
  unfold deUnit
  simp only [bind_apply, getSt_apply, hn, ↓reduceIte, pure_apply, setNv_apply]

theorem NameTok.noDots {name tok : Text} (h : NameTok name tok) (r : Text) : startsWith (tok ++ r) c!".." = false := by
  obtain ⟨hn, rfl | ⟨rfl, hp, -⟩⟩ := h
  · simp
  · obtain ⟨c, cs, rfl, hc, -⟩ := hp
    simp only [List.cons_append, startsWith_cons, Bool.and_eq_false_iff, beq_eq_false_iff_ne]
    left
    rintro rfl
    rw [isIdentFirst_ascii (by decide)] at hc
    revert hc; decide

theorem unitStruct_dots {name : Text} {d : St} (h : startsWith d.rest c!".." = false) :
    (if name = c!"RangeFull" then consumeStr c!".." else pure false : P Bool) d = .ok false d := by
  split
  · exact consumeStr_false h
  · rfl

theorem unitStruct_reads {x : Exts} {name w : Text} (h : (x.explicitStructNames = false ∧ w = c!"()") ∨ NameTok name w) :
    Reads x 0 (deUnitStruct name) w () := by
  rcases h with ⟨hx, rfl⟩ | h
  · refine ⟨unit_reads (x := x).1, fun d l q hp hd hl hq => ?_⟩
    obtain ⟨s', l', h1, h2⟩ := unit_reads.2 d l q hp hd hl hq
    refine ⟨s', l', ?_, h2⟩
    unfold deUnitStruct
    have hd' : d.rest = '(' :: (')' :: (l ++ q)) := hd
    simp only [bind_apply, unitStruct_dots (name := name) (d := d) (by rw [hd]; simp), Bool.false_eq_true, ↓reduceIte, getSt_apply,
      hp.nv, structName_none (name := name) (by rw [hp.exts]; exact hx) hd', h1]
  · refine ⟨h.tokStart, fun d l q hp hd hl hq => ?_⟩
    obtain ⟨s', h1, h2, h3⟩ := structName_some h (follow_ident hl hq) hd
    refine ⟨{ s' with nv := false }, l, ?_, h2, hl, h3.trans (.clear _)⟩
    unfold deUnitStruct
    simp only [bind_apply, unitStruct_dots (name := name) (d := d) (by rw [hd]; exact h.noDots _), Bool.false_eq_true, ↓reduceIte,
      getSt_apply, hp.nv, h1, setNv_apply]

omit [Env] in
theorem tail_noDots {b r : Text} (h : Tail b) : startsWith (b ++ ')' :: r) c!".." = false := by
  obtain ⟨l, q, hl, e, hq⟩ := tail_split (r := r) (term := ')') h
  rw [e]
  have hs : startsWith q c!".." = false := by
    rcases hq with rfl | ⟨c, -, rfl⟩ <;> simp
  have key : ∀ {c : Char} {u : Text}, c ≠ '.' → startsWith (c :: u) c!".." = false := by
    intro c u h; simp [Ne.symm h, h]
  cases hl with
  | nil => exact hs
  | ws h => exact key (by rintro rfl; revert h; decide)
  | _ => exact key (by decide)

theorem unitStruct_readsT {x : Exts} {name : Text} : ReadsT x 0 true (deUnitStruct name) [] () := by
  refine ⟨.inl rfl, fun d b r hn hx hbu hd hb => ?_⟩
  refine ⟨{ d with nv := false }, b, ?_, by simpa using hd, hb.1, .clear d⟩
  unfold deUnitStruct
  simp only [bind_apply, unitStruct_dots (name := name) (d := d) (by rw [hd]; exact tail_noDots hb.1), Bool.false_eq_true, ↓reduceIte,
    getSt_apply, hn, pure_apply, setNv_apply]

end Ron
