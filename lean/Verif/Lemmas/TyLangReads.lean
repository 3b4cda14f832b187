import Verif.Lemmas.KeyRead
import Verif.Lemmas.TyRange
import Verif.Lemmas.Cut
/-!
# The texts of the language of a type are read
-/

namespace Ron

variable [Env]

/-! ### Tokens -/

omit [Env] in
theorem hexVal_start {c : Char} {d : Nat} (h : hexVal c = some d) : c ∉ ronWhitespace ∧ c ∉ ['/', ',', ')', ']', '}', ':', '#'] := by
  constructor <;> intro hm
  · have : ∀ c ∈ ronWhitespace, hexVal c = none := by decide
    rw [this c hm] at h; cases h
  · have : ∀ c ∈ ['/', ',', ')', ']', '}', ':', '#'], hexVal c = none := by decide
    rw [this c hm] at h; cases h

omit [Env] in
theorem numSplit_start {u body after : Text} {sg : LitSign} {b : LitBase} (h : NumSplit u sg b body after) (hv : ValidBody b.base body) :
    TokStart u := by
  rw [h.text]
  cases sg with
  | plus => exact ⟨_, _, rfl, by decide, by decide⟩
  | minus => exact ⟨_, _, rfl, by decide, by decide⟩
  | none =>
    cases b with
    | dec =>
      obtain ⟨h1, h2, h3⟩ := hv
      cases body with
      | nil => exact absurd rfl h1
      | cons c body =>
        rcases h3 c (List.mem_cons_self ..) with rfl | ⟨d, hd, -⟩
        · exact absurd rfl h2
        · exact ⟨c, _, rfl, (hexVal_start hd).1, (hexVal_start hd).2⟩
    | _ => exact ⟨_, _, rfl, by decide, by decide⟩

omit [Env] in
theorem numSplit_noByte {u body after r : Text} {sg : LitSign} {b : LitBase} (h : NumSplit u sg b body after) (hv : ValidBody b.base body) :
    u ≠ 'b' :: '\'' :: r := by
  rintro rfl
  have ht := h.text
  cases sg with
  | plus => cases ht
  | minus => cases ht
  | none =>
    cases b with
    | dec =>
      obtain ⟨h1, h2, h3⟩ := hv
      cases body with
      | nil => exact absurd rfl h1
      | cons c body =>
        have hc : c = 'b' := by
          have := congrArg List.head? ht
          simpa [LitSign.text, LitBase.pre] using this.symm
        subst hc
        rcases h3 'b' (List.mem_cons_self ..) with h | ⟨d, hd, hlt⟩
        · cases h
        · have : hexVal 'b' = some 11 := by decide
          rw [this] at hd; cases hd
          exact absurd hlt (by decide)
    | _ => cases ht

theorem GoodInt.split {T : IntTy} {u r : Text} {v : Int} (h : GoodInt T u v r) : ∃ sg b body after, NumSplit u sg b body after ∧ ValidBody b.base body := by
  cases h with
  | plain h1 _ h2 _ => exact ⟨_, _, _, _, h1, h2⟩
  | suffix h1 _ h2 _ => exact ⟨_, _, _, _, h1, h2⟩

theorem goodInt_follow {T : IntTy} {w r : Text} {v : Int} (h : GoodInt T w v []) (hr : Ends r) : GoodInt T (w ++ r) v r := by
  obtain ⟨sg, b, body, after, h1, h2⟩ := h.split
  have hnb : ∀ r', w ≠ 'b' :: '\'' :: r' := fun r' => numSplit_noByte h1 h2
  have hne : w ≠ [] := h1.nonempty
  have hb' : startsWith w c!"b'" = false := by
    cases hb : startsWith w c!"b'" with
    | false => rfl
    | true =>
      obtain ⟨u, hu⟩ := (startsWith_iff _ _).mp hb
      exact absurd hu (hnb u)
  let s : St := St.init (w ++ r)
  have hcut : Cut r s { s with rest := w } := ⟨rfl⟩
  have hbi := Bi.integer (tg := .one T) hr hcut hne hb'
  obtain ⟨s1, g1, g2, -⟩ := integer_good (s := { s with rest := w }) rfl hnb h
  rw [g1] at hbi
  have hnb' : ∀ r', w ++ r ≠ 'b' :: '\'' :: r' := by
    intro r' e
    have : startsWith (w ++ r) c!"b'" = true := (startsWith_iff _ _).mpr ⟨r', e⟩
    rw [startsWith_ends hr (by decide)] at this
    rw [hb'] at this; cases this
  rcases int_total T (w ++ r) with ⟨v', r', hg⟩ | ⟨e, r', hg⟩
  · obtain ⟨s2, h3, h4, -⟩ := integer_good (s := s) rfl hnb' hg
    rw [h3] at hbi
    obtain ⟨e1, e2⟩ := hbi
    cases e1
    have : r' = r := by rw [← h4, e2.rest, g2]; rfl
    rw [this] at hg; exact hg
  · obtain ⟨_, h3, -⟩ := integer_badInt (s := s) rfl hnb' hg
    rw [h3] at hbi
    exact hbi.elim

theorem int_tok_reads {x : Exts} {T : IntTy} {w : Text} {i : Int} (h : IntTok T w i) : ReadsA x 0 (integer (.one T)) w (T, i) := by
  cases h with
  | digits h =>
    obtain ⟨sg, b, body, after, h1, h2⟩ := h.split
    refine readsA_tok (numSplit_start h1 h2) fun d l q hd hl hq => ?_
    have hg := goodInt_follow h (ends_follow hl hq)
    obtain ⟨sg, b, body, after, h1, h2⟩ := hg.split
    obtain ⟨s', k1, k2, k3⟩ := integer_good (s := d) hd (fun _ => numSplit_noByte h1 h2) hg
    exact ⟨s', k1, k2, k3⟩
  | byte hT h =>
    subst hT
    obtain ⟨u, rfl⟩ := h.form
    refine readsA_tok ⟨_, _, rfl, by decide, by decide⟩ fun d l q hd hl hq => ?_
    have hs' : d.rest = 'b' :: '\'' :: (u ++ (l ++ q)) := by simpa using hd
    obtain ⟨s3, k1, k2, k3⟩ := byteLiteral_ok (b := d.rest) (s := { d with prev := d.rest, rest := u ++ (l ++ q) }) (r := l ++ q) rfl h
    refine ⟨s3, ?_, k2, .of k3⟩
    rw [integer_byte hs', byteLiteral_one, k1]

theorem goodFloat_start {b : Bool} {w r : Text} {m : Number} (h : GoodFloat b w m r) : TokStart w := by
  have key : ∀ t r, FloatSplit w t r → t ≠ [] → TokStart w := fun t r h ht => by
    rw [h.text]
    cases t with
    | nil => exact absurd rfl ht
    | cons c t =>
      have := h.chars c (List.mem_cons_self ..)
      have hall : ∀ c ∈ floatAlphabet, c ∉ ronWhitespace ∧ c ∉ ['/', ',', ')', ']', '}', ':', '#'] := by decide
      exact ⟨c, _, rfl, hall c this⟩
  cases h with
  | word h _ =>
    obtain ⟨h1, h2, -⟩ := h
    rw [h2]
    cases h1 <;> exact ⟨_, _, rfl, by decide, by decide⟩
  | plain h ht _ _ _ => exact key _ _ h ht
  | suffix h ht _ _ _ => exact key _ _ h ht

theorem goodFloat_follow {b : Bool} {w r : Text} {m : Number} (h : GoodFloat b w m []) (hr : Ends r) : GoodFloat b (w ++ r) m r := by
  let s : St := St.init (w ++ r)
  have hcut : Cut r s { s with rest := w } := ⟨rfl⟩
  have hbi := Bi.float (tg := realTarget b) hr hcut
  obtain ⟨s1, g1, g2, -⟩ := float_good (s := { s with rest := w }) rfl h
  rw [g1] at hbi
  rcases float_total b (w ++ r) with ⟨v', r', hg⟩ | ⟨e, r', hg⟩
  · obtain ⟨s2, h3, h4, -⟩ := float_good (s := s) rfl hg
    rw [h3] at hbi
    obtain ⟨e1, e2⟩ := hbi
    cases e1
    have : r' = r := by rw [← h4, e2.rest, g2]; rfl
    rw [this] at hg; exact hg
  · obtain ⟨_, h3, -⟩ := float_bad (s := s) rfl hg
    rw [h3] at hbi
    exact hbi.elim

theorem float_tok_reads {x : Exts} {b : Bool} {w : Text} {m : Number} (h : GoodFloat b w m []) : ReadsA x 0 (float (realTarget b)) w m :=
  readsA_tok (goodFloat_start h) fun d l q hd hl hq => by
    obtain ⟨s', k1, k2, k3⟩ := float_good (s := d) hd (goodFloat_follow h (ends_follow hl hq))
    exact ⟨s', k1, k2, k3⟩

omit [Env] in
theorem char_tok_reads {x : Exts} {w : Text} {c : Char} (h : CharLit w c) : ReadsA x 0 charLit w c :=
  readsA_tok (by cases h <;> exact ⟨_, _, rfl, by decide, by decide⟩) fun d l q hd hl hq => by
    obtain ⟨s', k1, k2, k3⟩ := charLit_ok' hd h
    exact ⟨s', k1, k2, k3⟩

/-! ### Levels -/

omit [Env] in
theorem deeper_all2 {α β : Type} {R : Nat → α → β → Prop} {n : Nat} {ts : List α} {vs : List β} (h : All2 (fun t v => ∃ m, n = m + 1 ∧ R m t v) ts vs) :
    (if ts = [] then 0 else (n - 1) + 1) ≤ n ∧ All2 (R (n - 1)) ts vs := by
  refine ⟨?_, All2.imp (fun t v ⟨m, hm, hr⟩ => by subst hm; exact hr) h⟩
  split
  · omega
  · cases ts with
    | nil => contradiction
    | cons t ts =>
      cases vs with
      | nil => exact h.elim
      | cons v vs =>
        obtain ⟨⟨m, hm, -⟩, -⟩ := h
        omega

omit [Env] in
theorem deeper_iff {α : Type} {L : Nat → Text → α → Prop} {n : Nat} {t : Text} {v : α} : Deeper L n t v ↔ ∃ m, n = m + 1 ∧ L m t v := by
  cases n with
  | zero => exact ⟨fun h => h.elim, fun ⟨m, h, _⟩ => by cases h⟩
  | succ n => exact ⟨fun h => ⟨n, rfl, h⟩, fun ⟨m, h, hl⟩ => by cases h; exact hl⟩

omit [Env] in
theorem inParens_paren {R : Text → Prop} {R' : Text → Prop} {q : Text} (h : InParens R q) (hr : ∀ t, R t → R' t) (ht : ∀ t, R t → TokStart t) :
    Paren R' q := by
  obtain ⟨a, t, b, h1, h2, h3, h4⟩ := h
  refine ⟨a, t, b, h1, hr t h2, ⟨h3, ?_⟩, h4⟩
  rintro rfl
  obtain ⟨c, t', e, -⟩ := ht _ h2
  cases e

section
variable {x : Exts} {rec : Ty → P SVal} {R : Ty → Nat → Text → SVal → Prop}

omit [Env] in
theorem seqText_reads {α : Type} {seed : P α} {L : Nat → Text → α → Prop} (ih : ∀ n t v, L n t v → Reads x n seed t v) {n : Nat} {w : Text} {vs : List α}
    (h : SeqText L n w vs) : ReadsA x n (deSeq (readSeq ']' seed)) w vs := by
  cases n with
  | zero => exact h.elim
  | succ n =>
    obtain ⟨ts, hd, h2⟩ := h
    obtain ⟨h3, h4⟩ := deeper_all2 (R := fun m t v => Reads x m seed t v) (All2.imp (fun t v h => by
      obtain ⟨m, e, h⟩ := deeper_iff.mp h; exact ⟨m, e, ih _ _ _ h⟩) h2)
    refine ReadsA.mono ?_ (Nat.succ_le_succ h3)
    refine ⟨delim_tokStart hd ⟨_, _, rfl, by decide, by decide⟩, fun d l q hx hb hd' hl hq => ?_⟩
    obtain ⟨w', rfl, hi⟩ := delim_inner hd
    obtain ⟨s', g1, g2, g3, -⟩ := deSeq_ok (r := l ++ q) hx hb (by simpa using hd') fun d' hp' hd' => readSeq_inner (by simp) hi h4 hp' hd'
    exact ⟨s', l, g1, g2, hl, g3⟩

omit [Env] in
theorem mapText_reads {fk fv : P SVal} {K V : Nat → Text → SVal → Prop} (ihk : ∀ n t v, K n t v → Reads x n fk t v)
    (ihv : ∀ n t v, V n t v → Reads x n fv t v) {n : Nat} {w : Text} {es : List (SVal × SVal)} (h : MapText K V n w es) :
    ReadsA x n (deMap (readMap '}' fk fv)) w es := by
  cases n with
  | zero => exact h.elim
  | succ n =>
    obtain ⟨ts, hd, h2⟩ := h
    obtain ⟨h3, h4⟩ := deeper_all2 (n := n) (R := fun m t e => ReadsEntry x m fk fv t e) (All2.imp (fun t v ⟨k, u, h1, h2, h3⟩ => by
      obtain ⟨m, rfl, h1⟩ := deeper_iff.mp h1
      exact ⟨m, rfl, k, u, ihk _ _ _ h1, ihv _ _ _ h2, h3⟩) h2)
    refine ReadsA.mono ?_ (Nat.succ_le_succ h3)
    refine ⟨delim_tokStart hd ⟨_, _, rfl, by decide, by decide⟩, fun d l q hx hb hd' hl hq => ?_⟩
    obtain ⟨w', rfl, hi⟩ := delim_inner hd
    obtain ⟨s', g1, g2, g3, -⟩ := deMap_ok (r := l ++ q) hx hb (by simpa using hd') fun d' hp' hd' => readMap_inner (by simp) hi h4 hp' hd'
    exact ⟨s', l, g1, g2, hl, g3⟩

omit [Env] in
theorem reads3_all3 (n : Nat) : ∀ {Ts : List Ty} {ts : List Text} {vs : List SVal},
    All3 (fun T t v => ∃ m, n = m + 1 ∧ Reads x m (rec T) t v) Ts ts vs →
    (if ts = [] then 0 else (n - 1) + 1) ≤ n ∧ Reads3 x (n - 1) (Ts.map rec) ts vs
  | [], [], [], _ => ⟨by simp, trivial⟩
  | _ :: _, _ :: _, _ :: _, ⟨⟨m, hm, h⟩, h'⟩ => by
    subst hm
    exact ⟨by simp, h, (reads3_all3 _ h').2⟩
  | [], [], _ :: _, h => h.elim
  | [], _ :: _, _, h => h.elim
  | _ :: _, [], _, h => h.elim
  | _ :: _, _ :: _, [], h => h.elim

omit [Env] in
theorem all3_imp {α β γ : Type} {R R' : α → β → γ → Prop} (hr : ∀ a b c, R a b c → R' a b c) : ∀ {as : List α} {bs : List β} {cs : List γ},
    All3 R as bs cs → All3 R' as bs cs
  | [], [], [], _ => trivial
  | _ :: _, _ :: _, _ :: _, h => ⟨hr _ _ _ h.1, all3_imp hr h.2⟩
  | [], [], _ :: _, h => h.elim
  | [], _ :: _, _, h => h.elim
  | _ :: _, [], _, h => h.elim
  | _ :: _, _ :: _, [], h => h.elim

omit [Env] in
theorem tupleText_reads {ex : Text} (ih : ∀ T n t v, R T n t v → Reads x n (rec T) t v) {n : Nat} {Ts : List Ty} {w : Text} {vs : List SVal}
    (h : TupleText R Ts n w vs) : Reads x n (deTuple (tupleLoop ex (Ts.map rec) 0 true)) w vs ∧ ∃ w', w = '(' :: w' := by
  cases n with
  | zero => exact h.elim
  | succ n =>
    obtain ⟨ts, hd, h2⟩ := h
    obtain ⟨h3, h4⟩ := reads3_all3 (x := x) (rec := rec) n (all3_imp (fun T t v h => by
      obtain ⟨m, e, h⟩ := deeper_iff.mp h; exact ⟨m, e, ih _ _ _ _ h⟩) h2)
    obtain ⟨w', e, -⟩ := delim_inner hd
    exact ⟨(tuple_reads h4 hd).mono (Nat.succ_le_succ h3), w', e⟩

theorem fieldsText_keys (hx : x.unwrapVariantNewtypes = false) (ih : ∀ T n t v, R T n t v → Reads x n (rec T) t v) {deny : Bool}
    {fields : List (Text × Ty)} {n : Nat} {es : List Text} {gs : List (Option (Text × SVal))} (h : All2 (FieldAt x.implicitSome R deny fields n) es gs) :
    (if es = [] then 0 else (n - 1) + 1) ≤ n ∧ All2 (KeyText x (n - 1) rec deny fields) es gs := by
  refine deeper_all2 (R := fun m e g => KeyText x m rec deny fields e g) (All2.imp (fun e g ⟨key, kt, vt, h1, h2, h3⟩ => ?_) h)
  cases g with
  | none =>
    obtain ⟨h4, h5, V, h6⟩ := h3
    obtain ⟨m, rfl, h6⟩ := deeper_iff.mp h6
    refine ⟨m, rfl, key, kt, vt, h1, h2, h4, h5, ?_⟩
    unfold deIgnored
    exact (langX_reads_value hx h6).bind_pure (fun _ => ())
  | some g =>
    obtain ⟨h4, T, h5, h6⟩ := h3
    obtain ⟨m, rfl, h6⟩ := deeper_iff.mp h6
    exact ⟨m, rfl, key, kt, vt, h1, h2, h4, T, h5, ih _ _ _ _ h6⟩

end

theorem deBytes_seq_reads {x : Exts} {n : Nat} {w : Text} {b : List UInt8} (h : SeqText (fun _ t (b : UInt8) => IntTok .u8 t b.toNat) n w b) :
    ReadsA x n deBytes w b := by
  have hr := seqText_reads (x := x) (seed := (do let (_, v) ← integer (.one .u8); pure (UInt8.ofNat v.toNat) : P UInt8)) (fun n t v h => by
    have := (int_tok_reads (x := x) h).bind_pure (fun p : IntTy × Int => UInt8.ofNat p.2.toNat)
    have e : UInt8.ofNat ((v.toNat : Int).toNat) = v := by simp
    simp only [e] at this
    exact this.reads.mono (Nat.zero_le _)) h
  have hw : ∃ w', w = '[' :: w' := by
    cases n with
    | zero => exact h.elim
    | succ n =>
      obtain ⟨ts, hd, -⟩ := h
      obtain ⟨w', e, -⟩ := delim_inner hd
      exact ⟨w', e⟩
  obtain ⟨w', rfl⟩ := hw
  refine ⟨hr.1, fun d l q hx hb hd hl hq => ?_⟩
  obtain ⟨s', l', h1, h2⟩ := hr.2 d l q hx hb hd hl hq
  refine ⟨s', l', ?_, h2⟩
  unfold deBytes
  have : startsWith d.rest ['['] = true := by rw [hd]; simp
  simp only [bind_apply, checkChar_apply, this, ↓reduceIte]
  exact h1

/-! ### All types -/

theorem inParens_readsT {x : Exts} (hx : x.unwrapVariantNewtypes = false) {n : Nat} {seed : P SVal} {L : Text → SVal → Prop} {q : Text} {u : SVal}
    (ih : ∀ t, L t u → Reads x n seed t u) (h : InParens (fun t => L t u) q) :
    Paren (fun t => ReadsT x n x.unwrapVariantNewtypes seed t u) q :=
  inParens_paren h (fun t ht => hx ▸ (ih t ht).toT) fun t ht => (ih t ht).1

theorem inParens_open {P : Text → Prop} {q : Text} (h : InParens P q) : ∃ q', q = '(' :: q' := by
  obtain ⟨a, t, b, -, -, -, rfl⟩ := h
  exact ⟨_, rfl⟩

/-- No word begins where none may. -/
theorem word_false {k q r : Text} (hk : ∀ c ∈ k, Env.xidCont c = true) (hr : NoIdentStart r) (h : ¬ BeginsWord k q) {d : St}
    (hd : d.rest = q ++ r) : consumeIdent k d = .ok false d := by
  rcases consumeIdent_cases k d with ⟨u, h1, h2, -⟩ | ⟨-, h1⟩
  · exfalso
    rw [hd] at h1
    rcases List.append_eq_append_iff.mp h1 with ⟨a, rfl, e⟩ | ⟨a, rfl, e⟩
    · cases a with
      | nil => exact h ⟨[], by simp, by simp [NoIdentStart]⟩
      | cons c a =>
        have := hk c (by simp)
        rw [hr c _ e] at this
        cases this
    · refine h ⟨a, rfl, ?_⟩
      rintro c a' rfl
      subst e
      exact h2 c _ rfl
  · exact h1

theorem option_bare {x : Exts} (hi : x.implicitSome = true) {n : Nat} {f : P SVal} {p q : Text} {v : SVal} (h : SomeBare p q)
    (hr : Reads x n f q v) : Reads x (n + 1) (deOption SVal.none f) (p ++ q) v := by
  rcases h with ⟨rfl, h1, h2⟩ | ⟨l, rfl, hl, h1, h2⟩
  · refine ⟨hr.1, fun d l r hp hd hl hq => ?_⟩
    have hf := (follow_ident hl hq).xid
    have w1 := word_false (reserved_xid (kw := c!"None") (by simp [reservedNames])) hf h1 hd
    have w2 := word_false (reserved_xid (kw := c!"Some") (by simp [reservedNames])) hf h2 hd
    obtain ⟨s', b, g1, g2⟩ := hr.guardR.2 d l r hp hd hl hq
    refine ⟨s', b, ?_, g2⟩
    unfold deOption
    simp only [bind_apply, w1, w2, Bool.false_eq_true, ↓reduceIte, pure_apply, getSt_apply, hp.exts, hi, g1]
  · refine ⟨(tokStart_plain (reserved_plain (w := c!"Some") (by simp [reservedNames]))).append _ |>.append _, fun d l' r hp hd hl' hq => ?_⟩
    exact deOption_bare hi hr hp (by simpa using hd) hl hl' hq h1 h2

theorem tyLang_reads {D : Nat → Ty} {x : Exts} (hx : x.unwrapVariantNewtypes = false) : ∀ (f : Nat) (T : Ty) (n : Nat) (w : Text) (v : SVal),
    TyLang D x f T n w v → Reads x n (deTy D f T) w v
  | 0, _, _, _, _, h => h.elim
  | f + 1, T, n, w, v, h => by
    have ih : ∀ T n w v, TyLang D x f T n w v → Reads x n (deTy D f T) w v := tyLang_reads hx f
    cases T with
    | bool =>
      obtain ⟨b, rfl, rfl⟩ := h
      exact ((bool_reads b).bind_pure SVal.bool).reads.mono (Nat.zero_le _)
    | int t =>
      obtain ⟨i, h1, h2, rfl⟩ := h
      have hd := int_tok_reads (x := x) h2
      rw [← deInt_avail h1] at hd
      exact (hd.bind_pure (fun p : IntTy × Int => SVal.num (.int p.1 p.2))).reads.mono (Nat.zero_le _)
    | f32 =>
      obtain ⟨m, h1, rfl⟩ := h
      exact ((float_tok_reads h1).bind_pure SVal.num).reads.mono (Nat.zero_le _)
    | f64 =>
      obtain ⟨m, h1, rfl⟩ := h
      exact ((float_tok_reads h1).bind_pure SVal.num).reads.mono (Nat.zero_le _)
    | char =>
      obtain ⟨c, h1, rfl⟩ := h
      exact ((char_tok_reads h1).bind_pure SVal.char).reads.mono (Nat.zero_le _)
    | str =>
      obtain ⟨t, h1, rfl⟩ := h
      exact ((string_reads h1).bind_pure SVal.str).reads.mono (Nat.zero_le _)
    | bytes =>
      obtain ⟨b, h1 | h1, rfl⟩ := h
      · exact ((bytes_reads h1).bind_pure SVal.bytes).reads.mono (Nat.zero_le _)
      · exact ((deBytes_seq_reads h1).bind_pure SVal.bytes).reads
    | unit =>
      obtain ⟨rfl, rfl⟩ := h
      exact (unit_reads.bind_pure (fun _ => SVal.unit)).mono (Nat.zero_le _)
    | unitStruct name =>
      obtain ⟨⟨rfl, rfl⟩ | h1, rfl⟩ := h
      · exact (full_reads.reads.bind_pure (fun _ => SVal.unitStruct _)).mono (Nat.zero_le _)
      · exact ((unitStruct_key h1).bind_pure (fun _ => SVal.unitStruct name)).mono (Nat.zero_le _)
    | newtype name T =>
      obtain ⟨u, rfl, h⟩ := h
      split at h
      · rename_i hu
        obtain ⟨m, rfl, h⟩ := deeper_iff.mp h
        exact (newtype_unwrapped (ih _ _ _ _ h) hu).bind_pure (SVal.newtypeStruct name)
      · rename_i hu
        obtain ⟨p, q, rfl, h1, h2⟩ := h
        obtain ⟨m, rfl, h2⟩ := deeper_iff.mp h2
        exact (newtype_key h1 (inParens_paren h2 (fun t ht => ih _ _ _ _ ht) fun t ht => (ih _ _ _ _ ht).1) (by simpa using hu)).bind_pure
          (SVal.newtypeStruct name)
    | option T =>
      rcases h with ⟨rfl, rfl⟩ | ⟨l, q, u, rfl, hl, h, rfl⟩ | ⟨hi, p, q, u, rfl, hb, h, rfl⟩
      · exact option_none.reads.mono (Nat.zero_le _)
      · obtain ⟨m, rfl, h⟩ := deeper_iff.mp h
        exact (option_some (inParens_paren h (fun t ht => (hx ▸ (ih _ _ _ _ ht).toT : ReadsT x m x.unwrapVariantNewtypes _ t u).bind_pure SVal.some)
          fun t ht => (ih _ _ _ _ ht).1) hl).reads
      · obtain ⟨m, rfl, h⟩ := deeper_iff.mp h
        exact option_bare hi hb ((ih _ _ _ _ h).bind_pure SVal.some)
    | seq T =>
      obtain ⟨vs, h, rfl⟩ := h
      exact ((seqText_reads (ih T) h).bind_pure (fun vs => SVal.seq (some vs.length) vs)).reads
    | tuple Ts =>
      obtain ⟨vs, h, rfl⟩ := h
      exact (tupleText_reads ih h).1.bind_pure SVal.tuple
    | tupleStruct name Ts =>
      obtain ⟨p, q, vs, rfl, h1, h2, rfl⟩ := h
      obtain ⟨h3, w', h4⟩ := tupleText_reads (ex := c!"tuple struct") ih h2
      exact (tupleStruct_key h1 h4 h3).bind_pure (SVal.tupleStruct name)
    | map K V =>
      obtain ⟨es, h, rfl⟩ := h
      exact ((mapText_reads (ih K) (ih V) h).bind_pure (fun es => SVal.map (some es.length) es)).reads
    | struct name deny fields =>
      obtain ⟨fs, rfl, ⟨p, q, rfl, h1, h2⟩ | ⟨es, h1, h2⟩⟩ := h
      rotate_left
      · exact (rangeAt_reads h1 h2).reads.mono (Nat.zero_le _)
      cases n with
      | zero => exact h2.elim
      | succ n =>
        obtain ⟨es, gs, hd, h3, h4, h5⟩ := h2
        obtain ⟨h6, h7⟩ := fieldsText_keys hx ih h3
        exact (struct_key h1 hd h7 h4 ((fields_all2 h4).mpr h5)).mono (Nat.succ_le_succ h6)
    | enum name variants =>
      obtain ⟨n, rfl, hn, id, k, tok, r, rfl, h1, h2, h3⟩ := deeper_iff.mp h
      have hn : 1 ≤ n := by omega
      cases k with
      | unit =>
        obtain ⟨rfl, rfl⟩ := h3
        exact (enum_key hn h1 h2 (fun l q hl hq => by simpa using follow_ident hl hq)
          (fun d l q hp hd hl hq => ⟨d, l, rfl, hd, hl, .refl _⟩)).reads
      | newtype T =>
        obtain ⟨l0, p, u, rfl, hl0, h3, rfl⟩ := h3
        obtain ⟨m, rfl, h3⟩ := deeper_iff.mp h3
        have hp := inParens_readsT hx (ih T m · u) h3
        obtain ⟨p', rfl⟩ := inParens_open h3
        refine (enum_key hn h1 h2 (fun l q hl hq => ?_) (fun d l q hpre hd hl hq => ?_)).reads
        · rw [List.append_assoc]
          exact layout_follow hl0 (parenOpen_follow _)
        · obtain ⟨s', g1, g2, g3⟩ := newtypeVariant_ok hp hl0 hpre (r := l ++ q) (by rw [hd]; simp)
          refine ⟨s', l, ?_, g2, hl, g3⟩
          simp only [variantData, bind_apply, g1, pure_apply]
      | tuple Ts =>
        obtain ⟨l0, q0, vs, rfl, hl0, h3, rfl⟩ := h3
        obtain ⟨hr, w', rfl⟩ := tupleText_reads (ex := c!"tuple variant") ih h3
        refine (enum_key hn h1 h2 (fun l q hl hq => ?_) (fun d l q hpre hd hl hq => ?_)).reads
        · rw [List.append_assoc]
          exact layout_follow hl0 (parenOpen_follow _)
        · obtain ⟨s1, a1, a2, a3⟩ := skipWs_tok (r := '(' :: w' ++ (l ++ q)) (by rw [hd]; simp) hl0 (hr.1.noLayout _)
          obtain ⟨s', l', g1, g2, g3, g4⟩ := hr.2 s1 l q (hpre.keep a3) a2 hl hq
          refine ⟨s', l', ?_, g2, g3, a3.trans g4⟩
          simp only [variantData, bind_apply, a1, g1, pure_apply]
      | struct deny fields =>
        obtain ⟨l0, q0, fs, rfl, hl0, h3, rfl⟩ := h3
        obtain ⟨n, rfl, es, gs, hd, h3, h4, h5⟩ := deeper_iff.mp h3
        obtain ⟨h6, h7⟩ := fieldsText_keys hx ih h3
        refine (enum_key hn h1 h2 (fun l q hl hq => ?_) (fun d l q hpre hd' hl hq => ?_)).reads
        · obtain ⟨w', rfl, -⟩ := delim_inner hd
          rw [List.append_assoc]
          exact layout_follow hl0 (parenOpen_follow _)
        · exact structVariant_keys h7 h4 ((fields_all2 h4).mpr h5) hl0 hd (hpre.mono (Nat.succ_le_succ h6)) hd' hl
    | value =>
      obtain ⟨V, h, rfl⟩ := h
      exact (langX_reads_value hx h).bind_pure Value.toS
    | raw => exact h.elim
    | ref i => exact ih _ _ _ _ h

end Ron
