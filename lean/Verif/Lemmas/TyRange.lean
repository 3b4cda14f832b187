import Verif.Lemmas.TyMain
/-!
# Reading compact ranges as their types
-/
set_option linter.unusedSimpArgs false

namespace Ron

variable [Env]

/-! ### Numbers converted back -/

theorem smallestU_wide {v : Int} {t : IntTy} (h0 : 0 ≤ v) (h : t.InRange v) (hb : (smallestU v).bits = 128) : t.bits = 128 := by
  have h64 : ¬ IntTy.InRange .u64 v := by
    intro h'
    unfold smallestU at hb
    simp only [h'] at hb
    repeat' split at hb
    all_goals first
      | (simp [IntTy.bits] at hb; done)
      | (rename_i h; exact h trivial)
  have hv : ¬ v ≤ 18446744073709551615 := fun hv => h64 ⟨h0, hv⟩
  cases t <;> first
    | rfl
    | (exfalso; apply hv; refine Int.le_trans h.2 ?_; decide)

theorem smallestS_wide {v : Int} {t : IntTy} (h0 : v < 0) (h : t.InRange v) (hb : (smallestS v).bits = 128) : t.bits = 128 := by
  have h64 : ¬ IntTy.InRange .i64 v := by
    intro h'
    unfold smallestS at hb
    simp only [h'] at hb
    repeat' split at hb
    all_goals first
      | (simp [IntTy.bits] at hb; done)
      | (rename_i h; exact h trivial)
  have hv : ¬ -9223372036854775808 ≤ v := fun hv => h64 ⟨hv, by show v ≤ (9223372036854775807 : Int); omega⟩
  cases t <;> first
    | rfl
    | (exfalso; apply hv; refine Int.le_trans ?_ h.1; decide)

theorem into_int {D : Nat → Ty} {t : IntTy} {i : Int} (sfx : Bool) (h : t.InRange i) :
    numTo D 1 (.int t) (if sfx then (Number.int t i).canon else (Number.int t i).untyped) = .ok (.num (.int t i)) := by
  cases sfx with
  | true => simp only [↓reduceIte, Number.canon, numTo]; exact if_pos ⟨h, fun h => h⟩
  | false =>
    simp only [Bool.false_eq_true, ↓reduceIte, Number.untyped, numTo]
    refine if_pos ⟨h, ?_⟩
    split
    · rename_i h0; exact smallestS_wide h0 h
    · rename_i h0; exact smallestU_wide (by omega) h

theorem into_f32 {D : Nat → Ty} {b : F32} (sfx : Bool) (hc : b.canon = b) (h : (Number.f32 b).Keeps sfx) :
    numTo D 1 .f32 (if sfx then (Number.f32 b).canon else (Number.f32 b).untyped) = .ok (.num (.f32 b)) := by
  cases sfx with
  | true => simp only [↓reduceIte, Number.canon, hc, numTo]
  | false =>
    simp only [Bool.false_eq_true, ↓reduceIte, Number.untyped]
    simp only [Number.Keeps, Bool.false_eq_true, false_or] at h
    split
    · simp only [hc, numTo]
    · rename_i hs
      rcases h with h | h | ⟨v, h1, h2⟩
      · simp [h] at hs
      · simp [h] at hs
      · simp only [h1, untypedFloat]
        split <;> simp only [numTo, h2]

theorem into_f64 {D : Nat → Ty} {b : F64} (sfx : Bool) (hc : b.canon = b) :
    numTo D 1 .f64 (if sfx then (Number.f64 b).canon else (Number.f64 b).untyped) = .ok (.num (.f64 b)) := by
  cases sfx with
  | true => simp only [↓reduceIte, Number.canon, hc, numTo]
  | false =>
    simp only [Bool.false_eq_true, ↓reduceIte, Number.untyped, hc, untypedFloat]
    split
    · rename_i h; simp only [numTo, h]
    · simp only [numTo]

/-- A number read without a type is converted back to the number of its type. -/
theorem numTo_back {D : Nat → Ty} {sfx : Bool} {a : Number} (hk : a.Keeps sfx) : ∀ (n f : Nat) (T : Ty), n ≤ f → HasTy D n T (.num a) →
    numTo D f T (if sfx then a.canon else a.untyped) = .ok (.num a)
  | 0, _, _, _, h => h.elim
  | n + 1, 0, _, hf, _ => absurd hf (by omega)
  | n + 1, f + 1, T, hf, h => by
    have lift : ∀ {T : Ty} {m : Number} {v : SVal}, (∀ i, T ≠ .ref i) → numTo D 1 T m = .ok v → numTo D (f + 1) T m = .ok v := by
      intro T m v hT hv
      rw [← hv]
      cases T <;> first | exact absurd rfl (hT _) | (cases m <;> rfl) | rfl
    cases T with
    | int t =>
      obtain ⟨i, e, h1, h2⟩ := h
      cases e
      exact lift (by simp) (into_int sfx h2)
    | f32 =>
      obtain ⟨b, e, h1⟩ := h
      cases e
      exact lift (by simp) (into_f32 sfx h1 hk)
    | f64 =>
      obtain ⟨b, e, h1⟩ := h
      cases e
      exact lift (by simp) (into_f64 sfx h1)
    | ref i => exact numTo_back hk n f (D i) (by omega) h
    | bool => obtain ⟨_, e⟩ := h; cases e
    | char => obtain ⟨_, e⟩ := h; cases e
    | str => obtain ⟨_, e⟩ := h; cases e
    | bytes => obtain ⟨_, e⟩ := h; cases e
    | unit => cases (show SVal.num a = _ from h)
    | unitStruct => cases (show SVal.num a = _ from h)
    | newtype => obtain ⟨_, e, _⟩ := h; cases e
    | option => rcases h with e | ⟨_, e, _⟩ <;> cases e
    | seq => obtain ⟨_, e, _⟩ := h; cases e
    | tuple => obtain ⟨_, e, _⟩ := h; cases e
    | tupleStruct => obtain ⟨_, e, _⟩ := h; cases e
    | map => obtain ⟨_, e, _⟩ := h; cases e
    | struct => obtain ⟨_, e, _⟩ := h; cases e
    | enum =>
      obtain ⟨id, k, _, _, h⟩ := h
      cases k with
      | unit => cases h
      | newtype => obtain ⟨_, e, _⟩ := h; cases e
      | tuple => obtain ⟨_, e, _⟩ := h; cases e
      | struct => obtain ⟨_, e, _⟩ := h; cases e
    | value => exact h.elim
    | raw => exact h.elim

/-! ### The notation -/

theorem checkIdent_keep (t : Text) (d : St) : ∃ b, checkIdent t d = .ok b d := ⟨_, rfl⟩

theorem number_noEq (n : Number) (sfx : Bool) : ∃ c u, n.text sfx = c :: u ∧ c ≠ '=' := by
  rcases number_text_form n sfx with ⟨v, hw⟩ | ⟨c, u, hc, hcd⟩
  · obtain ⟨c, cs, e, hc, -⟩ := reserved_plain (floatWord_reserved hw)
    refine ⟨c, cs, e, ?_⟩
    rintro rfl
    have hx := identFirst_xid hc
    rw [Env.xidCont_ascii _ (by decide)] at hx
    revert hx; decide
  · refine ⟨c, u, hc, ?_⟩
    rintro rfl
    revert hcd; decide

/-- A range with two bounds is recognized by its first character, so that its first bound must not be a word. -/
def StartOk (es : List (Text × Number)) : Prop := es.length = 2 → ∀ e ∈ es.head?, e.2.NoWord

theorem rangeStruct_some {sfx : Bool} {name w r : Text} {es : List (Text × Number)} (h : RangeLit sfx name es w)
    (hw : ∀ e ∈ es, e.2.WF) (hn : StartOk es) {d : St} (hd : d.rest = w ++ r) (hr : IdentFollow r) (hne : ∀ r', r ≠ '=' :: r') :
    RunsW (rangeStruct name (es.map Prod.fst)) d (some (es.map fun e => (e.1, if sfx then e.2.canon else e.2.untyped))) r := by
  cases h with
  | @range a b =>
    simp only [List.append_assoc] at hd
    have wa : a.WF := hw _ (List.mem_cons_self ..)
    have na : a.NoWord := hn rfl _ rfl
    have wb : b.WF := hw _ (List.mem_cons_of_mem _ (List.mem_cons_self ..))
    obtain ⟨c, u, hc, hcd⟩ := na.head sfx
    obtain ⟨c', u', hc', hcd'⟩ := number_noEq b sfx
    obtain ⟨s1, h1, h2, h3⟩ := anyNumber_read a sfx wa hd (numFollow_dots _)
    obtain ⟨s2, g1, g2, g3⟩ := anyNumber_read b sfx wb (s := { s1 with prev := s1.rest, rest := b.text sfx ++ r }) rfl hr.num
    refine ⟨s2, ?_, g2, h3.trans (.of g3)⟩
    have e1 : startsWith s1.rest c!"..=" = false := by
      rw [h2, hc']
      have : c' ≠ '=' := hcd'
      simp [this, Ne.symm this]
    have e2 : (match d.rest with | [] => false | c :: _ => isNumberStart d.rest c) = true := by
      rw [hd, hc]; exact isNumberStart_of hcd _
    unfold rangeStruct
    simp only [bind_apply, getSt_apply, List.map_cons, List.map_nil]
    rw [if_pos (by simp), if_pos (by exact e2)]
    simp only [bind_apply, h1, ite_P, consumeStr_false e1, Bool.false_eq_true, ↓reduceIte]
    rw [consumeStr_true (by rw [h2]; rfl)]
    simp only [h2, ↓reduceIte, bind_apply, pure_apply, List.cons_append, List.drop_succ_cons, List.drop_zero, List.length_cons,
      List.length_nil, List.nil_append, Nat.zero_add, Bool.false_and, Bool.false_eq_true, Bool.not_false, Bool.true_and]
    rw [h2] at g1
    simp only [List.cons_append, List.nil_append] at g1
    rw [if_neg (by decide), g1]
    rfl
  | @rangeInclusive a b =>
    simp only [List.append_assoc] at hd
    have wa : a.WF := hw _ (List.mem_cons_self ..)
    have na : a.NoWord := hn rfl _ rfl
    have wb : b.WF := hw _ (List.mem_cons_of_mem _ (List.mem_cons_self ..))
    obtain ⟨c, u, hc, hcd⟩ := na.head sfx
    obtain ⟨s1, h1, h2, h3⟩ := anyNumber_read a sfx wa hd (numFollow_dots _)
    obtain ⟨s2, g1, g2, g3⟩ := anyNumber_read b sfx wb (s := { s1 with prev := s1.rest, rest := b.text sfx ++ r }) rfl hr.num
    refine ⟨s2, ?_, g2, h3.trans (.of g3)⟩
    have e2 : (match d.rest with | [] => false | c :: _ => isNumberStart d.rest c) = true := by
      rw [hd, hc]; exact isNumberStart_of hcd _
    unfold rangeStruct
    simp only [bind_apply, getSt_apply, List.map_cons, List.map_nil]
    rw [if_pos (by simp), if_pos (by exact e2)]
    simp only [bind_apply, h1, ite_P, ↓reduceIte]
    rw [consumeStr_true (by rw [h2]; rfl)]
    simp only [h2, ↓reduceIte, bind_apply, pure_apply, List.cons_append, List.drop_succ_cons, List.drop_zero, List.length_cons,
      List.length_nil, List.nil_append, Nat.zero_add, Bool.false_and, Bool.false_eq_true, Bool.not_true, Bool.true_and]
    rw [h2] at g1
    simp only [List.cons_append, List.nil_append] at g1
    rw [if_neg (by decide), g1]
    rfl
  | @rangeFrom a =>
    simp only [List.append_assoc] at hd
    have wa : a.WF := hw _ (List.mem_cons_self ..)
    obtain ⟨s1, h1, h2, h3⟩ := anyNumber_read a sfx wa hd (numFollow_dots _)
    refine ⟨{ s1 with prev := s1.rest, rest := r }, ?_, rfl, h3.trans (.of (.refl _))⟩
    have e1 : startsWith s1.rest c!"..=" = false := by
      rw [h2]
      cases r with
      | nil => rfl
      | cons c r =>
        have : c ≠ '=' := fun e => hne r (by rw [e])
        simp [this, Ne.symm this]
    have e3 : ∃ b, (do
        if ← checkIdent c!"inf" then pure true
        else if ← checkIdent c!"inff32" then pure true
        else if ← checkIdent c!"inff64" then pure true
        else if ← checkIdent c!"NaN" then pure true
        else if ← checkIdent c!"NaNf32" then pure true
        else checkIdent c!"NaNf64" : P Bool) d = .ok b d ∧ ((∃ v, (a.text sfx, v) ∈ floatWords) → b = true) := by
      obtain ⟨b1, i1⟩ := checkIdent_keep c!"inf" d
      obtain ⟨b2, i2⟩ := checkIdent_keep c!"inff32" d
      obtain ⟨b3, i3⟩ := checkIdent_keep c!"inff64" d
      obtain ⟨b4, i4⟩ := checkIdent_keep c!"NaN" d
      obtain ⟨b5, i5⟩ := checkIdent_keep c!"NaNf32" d
      obtain ⟨b6, i6⟩ := checkIdent_keep c!"NaNf64" d
      refine ⟨b1 || b2 || b3 || b4 || b5 || b6, ?_, ?_⟩
      · simp only [bind_apply, i1]
        cases b1 with | true => rfl | false => ?_
        simp only [bind_apply, i2, Bool.false_eq_true, ↓reduceIte]
        cases b2 with | true => rfl | false => ?_
        simp only [bind_apply, i3, Bool.false_eq_true, ↓reduceIte]
        cases b3 with | true => rfl | false => ?_
        simp only [bind_apply, i4, Bool.false_eq_true, ↓reduceIte]
        cases b4 with | true => rfl | false => ?_
        simp only [bind_apply, i5, Bool.false_eq_true, ↓reduceIte]
        cases b5 with | true => rfl | false => ?_
        simp only [i6, Bool.false_eq_true, ↓reduceIte, Bool.false_or]
      · rintro ⟨v, hv⟩
        simp only [floatWords, List.mem_cons, Prod.mk.injEq, List.not_mem_nil, or_false] at hv
        have hx : NoIdentStart (c!".." ++ r) := (numFollow_dots _).1
        rcases hv with ⟨hv, -⟩ | ⟨hv, -⟩ | ⟨hv, -⟩ | ⟨hv, -⟩ | ⟨hv, -⟩ | ⟨hv, -⟩ <;>
          (have := checkIdent_true (s := d) (by rw [hd, hv]) hx; simp_all)
    obtain ⟨b, e3, e4⟩ := e3
    have e2 : ((match d.rest with | [] => false | c :: _ => isNumberStart d.rest c) || b) = true := by
      rcases number_text_form a sfx with h | ⟨c, u, hc, hcd⟩
      · rw [e4 h, Bool.or_true]
      · rw [hd, hc, Bool.or_eq_true]; exact .inl (isNumberStart_of hcd _)
    unfold rangeStruct
    simp only [bind_apply, getSt_apply, List.map_cons, List.map_nil]
    rw [if_neg (by simp), if_pos (by simp)]
    simp only [bind_apply] at e3 ⊢
    rw [e3]
    simp only
    rw [if_pos (by exact e2)]
    simp only [↓reduceIte, bind_apply, h1, consumeStr_false e1, Bool.false_eq_true]
    rw [consumeStr_true (by rw [h2]; rfl)]
    simp only [h2, Bool.not_true, Bool.false_eq_true, ↓reduceIte]
    rfl
  | @rangeTo b =>
    simp only [List.append_assoc] at hd
    have wb : b.WF := hw _ (List.mem_cons_self ..)
    obtain ⟨c', u', hc', hcd'⟩ := number_noEq b sfx
    obtain ⟨s2, g1, g2, g3⟩ := anyNumber_read b sfx wb (s := { d with prev := d.rest, rest := b.text sfx ++ r }) rfl hr.num
    refine ⟨s2, ?_, g2, .of g3⟩
    have e1 : startsWith d.rest c!"..=" = false := by
      rw [hd, hc']
      have : c' ≠ '=' := hcd'
      simp [this, Ne.symm this]
    have e2 : startsWith d.rest c!".." = true := by rw [hd]; rfl
    unfold rangeStruct
    simp only [bind_apply, getSt_apply, List.map_cons, List.map_nil]
    rw [if_neg (by simp), if_neg (by simp), if_pos (by simp [e2])]
    simp only [bind_apply, consumeStr_false e1, Bool.false_eq_true, ↓reduceIte]
    rw [consumeStr_true (by rw [hd]; rfl)]
    rw [hd] at g1
    simp only [hd, List.cons_append, List.drop_succ_cons, List.drop_zero, List.length_cons, List.length_nil, List.nil_append,
      Nat.zero_add] at g1 ⊢
    rw [g1]
    rfl
  | @rangeToInclusive b =>
    simp only [List.append_assoc] at hd
    have wb : b.WF := hw _ (List.mem_cons_self ..)
    obtain ⟨s2, g1, g2, g3⟩ := anyNumber_read b sfx wb (s := { d with prev := d.rest, rest := b.text sfx ++ r }) rfl hr.num
    refine ⟨s2, ?_, g2, .of g3⟩
    have e2 : startsWith d.rest c!".." = true := by rw [hd]; rfl
    unfold rangeStruct
    simp only [bind_apply, getSt_apply, List.map_cons, List.map_nil]
    rw [if_neg (by simp), if_neg (by simp), if_neg (by simp), if_pos (by simp [e2])]
    simp only [bind_apply]
    rw [consumeStr_true (by rw [hd]; rfl)]
    rw [hd] at g1
    simp only [hd, Bool.not_true, Bool.false_eq_true, ↓reduceIte, bind_apply, List.cons_append, List.drop_succ_cons, List.drop_zero,
      List.length_cons, List.length_nil, List.nil_append, Nat.zero_add] at g1 ⊢
    rw [g1]
    rfl

/-- The entries of a range are converted to the fields of the struct. -/
theorem visitRange_back {conv : Ty → Number → Except Err SVal} {isOption : Ty → Bool} {sfx : Bool} {name w : Text} {fields : List (Text × Ty)}
    {es : List (Text × Number)} (h : RangeLit sfx name es w) {N : Number → Number}
    (hv : All2 (fun F e => F.1 = e.1 ∧ conv F.2 (N e.2) = .ok (.num e.2)) fields es) :
    visitRange conv isOption fields (es.map fun e => (e.1, N e.2)) = .ok (es.map fun e => (e.1, SVal.num e.2)) := by
  have one : ∀ {k : Text} {a : Number} {fields : List (Text × Ty)},
      All2 (fun F e => F.1 = e.1 ∧ conv F.2 (N e.2) = .ok (.num e.2)) fields [(k, a)] →
      visitRange conv isOption fields [(k, N a)] = .ok [(k, SVal.num a)] := by
    intro k a fields hv
    match fields, hv with
    | [(k', T)], ⟨⟨e, hc⟩, _⟩ =>
      obtain rfl : k' = k := e
      simp only at hc
      simp [visitRange, visitRange.go, collectFields, hc, bind, Except.bind, Except.map]
    | [], h => exact h.elim
    | _ :: _ :: _, h => exact h.2.elim
  have two : ∀ {k l : Text} {a b : Number} {fields : List (Text × Ty)}, k ≠ l →
      All2 (fun F e => F.1 = e.1 ∧ conv F.2 (N e.2) = .ok (.num e.2)) fields [(k, a), (l, b)] →
      visitRange conv isOption fields [(k, N a), (l, N b)] = .ok [(k, SVal.num a), (l, SVal.num b)] := by
    intro k l a b fields hne hv
    match fields, hv with
    | [(k', T), (l', U)], ⟨⟨e, hc⟩, ⟨e', hc'⟩, _⟩ =>
      obtain rfl : k' = k := e
      obtain rfl : l' = l := e'
      simp only at hc hc'
      simp [visitRange, visitRange.go, collectFields, hc, hc', bind, Except.bind, Except.map, hne, Ne.symm hne]
    | [], h => exact h.elim
    | [_], h => exact h.2.elim
    | _ :: _ :: _ :: _, h => exact h.2.2.elim
  cases h with
  | range => exact two (by simp) hv
  | rangeInclusive => exact two (by simp) hv
  | rangeFrom => exact one hv
  | rangeTo => exact one hv
  | rangeToInclusive => exact one hv

omit [Env] in
theorem all2_map_right {α β γ : Type} {R : α → γ → Prop} {g : β → γ} : ∀ {as : List α} {bs : List β}, All2 R as (bs.map g) →
    All2 (fun a b => R a (g b)) as bs
  | [], [], _ => trivial
  | _ :: _, _ :: _, h => ⟨h.1, all2_map_right h.2⟩
  | [], _ :: _, h => h.elim
  | _ :: _, [], h => h.elim

theorem range_tokStart {sfx : Bool} {name w : Text} {es : List (Text × Number)} (h : RangeLit sfx name es w) : TokStart w := by
  have key : ∀ {a b : Text}, TokStart a → TokStart (a ++ b) := by
    rintro a b ⟨c, t, rfl, h⟩; exact ⟨c, t ++ b, rfl, h⟩
  cases h with
  | range => exact key (tokStart_number _ _)
  | rangeInclusive => exact key (tokStart_number _ _)
  | rangeFrom => exact key (tokStart_number _ _)
  | rangeTo => exact ⟨'.', _, rfl, by decide, by decide⟩
  | rangeToInclusive => exact ⟨'.', _, rfl, by decide, by decide⟩

/-- A range in compact notation is read as the struct, whatever the newtype flag is. -/
theorem range_reads_lit {rec : Ty → P SVal} {isOption : Ty → Bool} {conv : Ty → Number → Except Err SVal} {H : Ty → SVal → Prop}
    {x : Exts} {sfx : Bool} {name w : Text} {deny : Bool} {fields : List (Text × Ty)} {es : List (Text × Number)}
    (hconv : ∀ T (a : Number), a.Keeps sfx → H T (.num a) → conv T (if sfx then a.canon else a.untyped) = .ok (.num a))
    (hv : All2 (fun F f => F.1 = f.1 ∧ H F.2 f.2) fields (es.map fun e => (e.1, SVal.num e.2))) (h1 : RangeLit sfx name es w)
    (h2 : ∀ e ∈ es, e.2.WF ∧ e.2.Keeps sfx) (h3 : StartOk es) :
    ReadsA x 0 (deStruct rec isOption conv name deny fields) w (.struct name (es.map fun e => (e.1, SVal.num e.2))) := by
  refine readsA_tok (range_tokStart h1) fun d l q hd hl hq => ?_
  obtain ⟨s', g1, g2, g3⟩ := rangeStruct_some h1 (fun e he => (h2 e he).1) h3 hd (follow_ident hl hq) (follow_noEq hl hq)
  have hv' := all2_map_right hv
  have hn : fields.map Prod.fst = es.map Prod.fst := by
    rw [all2_names hv]; simp [List.map_map, Function.comp_def]
  refine ⟨s', ?_, g2, g3⟩
  unfold deStruct
  rw [hn]
  simp only [bind_apply, g1]
  rw [visitRange_back (N := fun a => if sfx then a.canon else a.untyped) h1
    (All2.mono hv' fun F _ e he h => ⟨h.1, hconv F.2 e.2 (h2 e he).2 h.2⟩)]
  rfl

/-- A compact range within the grammar. -/
theorem range_reads {rec : Ty → P SVal} {isOption : Ty → Bool} {conv : Ty → Number → Except Err SVal} {H : Ty → SVal → Prop}
    {x : Exts} {sfx : Bool} {name w : Text} {deny : Bool} {fields : List (Text × Ty)} {fs : List (Text × SVal)}
    (hconv : ∀ T (a : Number), a.Keeps sfx → H T (.num a) → conv T (if sfx then a.canon else a.untyped) = .ok (.num a))
    (hv : All2 (fun F f => F.1 = f.1 ∧ H F.2 f.2) fields fs) (hw : RangeRend sfx name fs w) :
    ReadsA x 0 (deStruct rec isOption conv name deny fields) w (.struct name fs) := by
  obtain ⟨es, rfl, h1, h2⟩ := hw
  exact range_reads_lit hconv hv h1 (fun e he => ⟨(h2 e he).1, (h2 e he).2.2⟩) fun _ e he => (h2 e (List.mem_of_mem_head? he)).2.1

/-- `..` is read as the unit struct `RangeFull`. -/
theorem full_reads {x : Exts} : ReadsA x 0 (deUnitStruct c!"RangeFull") c!".." () := by
  refine readsA_tok ⟨_, _, rfl, by decide, by decide⟩ fun d l q hd hl hq => ?_
  refine ⟨{ d with prev := d.rest, rest := l ++ q }, ?_, rfl, .of (.refl _)⟩
  unfold deUnitStruct
  simp only [bind_apply, ↓reduceIte]
  rw [consumeStr_true (by rw [hd]; rfl), hd]
  rfl

end Ron
