import Verif.Lemmas.SafeDe
/-!
The typed deserializer: positions stay inside the text, the recursion limit is restored on success, and the depth of
nested calls is bounded by the recursion limit.
-/

set_option linter.unusedSimpArgs false

namespace Ron

section
variable {α : Type} {φ : Prop}

theorem OutD.mapPure {β : Type} {f : P α} {g : α → β} {s : St} (h : OutD φ s (fun _ _ => True) (f s)) :
    OutD φ s (fun _ _ => True) ((f >>= fun a => Pure.pure (g a) : P β) s) :=
  OutD.bind h fun _ _ h1 l1 _ => OutD.pure h1 l1 trivial

theorem tupleLoop_out (expected : Text) (seeds : List (P SVal)) : ∀ (i : Nat) (had : Bool) (s : St), s.Inside →
    (∀ seed ∈ seeds, Seed φ s seed) → OutD φ s (fun _ _ => True) (tupleLoop expected seeds i had s) := by
  induction seeds with
  | nil => intro i had s hi _; exact OutD.pure (.refl hi) rfl trivial
  | cons seed seeds ih =>
    intro i had s hi hs
    unfold tupleLoop
    refine OutD.bind (nextElement_out hi (hs seed List.mem_cons_self)) fun r s1 h1 l1 q1 => ?_
    cases r with
    | none => exact OutD.fail h1 (by simp)
    | some ac =>
      obtain ⟨a, c⟩ := ac
      obtain ⟨-, q3⟩ := q1 a c rfl
      show OutD φ s _ ((do let vs ← tupleLoop expected seeds (i + 1) c; Pure.pure (a :: vs)) s1)
      refine OutD.bind (Q := fun _ _ => True) ?_ fun as s2 h2 l2 _ => OutD.pure h2 l2 trivial
      cases c with
      | true =>
        exact OutD.lift h1 l1 (ih (i + 1) true s1 h1.inside fun sd hm => (hs sd (List.mem_cons_of_mem _ hm)).later h1 l1 (q3 rfl))
      | false =>
        cases seeds with
        | nil => exact OutD.lift h1 l1 (OutD.pure (.refl h1.inside) rfl trivial)
        | cons sd sds =>
          refine OutD.lift h1 l1 ?_
          unfold tupleLoop nextElement
          refine OutD.bind (Q := fun r _ => r = none) ?_ fun r s2 h2 l2 q2 => ?_
          · refine OutD.bind (Out.toD (.refl h1.inside) rfl (hasElement_false h1.inside)) fun r s2 h2 l2 q2 => ?_
            rw [q2.1]
            exact OutD.pure h2 l2 rfl
          · subst q2
            exact OutD.fail h2 (by simp)

variable [Env]

theorem fieldKey_out {deny : Bool} {fields : List Text} {s : St} (hi : s.Inside) :
    OutD φ s (fun r _ => ∀ k, r = some k → fields.contains k = true) (fieldKey deny fields s) := by
  unfold fieldKey
  refine OutD.bind (deIdentifier_out hi) fun id s1 h1 l1 _ => ?_
  refine OutD.ite (fun h => OutD.pure h1 l1 fun k hk => by cases hk; exact h) fun _ => ?_
  exact OutD.ite (fun _ => OutD.fail h1 (by simp)) fun _ => OutD.pure h1 l1 (by intro k hk; cases hk)

theorem nextKeyField_out {deny : Bool} {fields : List Text} {had : Bool} {s : St} (hi : s.Inside) :
    OutD φ s (fun r _ => ∀ k, r = some (some k) → fields.contains k = true) (nextKey ')' had (fieldKey deny fields) s) := by
  unfold nextKey
  refine OutD.bindS (.hasElement _ _) (.refl hi) rfl fun r s1 h1 l1 q1 => ?_
  refine OutD.ite (fun hr => ?_) fun _ => OutD.pure h1 l1 (by intro k hk; cases hk)
  refine OutD.bind (OutD.lift h1 l1 (OutD.guardR h1.inside (fun hu => fieldKey_out hu.from_.inside) (fun _ _ _ h => h)))
    fun a s2 h2 l2 q2 => OutD.pure h2 l2 fun k hk => q2 k (by simpa using hk)

theorem structLoop_out {rec : Ty → P SVal} {deny : Bool} {fields : List (Text × Ty)} (f : Nat) :
    ∀ (had : Bool) (got : Text → Option SVal) (s : St), s.Inside → (∀ e ∈ fields, Seed φ s (rec e.2)) → s.rest.length < f →
      OutD φ s (fun _ _ => True) (structLoop rec deIgnored deny fields f had got s) := by
  induction f with
  | zero => intro had got s _ _ h; omega
  | succ f ih =>
    intro had got s hi hs hf
    unfold structLoop
    refine OutD.bind (nextKeyField_out hi) fun r s1 h1 l1 q1 => ?_
    have e1 := h1.le
    rcases r with _ | _ | key
    · exact OutD.pure h1 l1 trivial
    · refine OutD.bind (OutD.liftF h1 l1 (nextValue_out h1.inside fun s' g1 g2 g3 s2 hu => deIgnored_out hu.from_.inside))
        fun vh s2 h2 l2 q2 => ?_
      obtain ⟨v, had'⟩ := vh
      have e2 := q2.1
      exact OutD.lift h2 l2 (ih had' got s2 h2.inside (fun e he => (hs e he).later h2 l2 (by omega)) (by omega))
    · refine OutD.ite (fun _ => OutD.fail h1 (by simp)) fun _ => ?_
      have hk := q1 key rfl
      cases hfind : fields.find? (fun e => e.1 = key) with
      | none =>
        rw [List.find?_eq_none] at hfind
        simp at hk
        obtain ⟨x, hx⟩ := hk
        exact False.elim (by simpa using hfind _ hx)
      | some e =>
        obtain ⟨nm, t⟩ := e
        have hm := List.mem_of_find?_eq_some hfind
        refine OutD.bind (OutD.liftF h1 l1 (nextValue_out h1.inside fun s' g1 g2 g3 =>
          (hs _ hm).later (h1.trans g1) (g2.trans l1) (by omega))) fun vh s2 h2 l2 q2 => ?_
        obtain ⟨v, had'⟩ := vh
        have e2 := q2.1
        exact OutD.lift h2 l2 (ih had' _ s2 h2.inside (fun e he => (hs e he).later h2 l2 (by omega)) (by omega))

omit [Env] in
theorem collectFields_ne {x : Err} (hx : ¬ x.Fine) {isOption : Ty → Bool} {got : Text → Option SVal} {fields : List (Text × Ty)} :
    collectFields isOption got fields ≠ .error x := by
  induction fields with
  | nil => simp [collectFields]
  | cons e fs ih =>
    obtain ⟨f, t⟩ := e
    unfold collectFields
    cases got f with
    | some v => cases h : collectFields isOption got fs with
      | ok a => simp [Except.map]
      | error e => rw [h] at ih; simpa [Except.map] using ih
    | none =>
      show (if isOption t = true then _ else _) ≠ _
      cases isOption t with
      | false =>
        intro h
        simp only [Bool.false_eq_true, ↓reduceIte, Except.error.injEq] at h
        exact hx (by rw [← h]; simp)
      | true => cases h : collectFields isOption got fs with
        | ok a => simp [Except.map]
        | error e => rw [h] at ih; simpa [Except.map] using ih

omit [Env] in
theorem liftE_out {b s : St} {r : Except Err α} (hb : FromD b s) (hl : s.limit = b.limit) (h : r = .error .fuel → φ)
    (h' : r ≠ .error .panic) : OutD φ b (fun _ _ => True) (liftE r s) := by
  cases r with
  | ok a => exact OutD.pure hb hl trivial
  | error e => exact ⟨hb, fun he => h (by rw [he]), fun he => h' (by rw [he])⟩

theorem visitStruct_out {rec : Ty → P SVal} {isOption : Ty → Bool} {deny : Bool} {fields : List (Text × Ty)} {s : St}
    (hi : s.Inside) (hs : ∀ e ∈ fields, Seed φ s (rec e.2)) :
    OutD φ s (fun _ _ => True) (visitStruct rec isOption deny fields s) := by
  unfold visitStruct
  refine OutD.getSt ?_
  refine OutD.bind (structLoop_out _ true _ s hi hs (by omega)) fun got s1 h1 l1 _ => ?_
  exact liftE_out h1 l1 (fun h => absurd h (collectFields_ne (by simp))) (collectFields_ne (by simp))

/-- Conversions of a number to a type do not run out of fuel. -/
theorem numTo_ne {D : Nat → Ty} {f : Nat} {t : Ty} {n : Number} (hf : 2 ≤ f) (hD : ∀ i j, D i ≠ .ref j) :
    numTo D f t n ≠ .error .fuel := by
  obtain ⟨f, rfl⟩ : ∃ g, f = g + 2 := ⟨f - 2, by omega⟩
  have key : ∀ f (t : Ty), (∀ j, t ≠ .ref j) → numTo D (f + 1) t n ≠ .error .fuel := by
    intro f t ht
    unfold numTo
    split <;> first | (exact absurd rfl (ht _)) | (split <;> simp) | simp
  cases t with
  | ref i => exact key f (D i) (hD i)
  | _ => exact key (f + 1) _ (by simp)

theorem numTo_panic {D : Nat → Ty} : ∀ {f : Nat} {t : Ty} {n : Number}, numTo D f t n ≠ .error .panic := by
  intro f
  induction f with
  | zero => intro t n; simp [numTo]
  | succ f ih =>
    intro t n
    unfold numTo
    split <;> first | exact ih | (split <;> simp) | simp

theorem visitRange_ne {x : Err} (hx : ¬ x.Fine) {conv : Ty → Number → Except Err SVal} {isOption : Ty → Bool} {fields : List (Text × Ty)}
    {es : List (Text × Number)} (h : ∀ t n, conv t n = .error x → φ) (h' : visitRange conv isOption fields es = .error x) : φ := by
  unfold visitRange at h'
  have key : ∀ es got, visitRange.go conv fields es got = .error x → φ := by
    intro es
    induction es with
    | nil => intro got h; simp [visitRange.go] at h
    | cons e es ih =>
      obtain ⟨key, n⟩ := e
      intro got hg
      unfold visitRange.go at hg
      cases hfind : fields.find? (fun e => e.1 = key) with
      | none =>
        rw [hfind] at hg
        simp only [Except.error.injEq] at hg
        exact absurd (by rw [← hg]; simp) hx
      | some e =>
        rw [hfind] at hg
        obtain ⟨nm, t⟩ := e
        cases hc : conv t n with
        | error e => simp [hc, bind, Except.bind] at hg; subst hg; exact h _ _ hc
        | ok v => simp [hc, bind, Except.bind] at hg; exact ih _ hg
  cases hg : visitRange.go conv fields es (fun _ => none) with
  | error e => rw [hg] at h'; simp [bind, Except.bind] at h'; subst h'; exact key _ _ hg
  | ok got => rw [hg] at h'; exact absurd h' (collectFields_ne hx)

theorem Safe.rangeStruct (name : Text) (fields : List Text) : Safe (rangeStruct name fields) := by
  unfold Ron.rangeStruct
  refine .bind .getSt fun s => ?_
  repeat safe_step

theorem deStruct_out {rec : Ty → P SVal} {isOption : Ty → Bool} {conv : Ty → Number → Except Err SVal} {name : Text}
    {deny : Bool} {fields : List (Text × Ty)} {s : St} (hi : s.Inside) (hc : ∀ t n, conv t n = .error .fuel → φ)
    (hc' : ∀ t n, conv t n ≠ .error .panic)
    (hs : ∀ e ∈ fields, Seed φ s (rec e.2)) : OutD φ s (fun _ _ => True) (deStruct rec isOption conv name deny fields s) := by
  unfold deStruct
  refine OutD.bindS (.rangeStruct _ _) (.refl hi) rfl fun r s1 h1 l1 q1 => ?_
  cases r with
  | some es => exact OutD.bind (liftE_out h1 l1 (visitRange_ne (by simp) hc) (visitRange_ne (φ := False) (by simp) hc')) fun _ _ h2 l2 _ => OutD.pure h2 l2 trivial
  | none =>
    refine OutD.getSt ?_
    have key : ∀ s2, FromD s s2 → s2.limit = s.limit → From s s2 → OutD φ s (fun _ _ => True)
        ((do skipWs; let fs ← structAfterName name (visitStruct rec isOption deny fields); Pure.pure (.struct name fs) : P SVal) s2) := by
      intro s2 h2 l2 q2
      refine OutD.bindS .skipWs h2 l2 fun _ s3 h3 l3 q3 => ?_
      have q3 := q2.trans q3
      refine OutD.lift h3 l3 (OutD.mapPure (structAfterName_out h3.inside ?_))
      intro s4 hu hm
      exact visitStruct_out hu.from_.inside fun e he s5 hu5 => hs e he s5 (.pre h3 l3 q3.meas (hu.trans hu5))
    refine OutD.ite (fun _ => ?_) fun _ => key s1 h1 l1 q1
    exact OutD.bindS (.consumeStructName _) h1 l1 fun _ s2 h2 l2 q2 => key s2 h2 l2 (q1.trans q2)

theorem deUnitStruct_out {name : Text} {s : St} (hi : s.Inside) : OutD φ s (fun _ _ => True) (deUnitStruct name s) := by
  unfold deUnitStruct
  refine OutD.bind (Q := fun _ _ => True) ?_ fun r s1 h1 l1 _ => OutD.ite (fun _ => OutD.pure h1 l1 trivial) fun _ => ?_
  · exact OutD.ite (fun _ => ((Safe.consumeStr _).toD (.refl hi) rfl).top) fun _ => OutD.pure (.refl hi) rfl trivial
  refine OutD.getSt ?_
  refine OutD.bind (Q := fun _ _ => True) ?_ fun r s2 h2 l2 _ => OutD.ite (fun _ => ⟨h2.nv false, l2, trivial⟩) fun _ => ?_
  · exact OutD.ite (fun _ => OutD.pure h1 l1 trivial) fun _ => ((Safe.consumeStructName _).toD h1 l1).top
  exact OutD.lift h2 l2 (deUnit_out h2.inside)

theorem deNewtype_out {name : Text} {visit : P α} {s : St} (hi : s.Inside) (hv : Seed φ s visit) :
    OutD φ s (fun _ _ => True) (deNewtype name visit s) := by
  unfold deNewtype
  refine OutD.getSt ?_
  refine OutD.ite (fun _ => ?_) fun _ => ?_
  · refine OutD.setNv ?_
    refine (Seed.guardR (hv.pre ((FromD.refl hi).nv false) rfl ?_) ((FromD.refl hi).nv false) rfl).top
    simp [St.meas]
  · refine OutD.bindS (.consumeStructName _) (.refl hi) rfl fun _ s1 h1 l1 q1 => ?_
    refine OutD.bindS .skipWs h1 l1 fun _ s2 h2 l2 q2 => ?_
    refine OutD.bindS (.consumeChar _) h2 l2 fun r s3 h3 l3 q3 => ?_
    refine OutD.ite (fun _ => ?_) fun _ => OutD.ite (fun _ => OutD.fail h3 (by simp)) fun _ => OutD.fail h3 (by simp)
    refine OutD.bindS .skipWs h3 l3 fun _ s4 h4 l4 q4 => ?_
    have q := q1.trans (q2.trans (q3.trans q4))
    refine OutD.bind ((hv.pre h4 l4 q.meas).guardQ h4 l4) fun v s5 h5 l5 _ => ?_
    refine OutD.bindS .comma h5 l5 fun _ s6 h6 l6 _ => ?_
    refine OutD.bindS (.consumeChar _) h6 l6 fun r s7 h7 l7 _ => ?_
    exact OutD.ite (fun _ => OutD.pure h7 l7 trivial) fun _ => OutD.fail h7 (by simp)

theorem deRaw_out {s : St} (hi : s.Inside) : OutD φ s (fun _ _ => True) (deRaw s) := by
  unfold deRaw
  refine OutD.getSt ?_
  refine OutD.bindS .skipWs (.refl hi) rfl fun _ s1 h1 l1 _ => ?_
  refine OutD.bind (OutD.lift h1 l1 (deIgnored_out h1.inside)) fun _ s2 h2 l2 _ => ?_
  refine OutD.bindS .skipWs h2 l2 fun _ s3 h3 l3 _ => ?_
  refine OutD.bindS .hasUnclosedLineComment h3 l3 fun r s4 h4 l4 _ => ?_
  refine OutD.ite (fun _ => OutD.fail h4 (by simp)) fun _ => ?_
  refine OutD.getSt ?_
  generalize fromStr {} deIgnored (s.preWs.take (s.preWs.length - s4.rest.length)) = r
  cases r with
  | ok _ => exact OutD.pure h4 l4 trivial
  | error _ => exact OutD.fail h4 (by simp)

theorem deTupleStruct_out {name : Text} {visit : P α} {s : St} (hi : s.Inside) (hv : SeedLt φ s visit) :
    OutD φ s (fun _ _ => True) (deTupleStruct name visit s) := by
  unfold deTupleStruct
  refine OutD.getSt ?_
  have key : ∀ s2, FromD s s2 → s2.limit = s.limit → From s s2 → OutD φ s (fun _ _ => True)
      (mapErr (fun e => if e = .expectedStructLike ∧ !name.isEmpty then .expectedNamedStructLike name else e) (deTuple visit) s2) := by
    intro s2 h2 l2 q2
    refine OutD.mapErr (OutD.lift h2 l2 (deTuple_out h2.inside (hv.pre h2 l2 q2.meas))) ?_
    refine fun e => ⟨fun he => ?_, fun he => ?_⟩ <;>
    · split at he
      · cases he
      · exact he
  refine OutD.ite (fun _ => ?_) fun _ => key s (.refl hi) rfl (.refl hi)
  exact OutD.bindS (.consumeStructName _) (.refl hi) rfl fun _ s2 h2 l2 q2 => key s2 h2 l2 q2

theorem newtypeVariant_out {seed : P α} {s : St} (hi : s.Inside) (hv : SeedLt φ s seed) :
    OutD φ s (fun _ _ => True) (newtypeVariant seed s) := by
  unfold newtypeVariant
  refine OutD.getSt ?_
  refine OutD.bindS .skipWs (.refl hi) rfl fun _ s1 h1 l1 q1 => ?_
  have e1 := h1.le
  refine OutD.bind (Out.toD h1 l1 (consumeChar_out h1.inside '(')) fun r s2 h2 l2 q2 => ?_
  refine OutD.ite (fun hr => ?_) fun _ => OutD.fail h2 (by simp)
  have e2 := q2.1.2 hr
  refine OutD.bindS .skipWs h2 l2 fun _ s3 h3 l3 q3 => ?_
  have e3 := q3.toD.le
  refine OutD.modSt ?_
  have hn := h3.nv s3.exts.unwrapVariantNewtypes
  have hsd := hv.seed hn l3 (meas_nv (by omega) _)
  refine OutD.bind (Seed.guardQ (fun s' hu => OutD.mapErr (hsd s' hu) (structErrorName_fuel _)) hn l3) fun v s5 h5 l5 _ => ?_
  refine OutD.setNv ?_
  refine OutD.bindS .comma (h5.nv _) l5 fun _ s6 h6 l6 _ => ?_
  refine OutD.bindS (.consumeChar _) h6 l6 fun r s7 h7 l7 _ => ?_
  exact OutD.ite (fun _ => OutD.pure h7 l7 trivial) fun _ => OutD.fail h7 (by simp)

theorem variantData_out {rec : Ty → P SVal} {isOption : Ty → Bool} {name variant : Text} {k : Variant} {s : St}
    (hi : s.Inside) (hs : ∀ t, Seed φ s (rec t)) : OutD φ s (fun _ _ => True) (variantData rec isOption name variant k s) := by
  cases k with
  | unit => exact OutD.pure (.refl hi) rfl trivial
  | newtype t => exact OutD.mapPure (newtypeVariant_out hi (hs t).lt)
  | tuple ts =>
    unfold variantData
    refine OutD.bindS .skipWs (.refl hi) rfl fun _ s1 h1 l1 q1 => ?_
    refine OutD.lift h1 l1 (OutD.mapPure (deTuple_out h1.inside ?_))
    intro s2 hu hm
    refine tupleLoop_out _ _ _ _ _ hu.from_.inside fun sd hsd s3 hu3 => ?_
    obtain ⟨t, -, rfl⟩ := List.mem_map.1 hsd
    exact hs t s3 (.pre h1 l1 q1.meas (hu.trans hu3))
  | struct deny fields =>
    unfold variantData
    refine OutD.getSt ?_
    refine OutD.bindS .skipWs (.refl hi) rfl fun _ s1 h1 l1 q1 => ?_
    refine OutD.lift h1 l1 (OutD.mapPure (OutD.mapErr (structAfterName_out h1.inside ?_) (structErrorName_fuel _)))
    intro s2 hu hm
    exact visitStruct_out hu.from_.inside fun e he s5 hu5 => hs e.2 s5 (.pre h1 l1 q1.meas (hu.trans hu5))

theorem visitEnum_out {rec : Ty → P SVal} {isOption : Ty → Bool} {name : Text} {variants : List (Text × Variant)} {s : St}
    (hi : s.Inside) (hn : s.nv = false) (hs : ∀ t, Seed φ s (rec t)) :
    OutD φ s (fun _ _ => True) (visitEnum rec isOption name variants s) := by
  unfold visitEnum
  refine OutD.bindS .skipWs (.refl hi) rfl fun _ s1 h1 l1 q1 => ?_
  refine OutD.bind (Q := fun _ s2 => s2.nv = false ∧ FromD s s2) ?_ fun r s2 h2 l2 q2 => ?_
  · refine OutD.imp (Q := fun _ s2 => s2.nv = false) ?_ fun _ _ h hq => ⟨hq, h⟩
    refine OutD.lift h1 l1 (OutD.guardQ h1.inside (fun hu => ?_) (fun _ _ _ h => h))
    unfold deIdentifier
    refine OutD.bind (Q := fun _ s' => s'.nv = false) ?_ fun id s2 h2 l2 q2 => ?_
    · refine OutD.bindS .identifier (.refl hu.from_.inside) rfl fun id s2 h2 l2 q2 => ?_
      exact ⟨⟨⟨h2.inside.rest, h2.inside.prev, h2.inside.preWs⟩, h2.rest, h2.src, h2.exts⟩, l2, by
        show s2.nv = false
        rw [q2.nv]
        show s1.nv = false
        rw [q1.nv, hn]⟩
    · generalize variants.find? (fun e => e.1 = id) = r
      cases r with
      | none => exact OutD.fail h2 (by simp)
      | some e => exact OutD.pure h2 l2 q2
  · obtain ⟨id, k⟩ := r
    refine OutD.lift h2 l2 (variantData_out h2.inside fun t => (hs t).pre h2 l2 ?_)
    exact meas_le h2.le (q2.1.trans hn.symm)

theorem deEnum_out {name : Text} {visit : P α} {s : St} (hi : s.Inside)
    (hv : ∀ s', Under s s' → s'.nv = false → OutD φ s' (fun _ _ => True) (visit s')) :
    OutD φ s (fun _ _ => True) (deEnum name visit s) := by
  unfold deEnum
  refine OutD.setNv ?_
  have h0 := (FromD.refl hi).nv false
  refine OutD.mapErr (OutD.lift h0 rfl (OutD.guardR h0.inside (fun hu => ?_) (fun _ _ _ h => h))) ?_
  · exact hv _ (.pre h0 rfl (by simp [St.meas]) hu) rfl
  · refine fun e => ⟨?_, ?_⟩ <;>
    · split
      · intro he; split at he <;> cases he
      · exact id

theorem Safe.deInt (t : IntTy) : Safe (deInt t) := by
  unfold Ron.deInt
  exact .ite (.fail' rfl) (.integer _)

theorem deBytes_out {s : St} (hi : s.Inside) : OutD φ s (fun _ _ => True) (deBytes s) := by
  unfold deBytes
  refine OutD.bindS (.checkChar _) (.refl hi) rfl fun r s1 h1 l1 _ => ?_
  refine OutD.ite (fun _ => ?_) fun _ => (Safe.byteString.toD h1 l1).top
  refine OutD.lift h1 l1 (deSeq_out h1.inside fun s2 hu _ => readSeq_out hu.from_.inside fun s3 hu3 => ?_)
  exact OutD.bindS (.integer _) (.refl hu3.from_.inside) rfl fun r s4 h4 l4 _ => OutD.pure h4 l4 trivial

/-- Whether a type is a reference to a definition. -/
def Ty.isRef : Ty → Bool
  | .ref _ => true
  | _ => false

/-- Fuel of twice the recursion limit suffices, unless definitions refer to references. -/
theorem deTy_out {D : Nat → Ty} (f : Nat) : ∀ (t : Ty) (s : St), s.Inside →
    ((∃ n, s.limit = some n ∧ 2 * n + (if t.isRef then 4 else 3) ≤ f) ∧ (∀ i j, D i ≠ .ref j) ∨ φ) →
    OutD φ s (fun _ _ => True) (deTy D f t s) := by
  induction f with
  | zero =>
    intro t s hi h
    refine ⟨.refl hi, fun _ => ?_, by simp⟩
    rcases h with ⟨⟨n, -, h⟩, -⟩ | h
    · split at h <;> omega
    · exact h
  | succ f ih =>
    intro t s hi h
    have hsub : t.isRef = false → ∀ t', Seed φ s (deTy D f t') := by
      intro ht t' s' hu
      refine ih t' s' hu.from_.inside ?_
      rcases h with ⟨⟨n, h1, h⟩, hD⟩ | h
      · refine .inl ⟨?_, hD⟩
        obtain ⟨k, k1, k2, k3⟩ := hu.lim
        rw [h1] at k2
        have := k3 n h1
        refine ⟨n - k, k2, ?_⟩
        rw [ht] at h
        simp at h
        split <;> omega
      · exact .inr h
    have hconv : t.isRef = false → ∀ t' n, numTo D f t' n = .error .fuel → φ := by
      intro ht t' m hm
      rcases h with ⟨⟨n, h1, h⟩, hD⟩ | h
      · rw [ht] at h
        simp at h
        exact absurd hm (numTo_ne (by omega) hD)
      · exact h
    cases t with
    | bool => exact OutD.mapPure (Safe.bool.toD (.refl hi) rfl).top
    | int t => exact OutD.mapPure (g := fun x : IntTy × Int => SVal.num (.int x.1 x.2)) ((Safe.deInt _).toD (.refl hi) rfl).top
    | f32 => exact OutD.mapPure ((Safe.float _).toD (.refl hi) rfl).top
    | f64 => exact OutD.mapPure ((Safe.float _).toD (.refl hi) rfl).top
    | char => exact OutD.mapPure (Safe.charLit.toD (.refl hi) rfl).top
    | str => exact OutD.mapPure (Safe.string.toD (.refl hi) rfl).top
    | bytes => exact OutD.mapPure (deBytes_out hi)
    | unit => exact OutD.mapPure (deUnit_out hi)
    | unitStruct name => exact OutD.mapPure (deUnitStruct_out hi)
    | newtype name t => exact OutD.mapPure (deNewtype_out hi (hsub rfl t))
    | option t =>
      have : Seed φ s (do let v ← deTy D f t; Pure.pure (.some v) : P SVal) := fun s' hu => OutD.mapPure (hsub rfl t s' hu)
      exact deOption_out hi this.lt fun _ => this
    | seq t => exact OutD.mapPure (deSeq_out hi fun s' hu hm => readSeq_out hu.from_.inside ((hsub rfl t).lt.under hu hm))
    | tuple ts =>
      refine OutD.mapPure (deTuple_out hi fun s' hu hm => tupleLoop_out _ _ _ _ _ hu.from_.inside fun sd hsd => ?_)
      obtain ⟨t, -, rfl⟩ := List.mem_map.1 hsd
      exact (hsub rfl t).lt.under hu hm
    | tupleStruct name ts =>
      refine OutD.mapPure (deTupleStruct_out hi fun s' hu hm => tupleLoop_out _ _ _ _ _ hu.from_.inside fun sd hsd => ?_)
      obtain ⟨t, -, rfl⟩ := List.mem_map.1 hsd
      exact (hsub rfl t).lt.under hu hm
    | map k v =>
      exact OutD.mapPure (deMap_out hi fun s' hu hm => readMap_out hu.from_.inside ((hsub rfl k).lt.under hu hm) ((hsub rfl v).lt.under hu hm))
    | struct name deny fields => exact deStruct_out hi (hconv rfl) (fun _ _ => numTo_panic) fun e _ => hsub rfl e.2
    | enum name variants =>
      exact deEnum_out hi fun s' hu hn => visitEnum_out hu.from_.inside hn fun t s2 hu2 => hsub rfl t s2 (hu.trans hu2)
    | value => exact OutD.mapPure (deValue_out hi)
    | raw => exact OutD.mapPure (deRaw_out hi)
    | ref i =>
      refine ih (D i) s hi ?_
      rcases h with ⟨⟨n, h1, h⟩, hD⟩ | h
      · refine .inl ⟨⟨n, h1, ?_⟩, hD⟩
        have : (D i).isRef = false := by
          cases hDi : D i <;> first | rfl | exact absurd hDi (hD _ _)
        rw [this]
        simp [Ty.isRef] at h ⊢
        omega
      · exact .inr h

end

end Ron
