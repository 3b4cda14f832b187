import Verif.Lemmas.SafeTy
import Verif.Lemmas.Attr
import Verif.Model.Open
/-!
Whole documents: the attributes, then the value, then the end.
-/

set_option linter.unusedSimpArgs false

namespace Ron

section
variable {α : Type} {φ : Prop} [Env]

theorem extensionList_out (f : Nat) : ∀ (acc : Exts) (s : St), s.Inside → s.rest.length < f →
    Out s (fun _ _ => True) (extensionList f acc s) := by
  induction f with
  | zero => intro acc s _ h; omega
  | succ f ih =>
    intro acc s hi hf
    unfold extensionList
    refine Out.bindS .identifier (.refl hi) fun id s1 h1 _ => ?_
    generalize Exts.fromIdent id = e
    cases e with
    | none => exact Out.fail h1 (by simp)
    | some e =>
      refine Out.bind ((comma_out h1.inside).lift h1) fun c s2 h2 q2 => ?_
      refine Out.getSt ?_
      refine Out.ite (fun _ => Out.fail h2 (by simp)) fun _ => ?_
      refine Out.ite (fun _ => Out.pure h2 trivial) fun hc => ?_
      have hc : c = true := by cases c <;> simp_all
      have := q2 hc
      have := h1.rest.length_le
      exact (ih _ s2 h2.inside (by omega)).lift h2

omit [Env] in
theorem consumeAll_out {t : Text} {ts : List Text} {s : St} (hi : s.Inside) (ht : 0 < t.length) :
    Out s (fun r s' => r = true → s'.rest.length < s.rest.length) (consumeAll (t :: ts) true s) := by
  unfold consumeAll
  refine Out.bind (consumeStr_out hi t) fun r s1 h1 q1 => ?_
  refine Out.ite (fun hr => ?_) fun hr => ?_
  · have := q1.2 hr
    refine Out.bindS .skipWs h1 fun _ s2 h2 q2 => ?_
    refine (Safe.at (.consumeAll ts true) h2).imp fun r s3 h3 q3 _ => ?_
    have := (q2.trans q3).rest.length_le
    omega
  · have key := Safe.at (.consumeAll ts false) h1
    cases hc : consumeAll ts false s1 with
    | err e s2 => rw [hc] at key; exact key
    | ok r s2 =>
      rw [hc] at key
      refine ⟨key.1, fun hr => ?_⟩
      subst hr
      exact (consumeAll_false _ hc).elim

theorem docAttribute_out {s : St} (hi : s.Inside) :
    Out s (fun r s' => (match r with | .none => True | _ => s'.rest.length < s.rest.length)) (docAttribute s) := by
  unfold docAttribute
  refine Out.bindS (.checkChar _) (.refl hi) fun r s1 h1 _ => ?_
  refine Out.ite (fun _ => Out.pure h1 trivial) fun _ => ?_
  have e1 := h1.rest.length_le
  refine Out.bind ((consumeAll_out h1.inside (by simp)).lift h1) fun r s2 h2 q2 => ?_
  refine Out.ite (fun _ => Out.fail h2 (by simp)) fun hr => ?_
  have e2 := q2 (by simpa using hr)
  refine Out.bindS .skipWs h2 fun _ s3 h3 q3 => ?_
  have e3 := q3.rest.length_le
  refine Out.bindS (.consumeIdent _) h3 fun r s4 h4 q4 => ?_
  have e4 := q4.rest.length_le
  refine Out.ite (fun _ => ?_) fun _ => ?_
  · refine Out.bindS .skipWs h4 fun _ s5 h5 q5 => ?_
    have e5 := q5.rest.length_le
    refine Out.bindS (.consumeStr _) h5 fun _ s6 h6 q6 => ?_
    have e6 := q6.rest.length_le
    refine Out.ite (fun _ => Out.fail h6 (by simp)) fun _ => ?_
    refine Out.bindS .skipWs h6 fun _ s7 h7 q7 => ?_
    have e7 := q7.rest.length_le
    refine Out.getSt ?_
    refine Out.bind ((extensionList_out _ _ s7 h7.inside (by omega)).liftF h7) fun e s8 h8 q8 => ?_
    have e8 := q8.2.rest.length_le
    refine Out.bindS .skipWs h8 fun _ s9 h9 q9 => ?_
    have e9 := q9.rest.length_le
    refine Out.bindS (.consumeAll _ _) h9 fun _ s10 h10 q10 => ?_
    have e10 := q10.rest.length_le
    exact Out.ite (fun _ => Out.pure h10 (by show _ < _; omega)) fun _ => Out.fail h10 (by simp)
  · refine Out.bindS (.consumeIdent _) h4 fun r s5 h5 q5 => ?_
    have e5 := q5.rest.length_le
    refine Out.bindS (.ite (.pure _) (.consumeIdent _)) h5 fun _ s6 h6 q6 => ?_
    have e6 := q6.rest.length_le
    refine Out.ite (fun _ => ?_) fun _ => Out.fail h6 (by simp)
    refine Out.bindS .skipWs h6 fun _ s7 h7 q7 => ?_
    have e7 := q7.rest.length_le
    refine Out.bindS (.consumeStr _) h7 fun _ s8 h8 q8 => ?_
    have e8 := q8.rest.length_le
    refine Out.ite (fun _ => Out.fail h8 (by simp)) fun _ => ?_
    refine Out.bindS .skipWs h8 fun _ s9 h9 q9 => ?_
    have e9 := q9.rest.length_le
    refine Out.bindS .string h9 fun _ s10 h10 q10 => ?_
    have e10 := q10.rest.length_le
    refine Out.bindS .skipWs h10 fun _ s11 h11 q11 => ?_
    have e11 := q11.rest.length_le
    refine Out.bindS (.consumeStr _) h11 fun _ s12 h12 q12 => ?_
    have e12 := q12.rest.length_le
    exact Out.ite (fun _ => Out.pure h12 (by show _ < _; omega)) fun _ => Out.fail h12 (by simp)

/-- Reachable with possibly more extensions. -/
structure FromX (b s : St) : Prop where
  inside : s.Inside
  rest : s.rest <:+ b.rest
  src : s.src = b.src
  limit : s.limit = b.limit
  nv : s.nv = b.nv

omit [Env] in
theorem From.toX {b s : St} (h : From b s) : FromX b s := ⟨h.inside, h.rest, h.src, h.limit, h.nv⟩
omit [Env] in
theorem FromX.trans {a b c : St} (h : FromX a b) (g : FromX b c) : FromX a c :=
  ⟨g.inside, g.rest.trans h.rest, g.src.trans h.src, g.limit.trans h.limit, g.nv.trans h.nv⟩

/-- The attribute loop ends, in a state inside the text. -/
def OutX (b : St) : Res Unit → Prop
  | .ok _ s => FromX b s
  | .err e s => FromX b s ∧ e.Fine

omit [Env] in
theorem OutX.lift {b s : St} {r : Res Unit} (h : FromX b s) (g : OutX s r) : OutX b r := by
  cases r with
  | ok _ s' => exact h.trans g
  | err e s' => exact ⟨h.trans g.1, g.2⟩

omit [Env] in
theorem OutX.bind {b s : St} {f : P α} {g : α → P Unit} {Q : α → St → Prop} (hf : Out b Q (f s))
    (hg : ∀ a s', From b s' → Q a s' → OutX b (g a s')) : OutX b ((f >>= g) s) := by
  show OutX b (P.bind f g s)
  unfold P.bind
  revert hf
  cases f s with
  | ok a s' => exact fun hf => hg a s' hf.1 hf.2
  | err e s' => exact fun hf => ⟨hf.1.toX, hf.2⟩

theorem attributes_out (f : Nat) : ∀ s : St, s.Inside → s.rest.length < f → OutX s (attributes f s) := by
  induction f with
  | zero => intro s _ h; omega
  | succ f ih =>
    intro s hi hf
    unfold attributes
    refine OutX.bind (docAttribute_out hi) fun r s1 h1 q1 => ?_
    cases r with
    | none => exact h1.toX
    | extensions e =>
      have q1 : s1.rest.length < s.rest.length := q1
      let s2 : St := { s1 with exts := s1.exts.union e }
      have i2 : s2.Inside := ⟨h1.inside.rest, h1.inside.prev, h1.inside.preWs⟩
      show OutX s ((skipWs >>= fun _ => attributes f) s2)
      have h2 : FromX s s2 := ⟨i2, h1.rest, h1.src, h1.limit, h1.nv⟩
      refine OutX.lift h2 ?_
      refine OutX.bind (Safe.at .skipWs (.refl i2)) fun _ s3 h3 _ => ?_
      refine OutX.lift h3.toX (ih s3 h3.inside ?_)
      have h3 := h3.rest.length_le
      have : s2.rest.length = s1.rest.length := rfl
      omega
    | ignored =>
      have q1 : s1.rest.length < s.rest.length := q1
      refine OutX.lift h1.toX ?_
      show OutX s1 ((skipWs >>= fun _ => attributes f) s1)
      refine OutX.bind (Safe.at .skipWs (.refl h1.inside)) fun _ s3 h3 _ => ?_
      refine OutX.lift h3.toX (ih s3 h3.inside ?_)
      have h3 := h3.rest.length_le
      omega

omit [Env] in
theorem St.init_inside (t : Text) : (St.init t).Inside := ⟨List.suffix_refl _, List.suffix_refl _, List.suffix_refl _⟩

/-- Opening a document: it ends, inside the text, with the limit of the options. -/
theorem deNew_out (o : Options) (t : Text) : match deNew o (St.init t) with
    | .ok _ s => s.Inside ∧ s.src = t ∧ s.limit = o.recursionLimit ∧ s.nv = false
    | .err e s => s.Inside ∧ s.src = t ∧ e.Fine := by
  let s0 : St := { St.init t with limit := o.recursionLimit }
  have i0 : s0.Inside := ⟨List.suffix_refl _, List.suffix_refl _, List.suffix_refl _⟩
  have key : OutX s0 (parserNew s0) := by
    unfold parserNew
    refine OutX.bind (Safe.at .skipWs (.refl i0)) fun _ s1 h1 _ => ?_
    exact OutX.lift h1.toX (attributes_out _ s1 h1.inside (by omega))
  have hd : deNew o (St.init t) = match parserNew s0 with
    | .ok _ s => .ok () { s with exts := s.exts.union o.defaultExtensions }
    | .err e s => .err e s := by
    show P.bind parserNew _ s0 = _
    unfold P.bind
    cases parserNew s0 <;> rfl
  rw [hd]
  revert key
  cases parserNew s0 with
  | ok _ s => exact fun h => ⟨⟨h.inside.rest, h.inside.prev, h.inside.preWs⟩, h.src, h.limit, h.nv⟩
  | err e s => exact fun h => ⟨h.1.inside, h.1.src, h.2⟩

/-- A program that keeps to the deserializer's discipline when it starts a document. -/
def Tame (φ : Prop) (o : Options) (f : P α) : Prop :=
  ∀ s : St, s.Inside → s.limit = o.recursionLimit → OutD φ s (fun _ _ => True) (f s)

theorem Tame.value {o : Options} : Tame φ o deValue := fun _ hi _ => deValue_out hi
theorem Tame.ty {o : Options} {D : Nat → Ty} {n f : Nat} {T : Ty} (hn : o.recursionLimit = some n) (hf : 2 * n + 4 ≤ f)
    (hD : ∀ i j, D i ≠ .ref j) : Tame φ o (deTy D f T) := fun s hi hl =>
  deTy_out f T s hi (.inl ⟨⟨n, hl.trans hn, by split <;> omega⟩, hD⟩)
theorem Tame.ty' {o : Options} {D : Nat → Ty} {f : Nat} {T : Ty} : Tame True o (deTy D f T) := fun s hi _ =>
  deTy_out f T s hi (.inr trivial)

theorem deEnd_safe : Safe deEnd := by
  unfold deEnd
  repeat safe_step

/-- A result inside the text. -/
def Final (φ : Prop) (t : Text) : Res α → Prop
  | .ok _ s => s.Inside ∧ s.src = t
  | .err e s => s.Inside ∧ s.src = t ∧ (e = .fuel → φ) ∧ e ≠ .panic

theorem readDoc_out {o : Options} {f : P α} (hf : Tame φ o f) (t : Text) : Final φ t (readDoc o f (St.init t)) := by
  have h := deNew_out o t
  unfold readDoc
  rw [bind_apply]
  revert h
  cases deNew o (St.init t) with
  | err e s => exact fun h => ⟨h.1, h.2.1, fun he => absurd he h.2.2.1, h.2.2.2⟩
  | ok _ s1 =>
    intro h
    have key : OutD φ s1 (fun _ _ => True) ((f >>= fun a => deEnd >>= fun _ => Pure.pure a : P α) s1) :=
      OutD.bind (hf s1 h.1 h.2.2.1) fun a s2 h2 l2 _ => OutD.bindS deEnd_safe h2 l2 fun _ s3 h3 l3 _ => OutD.pure h3 l3 trivial
    revert key
    show _ → Final φ t ((f >>= fun a => deEnd >>= fun _ => Pure.pure a : P α) s1)
    cases (f >>= fun a => deEnd >>= fun _ => Pure.pure a : P α) s1 with
    | ok a s => exact fun k => ⟨k.1.inside, k.1.src.trans h.2.1⟩
    | err e s => exact fun k => ⟨k.1.inside, k.1.src.trans h.2.1, k.2⟩

/-- No entry point runs out of fuel or reads beyond the text, and errors are positioned inside the text. -/
theorem fromStr_out {o : Options} {f : P α} (hf : Tame φ o f) {t : Text} {e : Err} {sp : Span} (h : fromStr o f t = .error (e, sp)) :
    (e = .fuel → φ) ∧ e ≠ .panic ∧ ∃ p q, p <+: t ∧ q <+: t ∧ sp = ⟨Position.fromSrcEnd p, Position.fromSrcEnd q⟩ := by
  have k := readDoc_out hf t
  unfold fromStr at h
  revert k h
  cases readDoc o f (St.init t) with
  | ok a s => exact fun h => nomatch h
  | err e' s =>
    intro h k
    simp only [spanned, Except.error.injEq, Prod.mk.injEq] at h
    obtain ⟨rfl, rfl⟩ := h
    obtain ⟨h1, h2, h3⟩ := k
    refine ⟨h3.1, h3.2, s.before s.prev, s.before s.rest, ?_, ?_, rfl⟩
    · rw [← h2]; exact List.take_prefix _ _
    · rw [← h2]; exact List.take_prefix _ _

end

end Ron
