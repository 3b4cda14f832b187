import Verif.Lemmas.DeWalk
import Verif.Spec.ExtDiff
/-!
Reading with two settings of the extensions: the same, or the stricter one fails for want of the extension.
-/

set_option linter.unusedSimpArgs false
set_option linter.unusedSectionVars false

namespace Ron

/-- Two states that differ in the extensions only. -/
structure Dx (d : Differ) (s s' : St) : Prop where
  src : s.src = s'.src
  preWs : s.preWs = s'.preWs
  lastWs : s.lastWs = s'.lastWs
  prev : s.prev = s'.prev
  limit : s.limit = s'.limit
  exts : d.Pair s.exts s'.exts

theorem trackWs_fields (s : St) : s.trackWs.src = s.src ∧ s.trackWs.prev = s.prev := by
  unfold St.trackWs
  split
  · split <;> exact ⟨rfl, rfl⟩
  · exact ⟨rfl, rfl⟩

instance (d : Differ) : Trace (Dx d) where
  move p r h := ⟨h.src, h.preWs, h.lastWs, rfl, h.limit, h.exts⟩
  step r h := ⟨h.src, h.preWs, h.lastWs, h.prev, h.limit, h.exts⟩
  back h hr ht := ⟨ht.src, h.preWs, h.lastWs, ht.prev, ht.limit, ht.exts⟩
  track {s s'} h hr := by
    have e : s'.preWs = s.preWs := h.preWs.symm
    have e2 : s'.lastWs = s.lastWs := h.lastWs.symm
    unfold St.trackWs
    rw [e, e2, ← hr]
    split
    · split
      · first | exact ⟨h.src, rfl, rfl, h.prev, h.limit, h.exts⟩ | exact h
      · first | exact ⟨h.src, rfl, rfl, h.prev, h.limit, h.exts⟩ | exact h
    · first | exact h | exact ⟨h.src, rfl, rfl, h.prev, h.limit, h.exts⟩
  openLine h := ⟨h.src, h.preWs, rfl, h.prev, h.limit, h.exts⟩
  closed h hr := ⟨h.src, h.preWs, by rw [h.preWs, hr], h.prev, h.limit, h.exts⟩

/-- The same outcome, or the first one is an error for want of an extension. -/
def ExSimR {α : Type} (d : Differ) (r r' : Res α) : Prop := RelR (Dx d) Eq r r' ∨ ∃ e t, r = .err e t ∧ d.Blames e

/-- A program with which two settings of the extensions have the same outcome, or the stricter one fails. -/
def ExSim (d : Differ) {α : Type} (f : P α) : Prop := ∀ s s', Eqv (Dx d) s s' → ExSimR d (f s) (f s')

section
variable {α β : Type} {d : Differ}

theorem ExSim.flat {f : P α} (h : ∀ X [Trace X], Fr X f) : ExSim d f := fun s s' e => .inl (h (Dx d) s s' e)

theorem ExSim.bindOk {f : P α} {g : α → P β} (hf : ExSim d f) (hg : ∀ a, (∃ s s', f s = .ok a s') → ExSim d (g a)) : ExSim d (f >>= g) := by
  intro s s' h
  have := hf s s' h
  show ExSimR d (P.bind f g s) (P.bind f g s')
  unfold P.bind
  rcases this with hf | ⟨e, t, he, hb⟩
  · generalize e : f s = r at hf
    revert hf
    cases r <;> cases f s' <;> intro hf
    · obtain ⟨rfl, ht⟩ := hf
      exact hg _ ⟨_, _, e⟩ _ _ ht
    · exact hf.elim
    · exact hf.elim
    · exact .inl hf
  · rw [he]
    exact .inr ⟨e, t, rfl, hb⟩

theorem ExSim.getSt {g : St → P α} (h : ∀ s s' : St, Eqv (Dx d) s s' → g s = g s') (hg : ∀ s, ExSim d (g s)) : ExSim d (Ron.getSt >>= g) :=
  fun s s' e => by
    show ExSimR d (g s s) (g s' s')
    rw [h s s' e]
    exact hg s' s s' e

theorem Differ.Blames.fixed {e : Err} {g : Err → Err} (hg : Fixes g) (h : d.Blames e) : d.Blames (g e) := by
  rcases h with ⟨h, rfl⟩ | ⟨h, n, rfl⟩
  · exact .inl ⟨h, hg.option⟩
  · exact .inr ⟨h, n, hg.name n⟩

theorem ExSim.mapErr {f : P α} {g : Err → Err} (hg : Fixes g) (h : ExSim d f) : ExSim d (mapErr g f) := fun s s' hs => by
  unfold Ron.mapErr
  rcases h s s' hs with hf | ⟨e, t, he, hb⟩
  · revert hf
    cases f s <;> cases f s' <;> intro hf
    · exact .inl hf
    · exact hf.elim
    · exact hf.elim
    · exact .inl ⟨by rw [hf.1], hf.2⟩
  · rw [he]
    exact .inr ⟨_, _, rfl, hb.fixed hg⟩

theorem Eqv.dxAt {s s' : St} (h : Eqv (Dx d) s s') (l : Option Nat) : Eqv (Dx d) { s with limit := l } { s' with limit := l } :=
  ⟨h.rest, h.nv, ⟨h.more.src, h.more.preWs, h.more.lastWs, h.more.prev, rfl, h.more.exts⟩, h.lastIdent⟩
theorem Eqv.dxUp {s s' : St} (h : Eqv (Dx d) s s') : Eqv (Dx d) { s with limit := s.limit.map (· + 1) } { s' with limit := s'.limit.map (· + 1) } := by
  rw [← h.more.limit]
  exact h.dxAt _

theorem ExSim.guardQ {f : P α} (h : ExSim d f) : ExSim d (deGuardQ f) := by
  intro s s' hs
  unfold deGuardQ
  rw [← hs.more.limit]
  have hf := h _ _ (hs.dxAt (s.limit.map (· - 1)))
  split
  · exact .inl ⟨rfl, hs⟩
  · rcases hf with hf | ⟨e, t, he, hb⟩
    · revert hf
      cases f { s with limit := s.limit.map (· - 1) } <;> cases f { s' with limit := s.limit.map (· - 1) } <;> intro hf
      · exact .inl ⟨hf.1, hf.2.dxUp⟩
      · exact hf.elim
      · exact hf.elim
      · exact .inl hf
    · rw [he]
      exact .inr ⟨_, _, rfl, hb⟩

theorem ExSim.guardR {f : P α} (h : ExSim d f) : ExSim d (deGuardR f) := by
  intro s s' hs
  unfold deGuardR
  rw [← hs.more.limit]
  have hf := h _ _ (hs.dxAt (s.limit.map (· - 1)))
  split
  · exact .inl ⟨rfl, hs⟩
  · rcases hf with hf | ⟨e, t, he, hb⟩
    · revert hf
      cases f { s with limit := s.limit.map (· - 1) } <;> cases f { s' with limit := s.limit.map (· - 1) } <;> intro hf
      · exact .inl ⟨hf.1, hf.2.dxUp⟩
      · exact hf.elim
      · exact hf.elim
      · exact .inl ⟨hf.1, hf.2.dxUp⟩
    · rw [he]
      exact .inr ⟨_, _, rfl, hb⟩

theorem ExSim.modSt {f : St → St} (h : ∀ s s', Eqv (Dx d) s s' → Eqv (Dx d) (f s) (f s')) : ExSim d (modSt f) :=
  fun s s' hs => .inl ⟨rfl, h s s' hs⟩

theorem Differ.Pair.both {x y e e' : Exts} (h : d.Pair x y) (g : d.Pair e e') : d.Pair (x.union e) (y.union e') := by
  obtain ⟨⟨h1, h1'⟩, h2, h3, h4⟩ := h
  obtain ⟨⟨g1, g1'⟩, g2, g3, g4⟩ := g
  refine ⟨⟨?_, ?_⟩, fun hs => ⟨?_, ?_⟩, ?_, ?_⟩ <;> dsimp only [Exts.union]
  · simp only [Bool.or_eq_true]; exact Or.imp h1 g1
  · intro hd; rw [h1' hd, g1' hd]
  · simp only [Bool.or_eq_true]; exact Or.imp (h2 hs).1 (g2 hs).1
  · intro hd; rw [(h2 hs).2 hd, (g2 hs).2 hd]
  · intro hd; rw [h3 hd, g3 hd]
  · intro hd; rw [h4 hd, g4 hd]
theorem Differ.Pair.refl (e : Exts) : d.Pair e e := ⟨⟨id, fun _ => rfl⟩, fun _ => ⟨id, fun _ => rfl⟩, fun _ => rfl, fun _ => rfl⟩
theorem Differ.Pair.union {x y : Exts} (h : d.Pair x y) (e : Exts) : d.Pair (x.union e) (y.union e) := h.both (.refl e)
end

instance (d : Differ) : DeBase (@ExSim d) where
  flat h := ExSim.flat h
  bindOk hf hg := ExSim.bindOk hf hg
  getSt hg h := ExSim.getSt (fun s s' e => hg s s' e.rest e.nv e.lastIdent) h
  mapErr he h := ExSim.mapErr he h
  guardQ h := ExSim.guardQ h
  guardR h := ExSim.guardR h
  setNv b := ExSim.modSt fun _ _ h => ⟨h.rest, rfl, ⟨h.more.src, h.more.preWs, h.more.lastWs, h.more.prev, h.more.limit, h.more.exts⟩, h.lastIdent⟩
  setIdent i := ExSim.modSt fun _ _ h => ⟨h.rest, h.nv, ⟨h.more.src, h.more.preWs, h.more.lastWs, h.more.prev, h.more.limit, h.more.exts⟩, rfl⟩
  setExts e := ExSim.modSt fun _ _ h => ⟨h.rest, h.nv, ⟨h.more.src, h.more.preWs, h.more.lastWs, h.more.prev, h.more.limit, h.more.exts.union e⟩, h.lastIdent⟩

/-- The kinds of data that do not depend on what may differ, or fail with the stricter setting. -/
abbrev Differ.kinds (d : Differ) : Kinds :=
  ⟨d.names = false, d.newtypes = false ∧ d.names = false, d.variants = false, d.variants = false, d.variants = false⟩

section
variable {α : Type} {d : Differ}

/-- A choice that fails on one side. -/
theorem ExSim.strict {c : St → Bool} {f : P α} {e : Err} (hc : ∀ s s', Eqv (Dx d) s s' → c s = true → c s' = true)
    (hb : (∀ s s', Eqv (Dx d) s s' → c s = c s') ∨ d.Blames e) (hf : ExSim d f) :
    ExSim d (Ron.getSt >>= fun s => if c s then f else Ron.fail e) := by
  intro s s' hs
  show ExSimR d ((if c s then f else Ron.fail e) s) ((if c s' then f else Ron.fail e) s')
  by_cases h : c s = true
  · rw [if_pos h, if_pos (hc s s' hs h)]
    exact hf s s' hs
  · rw [if_neg h]
    rcases hb with hb | hb
    · rw [← hb s s' hs, if_neg h]
      exact .inl ⟨rfl, hs⟩
    · exact .inr ⟨e, s, rfl, hb⟩

theorem ExSim.setUnwrap (hd : d.variants = false) : ExSim d (Ron.modSt fun s => { s with nv := s.exts.unwrapVariantNewtypes }) :=
  ExSim.modSt fun _ _ h => ⟨h.rest, h.more.exts.variants hd,
    ⟨h.more.src, h.more.preWs, h.more.lastWs, h.more.prev, h.more.limit, h.more.exts⟩, h.lastIdent⟩

variable [Env]

theorem ExSim.structName (hs : d.names = false) (n : Text) : ExSim d (consumeStructName n) := by
  have hi : ExSim d (Ron.getSt >>= fun s => if s.exts.explicitStructNames then (Ron.fail (.expectedStructName n) : P Bool) else pure false) := by
    have := ExSim.strict (d := d) (c := fun s => !s.exts.explicitStructNames) (f := (pure false : P Bool)) (e := .expectedStructName n)
      (fun s s' h hc => by
        have := (h.more.exts.explicitNames hs).1
        revert hc this
        cases s.exts.explicitStructNames <;> cases s'.exts.explicitStructNames <;> simp)
      (by
        cases hd : d.explicitNames with
        | true => exact .inr (.inr ⟨hd, n, rfl⟩)
        | false => exact .inl fun s s' h => by rw [(h.more.exts.explicitNames hs).2 hd])
      (DW.pure (Φ := @ExSim d) _)
    have e : (fun s : St => if s.exts.explicitStructNames then (Ron.fail (.expectedStructName n) : P Bool) else pure false) =
        fun s => if (!s.exts.explicitStructNames) = true then (pure false : P Bool) else Ron.fail (.expectedStructName n) := by
      funext s
      cases s.exts.explicitStructNames <;> rfl
    rw [e]
    exact this
  unfold Ron.consumeStructName
  refine DW.bind (Φ := @ExSim d) (ExSim.flat fun _ _ => Fr.checkIdent _) fun b => DW.ite (Φ := @ExSim d) hi ?_
  exact ExSim.flat fun _ _ => Rel.bindEq (Rel.attempt Fr.identifier) fun r => by repeat fr_step

theorem ExSim.deOption (hd : d.variants = false) {vn : α} {visit : P α} (hv : ExSim d visit) : ExSim d (deOption vn visit) := by
  have hu := ExSim.setUnwrap hd
  have hg : ExSim d (Ron.deGuardR visit) := ExSim.guardR hv
  have hi : ExSim d (Ron.getSt >>= fun s => if s.exts.implicitSome then deGuardR visit else Ron.fail .expectedOption) :=
    ExSim.strict (c := fun s => s.exts.implicitSome) (fun s s' h => h.more.exts.implicitSome.1)
      (by
        cases hd : d.implicitSome with
        | true => exact .inr (.inl ⟨hd, rfl⟩)
        | false => exact .inl fun s s' h => h.more.exts.implicitSome.2 hd) hg
  have : ExSim d (Ron.deOption vn visit) := by
    unfold Ron.deOption
    repeat (first | exact hi | exact hu | dw_step)
  exact this

theorem ExSim.deNewtype (hd : d.newtypes = false ∧ d.names = false) {name : Text} {visit : P α} (hv : ExSim d visit) : ExSim d (deNewtype name visit) := by
  have hn := ExSim.structName (d := d) hd.2 name
  have : ExSim d (Ron.deNewtype name visit) := by
    unfold Ron.deNewtype
    refine ExSim.getSt (fun s s' h => by simp only [h.more.exts.newtypes hd.1, h.nv]) fun s => ?_
    repeat (first | exact hn | dw_step)
  exact this

omit [Env] in
theorem ExSim.newtypeVariant (hd : d.variants = false) {seed : P α} (hv : ExSim d seed) : ExSim d (newtypeVariant seed) := by
  have hu := ExSim.setUnwrap hd
  have : ExSim d (Ron.newtypeVariant seed) := by
    unfold Ron.newtypeVariant
    refine ExSim.getSt (fun s s' h => by simp only [h.lastIdent]) fun s => ?_
    repeat (first | exact hu | dw_step)
  exact this
end

instance (d : Differ) : TyWalk (@ExSim d) d.kinds where
  structName n hs := ExSim.structName hs n
  option hd h := ExSim.deOption hd h
  newtype hd h := ExSim.deNewtype hd h
  variant hd h := ExSim.newtypeVariant hd h
  any h := h

/-! ### The kinds of types -/

mutual
theorem Ty.within_all {d : Differ} (h0 : d.names = false) (h1 : d.newtypes = false) (h2 : d.variants = false) : (t : Ty) → t.Within d.kinds (d.variants = false)
  | .raw => h2
  | .value => h2
  | .newtype _ t => ⟨⟨h1, h0⟩, Ty.within_all h0 h1 h2 t⟩
  | .option t => ⟨h2, Ty.within_all h0 h1 h2 t⟩
  | .seq t => Ty.within_all h0 h1 h2 t
  | .tuple ts => TysWithin.of_all h0 h1 h2 ts
  | .tupleStruct _ ts => ⟨h0, TysWithin.of_all h0 h1 h2 ts⟩
  | .map k v => ⟨Ty.within_all h0 h1 h2 k, Ty.within_all h0 h1 h2 v⟩
  | .struct _ _ fs => ⟨h0, .inr h2, FieldsWithin.of_all h0 h1 h2 fs⟩
  | .enum _ vs => VariantsWithin.of_all h0 h1 h2 vs
  | .bool | .int _ | .f32 | .f64 | .char | .str | .bytes | .unit | .ref _ => trivial
  | .unitStruct _ => h0
theorem TysWithin.of_all {d : Differ} (h0 : d.names = false) (h1 : d.newtypes = false) (h2 : d.variants = false) : (ts : List Ty) → TysWithin d.kinds (d.variants = false) ts
  | [] => trivial
  | t :: ts => ⟨Ty.within_all h0 h1 h2 t, TysWithin.of_all h0 h1 h2 ts⟩
theorem FieldsWithin.of_all {d : Differ} (h0 : d.names = false) (h1 : d.newtypes = false) (h2 : d.variants = false) :
    (fs : List (Text × Ty)) → FieldsWithin d.kinds (d.variants = false) fs
  | [] => trivial
  | (_, t) :: fs => ⟨Ty.within_all h0 h1 h2 t, FieldsWithin.of_all h0 h1 h2 fs⟩
theorem VariantsWithin.of_all {d : Differ} (h0 : d.names = false) (h1 : d.newtypes = false) (h2 : d.variants = false) :
    (vs : List (Text × Variant)) → VariantsWithin d.kinds (d.variants = false) vs
  | [] => trivial
  | (_, .unit) :: vs => ⟨trivial, VariantsWithin.of_all h0 h1 h2 vs⟩
  | (_, .newtype t) :: vs => ⟨⟨h2, Ty.within_all h0 h1 h2 t⟩, VariantsWithin.of_all h0 h1 h2 vs⟩
  | (_, .tuple ts) :: vs => ⟨TysWithin.of_all h0 h1 h2 ts, VariantsWithin.of_all h0 h1 h2 vs⟩
  | (_, .struct _ fs) :: vs => ⟨⟨.inr h2, FieldsWithin.of_all h0 h1 h2 fs⟩, VariantsWithin.of_all h0 h1 h2 vs⟩
end

mutual
theorem Ty.NoNewtype.within {d : Differ} (h0 : d.names = false) (h2 : d.variants = false) : (t : Ty) → t.NoNewtype → t.Within d.kinds (d.variants = false)
  | .raw => fun _ => h2
  | .value => fun _ => h2
  | .newtype _ _ => fun h => h.elim
  | .option t => fun h => ⟨h2, Ty.NoNewtype.within h0 h2 t h⟩
  | .seq t => fun h => Ty.NoNewtype.within h0 h2 t h
  | .tuple ts => fun h => NoNewtypes.within h0 h2 ts h
  | .tupleStruct _ ts => fun h => ⟨h0, NoNewtypes.within h0 h2 ts h⟩
  | .map k v => fun h => ⟨Ty.NoNewtype.within h0 h2 k h.1, Ty.NoNewtype.within h0 h2 v h.2⟩
  | .struct _ _ fs => fun h => ⟨h0, .inr h2, NoNewtypeFields.within h0 h2 fs h⟩
  | .enum _ vs => fun h => NoNewtypeVariants.within h0 h2 vs h
  | .bool | .int _ | .f32 | .f64 | .char | .str | .bytes | .unit | .ref _ => fun _ => trivial
  | .unitStruct _ => fun _ => h0
theorem NoNewtypes.within {d : Differ} (h0 : d.names = false) (h2 : d.variants = false) : (ts : List Ty) → NoNewtypes ts → TysWithin d.kinds (d.variants = false) ts
  | [] => fun _ => trivial
  | t :: ts => fun h => ⟨Ty.NoNewtype.within h0 h2 t h.1, NoNewtypes.within h0 h2 ts h.2⟩
theorem NoNewtypeFields.within {d : Differ} (h0 : d.names = false) (h2 : d.variants = false) :
    (fs : List (Text × Ty)) → NoNewtypeFields fs → FieldsWithin d.kinds (d.variants = false) fs
  | [] => fun _ => trivial
  | (_, t) :: fs => fun h => ⟨Ty.NoNewtype.within h0 h2 t h.1, NoNewtypeFields.within h0 h2 fs h.2⟩
theorem NoNewtypeVariants.within {d : Differ} (h0 : d.names = false) (h2 : d.variants = false) :
    (vs : List (Text × Variant)) → NoNewtypeVariants vs → VariantsWithin d.kinds (d.variants = false) vs
  | [] => fun _ => trivial
  | (_, .unit) :: vs => fun h => ⟨trivial, NoNewtypeVariants.within h0 h2 vs h.2⟩
  | (_, .newtype t) :: vs => fun h => ⟨⟨h2, Ty.NoNewtype.within h0 h2 t h.1⟩, NoNewtypeVariants.within h0 h2 vs h.2⟩
  | (_, .tuple ts) :: vs => fun h => ⟨NoNewtypes.within h0 h2 ts h.1, NoNewtypeVariants.within h0 h2 vs h.2⟩
  | (_, .struct _ fs) :: vs => fun h => ⟨⟨.inr h2, NoNewtypeFields.within h0 h2 fs h.1⟩, NoNewtypeVariants.within h0 h2 vs h.2⟩
end

mutual
theorem Ty.NoVariant.within {d : Differ} (h0 : d.names = false) (h1 : d.newtypes = false) : (t : Ty) → t.NoVariant → t.Within d.kinds (d.variants = false)
  | .raw => fun h => h.elim
  | .value => fun h => h.elim
  | .newtype _ t => fun h => ⟨⟨h1, h0⟩, Ty.NoVariant.within h0 h1 t h⟩
  | .option _ => fun h => h.elim
  | .seq t => fun h => Ty.NoVariant.within h0 h1 t h
  | .tuple ts => fun h => NoVariants.within h0 h1 ts h
  | .tupleStruct _ ts => fun h => ⟨h0, NoVariants.within h0 h1 ts h⟩
  | .map k v => fun h => ⟨Ty.NoVariant.within h0 h1 k h.1, Ty.NoVariant.within h0 h1 v h.2⟩
  | .struct _ _ fs => fun h => ⟨h0, .inl h.1, NoVariantFields.within h0 h1 fs h.2⟩
  | .enum _ vs => fun h => NoVariantVariants.within h0 h1 vs h
  | .bool | .int _ | .f32 | .f64 | .char | .str | .bytes | .unit | .ref _ => fun _ => trivial
  | .unitStruct _ => fun _ => h0
theorem NoVariants.within {d : Differ} (h0 : d.names = false) (h1 : d.newtypes = false) : (ts : List Ty) → NoVariants ts → TysWithin d.kinds (d.variants = false) ts
  | [] => fun _ => trivial
  | t :: ts => fun h => ⟨Ty.NoVariant.within h0 h1 t h.1, NoVariants.within h0 h1 ts h.2⟩
theorem NoVariantFields.within {d : Differ} (h0 : d.names = false) (h1 : d.newtypes = false) :
    (fs : List (Text × Ty)) → NoVariantFields fs → FieldsWithin d.kinds (d.variants = false) fs
  | [] => fun _ => trivial
  | (_, t) :: fs => fun h => ⟨Ty.NoVariant.within h0 h1 t h.1, NoVariantFields.within h0 h1 fs h.2⟩
theorem NoVariantVariants.within {d : Differ} (h0 : d.names = false) (h1 : d.newtypes = false) :
    (vs : List (Text × Variant)) → NoVariantVariants vs → VariantsWithin d.kinds (d.variants = false) vs
  | [] => fun _ => trivial
  | (_, .unit) :: vs => fun h => ⟨trivial, NoVariantVariants.within h0 h1 vs h.2⟩
  | (_, .newtype _) :: _ => fun h => h.1.elim
  | (_, .tuple ts) :: vs => fun h => ⟨NoVariants.within h0 h1 ts h.1, NoVariantVariants.within h0 h1 vs h.2⟩
  | (_, .struct _ fs) :: vs => fun h => ⟨⟨.inl h.1.1, NoVariantFields.within h0 h1 fs h.1.2⟩, NoVariantVariants.within h0 h1 vs h.2⟩
end

mutual
theorem Ty.NoStruct.within {d : Differ} (h2 : d.variants = false) : (t : Ty) → t.NoStruct → t.Within d.kinds (d.variants = false)
  | .raw => fun _ => h2
  | .value => fun _ => h2
  | .newtype _ _ => fun h => h.elim
  | .tupleStruct _ _ => fun h => h.elim
  | .unitStruct _ => fun h => h.elim
  | .struct _ _ _ => fun h => h.elim
  | .option t => fun h => ⟨h2, Ty.NoStruct.within h2 t h⟩
  | .seq t => fun h => Ty.NoStruct.within h2 t h
  | .tuple ts => fun h => NoStructs.within h2 ts h
  | .map k v => fun h => ⟨Ty.NoStruct.within h2 k h.1, Ty.NoStruct.within h2 v h.2⟩
  | .enum _ vs => fun h => NoStructVariants.within h2 vs h
  | .bool | .int _ | .f32 | .f64 | .char | .str | .bytes | .unit | .ref _ => fun _ => trivial
theorem NoStructs.within {d : Differ} (h2 : d.variants = false) : (ts : List Ty) → NoStructs ts → TysWithin d.kinds (d.variants = false) ts
  | [] => fun _ => trivial
  | t :: ts => fun h => ⟨Ty.NoStruct.within h2 t h.1, NoStructs.within h2 ts h.2⟩
theorem NoStructFields.within {d : Differ} (h2 : d.variants = false) :
    (fs : List (Text × Ty)) → NoStructFields fs → FieldsWithin d.kinds (d.variants = false) fs
  | [] => fun _ => trivial
  | (_, t) :: fs => fun h => ⟨Ty.NoStruct.within h2 t h.1, NoStructFields.within h2 fs h.2⟩
theorem NoStructVariants.within {d : Differ} (h2 : d.variants = false) :
    (vs : List (Text × Variant)) → NoStructVariants vs → VariantsWithin d.kinds (d.variants = false) vs
  | [] => fun _ => trivial
  | (_, .unit) :: vs => fun h => ⟨trivial, NoStructVariants.within h2 vs h.2⟩
  | (_, .newtype t) :: vs => fun h => ⟨⟨h2, Ty.NoStruct.within h2 t h.1⟩, NoStructVariants.within h2 vs h.2⟩
  | (_, .tuple ts) :: vs => fun h => ⟨NoStructs.within h2 ts h.1, NoStructVariants.within h2 vs h.2⟩
  | (_, .struct _ fs) :: vs => fun h => ⟨⟨.inr h2, NoStructFields.within h2 fs h.1⟩, NoStructVariants.within h2 vs h.2⟩
end

variable [Env] {α : Type} {d : Differ}

theorem ExSim.deValue (hd : d.variants = false) : ExSim d deValue := DW.deValue (Φ := @ExSim d) hd
theorem ExSim.deIgnored (hd : d.variants = false) : ExSim d deIgnored := DW.deIgnored (Φ := @ExSim d) hd
theorem ExSim.deRaw (hd : d.variants = false) : ExSim d deRaw := by
  have hw : ExSim d Ron.skipWs := ExSim.flat fun _ _ => Fr.skipWs
  have hf : ∀ e, ExSim d (fail e : P Text) := fun e => ExSim.flat fun _ _ => Rel.fail e
  have hb : ∀ {α β : Type} {f : P α} {g : α → P β}, ExSim d f → (∀ a, ExSim d (g a)) → ExSim d (f >>= g) := fun h k => h.bindOk fun a _ => k a
  have hu : ExSim d hasUnclosedLineComment := fun s s' h => .inl ⟨by simp only [h.rest, h.more.lastWs], h⟩
  unfold Ron.deRaw
  refine ExSim.getSt (fun s s' h => by simp only [h.more.preWs]) fun s0 => hb hw fun _ => hb (ExSim.deIgnored hd) fun _ => hb hw fun _ => hb hu fun b => ?_
  split
  · exact hf _
  · refine ExSim.getSt (fun s s' h => by simp only [h.rest]) fun s => ?_
    dsimp only
    generalize fromStr {} Ron.deIgnored _ = r
    cases r
    · exact hf _
    · exact ExSim.flat fun _ _ => Rel.pure rfl
theorem ExSim.deTy {D : Nat → Ty} (hD : ∀ i, (D i).Within d.kinds (d.variants = false)) (f : Nat) (t : Ty)
    (ht : t.Within d.kinds (d.variants = false)) : ExSim d (deTy D f t) :=
  DW.deTy (Φ := @ExSim d) ExSim.deRaw hD f t ht
theorem ExSim.attributes (f : Nat) : ExSim d (attributes f) := DW.attributes (Φ := @ExSim d) f
theorem ExSim.deEnd : ExSim d deEnd := DW.deEnd (Φ := @ExSim d)

/-- A whole document. -/
theorem readDoc_sim {o o' : Options} {f : P α} (hl : o.recursionLimit = o'.recursionLimit) (hd : d.Pair o.defaultExtensions o'.defaultExtensions)
    (hf : ExSim d f) (t : Text) : fromStr o' f t = fromStr o f t ∨ ∃ e sp, fromStr o f t = .error (e, sp) ∧ d.Blames e := by
  have hp : ∀ s s', Eqv (Dx d) s s' → ExSimR d (parserNew s) (parserNew s') := by
    intro s s' h
    exact ExSim.bindOk (ExSim.flat fun _ _ => Fr.skipWs) (fun _ _ => ExSim.getSt (fun s s' h => by simp only [h.rest]) fun _ => ExSim.attributes _) s s' h
  have hrest : ∀ s s', Eqv (Dx d) s s' → ExSimR d ((f >>= fun a => Ron.deEnd >>= fun _ => pure a) s) ((f >>= fun a => Ron.deEnd >>= fun _ => pure a) s') :=
    ExSim.bindOk hf fun a _ => ExSim.bindOk ExSim.deEnd fun _ _ => ExSim.flat fun _ _ => Rel.pure rfl
  have hx : ∀ s s', Eqv (Dx d) s s' → Eqv (Dx d) { s with exts := s.exts.union o.defaultExtensions } { s' with exts := s'.exts.union o'.defaultExtensions } :=
    fun s s' h => ⟨h.rest, h.nv, ⟨h.more.src, h.more.preWs, h.more.lastWs, h.more.prev, h.more.limit, h.more.exts.both hd⟩, h.lastIdent⟩
  have h0 : Eqv (Dx d) { St.init t with limit := o.recursionLimit } { St.init t with limit := o'.recursionLimit } :=
    ⟨rfl, rfl, ⟨rfl, rfl, rfl, rfl, hl, .refl _⟩, rfl⟩
  have key : ExSimR d (readDoc o f (St.init t)) (readDoc o' f (St.init t)) := by
    simp only [readDoc, deNew, bind_apply, modSt_apply]
    rcases hp _ _ h0 with h | ⟨e, u, h, hb⟩
    · revert h
      cases parserNew { St.init t with limit := o.recursionLimit } <;> cases parserNew { St.init t with limit := o'.recursionLimit } <;> intro h
      · have := hrest _ _ (hx _ _ h.2)
        simpa only [bind_apply] using this
      · exact h.elim
      · exact h.elim
      · exact .inl h
    · rw [h]
      exact .inr ⟨e, u, rfl, hb⟩
  unfold fromStr
  rcases key with h | ⟨e, u, h, hb⟩
  · revert h
    cases readDoc o f (St.init t) <;> cases readDoc o' f (St.init t) <;> intro h
    · exact .inl (by rw [h.1]; rfl)
    · exact h.elim
    · exact h.elim
    · obtain ⟨rfl, h⟩ := h
      refine .inl ?_
      show Except.error _ = Except.error _
      simp only [St.span, h.rest, h.more.src, h.more.prev, St.before]
  · rw [h]
    exact .inr ⟨e, _, rfl, hb⟩

end Ron
