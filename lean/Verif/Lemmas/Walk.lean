import Verif.Lemmas.Write
import Verif.Lemmas.SerStep
/-! One traversal of the serializer for all properties that are closed under its building blocks. -/

set_option linter.unusedSimpArgs false
set_option linter.unusedSectionVars false

namespace Ron

/-- The same result with another writer and another budget. -/
def WRes.put {α : Type} (r : WRes α) (w : Writer) (l : Option Nat) : WRes α :=
  match r with
  | .ok a s => .ok a { s with w := w, limit := l }
  | .err e s => .err e { s with w := w, limit := l }

/-- An action that neither uses the writer nor the budget. -/
def Silent {α : Type} (f : W α) : Prop := ∀ s w l, f { s with w := w, limit := l } = (f s).put w l

/-- The configuration with other field metadata. -/
def withMeta (m : Option MetaField) (p : Option (PrettyConfig × Nat)) : Option (PrettyConfig × Nat) :=
  p.map fun q => ({ q.1 with pathMeta := m }, q.2)

/-- The function uses neither the writer nor the budget nor the field metadata. -/
def Blind {α : Type} (g : Ser → α) : Prop :=
  ∀ s w l m, g { s with w := w, limit := l, pretty := withMeta m s.pretty } = g s

/-- Proves `Blind` by computation. -/
macro "blind" : tactic =>
  `(tactic| (intro s w l m; obtain ⟨w', p, e, x, y, z, i⟩ := s; rcases p with _ | ⟨c, j⟩ <;> rfl))

theorem withMeta_self (p : Option (PrettyConfig × Nat)) : ∃ m, withMeta m p = p := by
  rcases p with _ | ⟨c, i⟩
  · exact ⟨none, rfl⟩
  · exact ⟨c.pathMeta, rfl⟩

theorem Blind.get {α : Type} {g : Ser → α} (h : Blind g) (s : Ser) (w : Writer) (l : Option Nat) :
    g { s with w := w, limit := l } = g s := by
  obtain ⟨m, hm⟩ := withMeta_self s.pretty
  have := h s w l m
  rw [hm] at this
  exact this

/-- A property of actions closed under the building blocks of the serializer that change neither the configuration nor
the budget. -/
structure WalkB (Φ : {α : Type} → W α → Prop) : Prop where
  pure : ∀ {α : Type} (a : α), Φ (Pure.pure a : W α)
  fail : ∀ {α : Type} (e : Err), Φ (wfail e : W α)
  bind : ∀ {α β : Type} {f : W α} {g : α → W β}, Φ f → (∀ a, Φ (g a)) → Φ (f >>= g)
  get : ∀ {α : Type} {g : Ser → W α}, Blind g → (∀ s, Φ (g s)) → Φ (wget >>= g)
  mod : ∀ {f : Ser → Ser}, (∀ s w l m, f { s with w := w, limit := l, pretty := withMeta m s.pretty } =
      { f s with w := w, limit := l, pretty := withMeta m s.pretty }) →
    (∀ s, (f s).w = s.w ∧ (f s).limit = s.limit ∧ (f s).pretty = s.pretty ∧ (f s).defaultExtensions = s.defaultExtensions) → Φ (wmod f)
  write : ∀ t, Φ (write t)

/-- As `WalkB`, with the indentation. -/
structure WalkB1 (Φ : {α : Type} → W α → Prop) : Prop extends WalkB @Φ where
  startIndent : Φ startIndent
  endIndent : Φ endIndent

/-- A property of actions closed under the building blocks of the serializer that do not change the configuration. -/
structure Walk0 (Φ : {α : Type} → W α → Prop) : Prop extends WalkB @Φ where
  guardQ : ∀ {α : Type} {f : W α}, Φ f → Φ (guardQ f)
  guardR : ∀ {α : Type} {f : W α}, Φ f → Φ (guardR f)

/-- A property of actions closed under the building blocks of the serializer apart from the field metadata. -/
structure Walk1 (Φ : {α : Type} → W α → Prop) : Prop extends Walk0 @Φ, WalkB1 @Φ where
  drop : ∀ {α : Type} {f : W α}, Φ f → Φ (dropCompound f)

/-- A property of actions closed under all building blocks of the serializer. -/
structure Walk (Φ : {α : Type} → W α → Prop) : Prop extends Walk0 @Φ where
  silent : ∀ {α : Type} {f : W α}, Silent f → Φ f
  getP : ∀ {α : Type} {g : Ser → W α}, (∀ s w l, g { s with w := w, limit := l } = g s) → (∀ s, Φ (g s)) → Φ (wget >>= g)
  drop : ∀ {α : Type} {f : W α}, Φ f → Φ (dropCompound f)

namespace WalkB

variable {Φ : {α : Type} → W α → Prop} (K : WalkB @Φ)
include K

theorem ite {α : Type} {c : Prop} [Decidable c] {f g : W α} (hf : Φ f) (hg : Φ g) : Φ (if c then f else g) := by
  split <;> assumption
theorem opt {b : Bool} {f : W Unit} (h : Φ f) : Φ (if b then f else Pure.pure ()) := K.ite h (K.pure _)
theorem writeAll : ∀ ts, Φ (writeAll ts)
  | [] => K.pure _
  | t :: ts => K.bind (K.write t) fun _ => writeAll ts
theorem pretty {α : Type} {o : Option (PrettyConfig × Nat)} {f : W α} {g : PrettyConfig → Nat → W α} (hf : Φ f)
    (hg : ∀ c i, Φ (g c i)) : Φ (match o with | none => f | some (c, i) => g c i) := by
  cases o with
  | none => exact hf
  | some p => exact hg p.1 p.2

theorem indent : Φ indent :=
  K.get (by blind) fun _ => K.pretty (K.pure _) fun _ _ => K.ite (K.writeAll _) (K.pure _)
theorem somes (k : Nat) : Φ (openSomes k) := K.writeAll _
theorem closes (k : Nat) : Φ (closeSomes k) := K.writeAll _
theorem elemIndex (p : Option (PrettyConfig × Nat)) (i : Nat) : Φ (elemIndex p i) := by
  unfold Ron.elemIndex
  split
  · exact K.ite (K.bind (K.write _) fun _ => K.pure _) (K.pure _)
  · exact K.pure _
theorem colonSep (p : Option (PrettyConfig × Nat)) : Φ (colonSep p) := by
  unfold Ron.colonSep
  split
  · exact K.write _
  · exact K.pure _
theorem between (b : Bool) : Φ (betweenSep b) :=
  K.bind (K.write _) fun _ => K.get (by blind) fun _ => K.pretty (K.pure _) fun _ _ => K.ite (K.write _) (K.write _)
theorem trailing (r b : Bool) : Φ (trailingComma r b) := by
  refine K.get (by cases r <;> blind) fun s => ?_
  split
  · exact K.ite (K.bind (K.write _) fun _ => K.write _) (K.pure _)
  · exact K.pure _
theorem header (nl : Text) : ∀ ns, Φ (header ns nl)
  | [] => K.pure _
  | _ :: ns => K.bind (K.write _) fun _ => K.bind (K.write _) fun _ => header nl ns


variable [Env]

theorem validate (name : Text) : Φ (validateIdentifier name) := K.ite (K.fail _) (K.pure _)
theorem ident (name : Text) : Φ (writeIdentifier name) := by
  unfold writeIdentifier
  simp only [ite_seq, ite_seq2]
  exact K.bind (K.validate _) fun _ => K.bind (K.ite (K.write _) (K.pure _)) fun _ => K.write _
theorem serInt (t : IntTy) (v : Int) : Φ (serInt t v) :=
  K.bind (K.write _) fun _ => K.get (by blind) fun _ => K.opt (K.write _)
theorem serF32 (b : F32) : Φ (serF32 b) := by
  unfold Ron.serF32
  simp only [ite_seq, ite_seq2]
  exact K.bind (K.opt (K.write _)) fun _ => K.bind (K.write _) fun _ => K.bind (K.opt (K.write _)) fun _ =>
    K.get (by blind) fun _ => K.opt (K.write _)
theorem serF64 (b : F64) : Φ (serF64 b) := by
  unfold Ron.serF64
  simp only [ite_seq, ite_seq2]
  exact K.bind (K.opt (K.write _)) fun _ => K.bind (K.write _) fun _ => K.bind (K.opt (K.write _)) fun _ =>
    K.get (by blind) fun _ => K.opt (K.write _)
theorem serNumber (x : Number) : Φ (serNumber x) := by
  cases x
  · exact K.serInt _ _
  · exact K.serF32 _
  · exact K.serF64 _
theorem serChar (c : Char) : Φ (serChar c) := by
  unfold Ron.serChar
  simp only [ite_seq, ite_seq2]
  exact K.bind (K.write _) fun _ => K.bind (K.opt (K.write _)) fun _ => K.bind (K.write _) fun _ => K.write _
theorem serRawStr (p t : Text) : Φ (serRawStr p t) :=
  K.ite (K.bind (K.write _) fun _ => K.bind (K.write _) fun _ => K.bind (K.write _) fun _ => K.bind (K.write _) fun _ =>
    K.bind (K.write _) fun _ => K.write _) (K.bind (K.write _) fun _ => K.bind (K.write _) fun _ => K.write _)
theorem serStr (t : Text) : Φ (serStr t) :=
  K.get (by blind) fun _ =>
    K.ite (K.bind (K.write _) fun _ => K.bind (K.writeAll _) fun _ => K.write _) (K.serRawStr _ _)
theorem serBytes (b : List UInt8) : Φ (serBytes b) := by
  have he : Φ (serEscapedBytes b) := K.bind (K.write _) fun _ => K.bind (K.writeAll _) fun _ => K.write _
  refine K.get (by blind) fun _ => K.ite ?_ he
  cases utf8Dec b with
  | none => exact he
  | some t => exact K.serRawStr _ _
theorem serUnit : Φ serUnit := K.get (by blind) fun _ => K.opt (K.write _)
theorem serNone : Φ serNone :=
  K.get (by blind) fun _ => K.bind (K.mod (by blind) fun _ => ⟨rfl, rfl, rfl, rfl⟩) fun _ => K.bind (K.somes _) fun _ => K.bind (K.write _) fun _ => K.closes _
theorem serUnitStruct (name : Text) : Φ (serUnitStruct name) :=
  K.get (by blind) fun _ => K.ite (K.write _) (K.ite (K.ident _) (K.bind (K.validate _) fun _ => K.serUnit))
theorem docLines : ∀ ls, Φ (docLines ls)
  | [] => K.pure _
  | _ :: ls => K.bind (K.write _) fun _ => K.bind (K.write _) fun _ => K.bind (K.write _) fun _ => K.bind K.indent fun _ => docLines ls
theorem structName (name : Text) : Φ (structName name) :=
  K.get (by blind) fun _ => K.ite (K.ident _) (K.validate _)
theorem rangeEnd (r : RangeC) : Φ (rangeEnd r) := by
  have hb : ∀ b, Φ (serBound b) := by
    intro b
    cases b with
    | none => exact K.pure _
    | some b => exact K.serNumber _
  unfold Ron.rangeEnd
  cases r.kind
  · exact K.bind (hb _) fun _ => K.bind (K.write _) fun _ => hb _
  · exact K.bind (hb _) fun _ => K.bind (K.write _) fun _ => hb _
  · exact K.bind (hb _) fun _ => K.write _
  · exact K.bind (K.write _) fun _ => hb _
  · exact K.bind (K.write _) fun _ => hb _
theorem serNew : Φ serNew := by
  refine K.get (by blind) fun s => ?_
  refine K.pretty (K.pure _) fun c i => ?_
  exact K.ite (K.fail _) (K.ite (K.fail _) (K.ite (K.fail _) (K.header _ _)))

end WalkB

namespace Walk0

variable {Φ : {α : Type} → W α → Prop} (K : Walk0 @Φ)
include K

variable [Env]

theorem serSome {f : W Unit} (h : Φ f) : Φ (serSome f) :=
  K.get (by blind) fun _ => K.ite
    (K.bind (K.mod (by blind) fun _ => ⟨rfl, rfl, rfl, rfl⟩) fun _ => K.bind (K.guardQ h) fun _ => K.mod (by blind) fun _ => ⟨rfl, rfl, rfl, rfl⟩)
    (K.bind (K.mod (by blind) fun _ => ⟨rfl, rfl, rfl, rfl⟩) fun _ => K.bind (K.write _) fun _ => K.bind (K.guardQ h) fun _ =>
      K.bind (K.write _) fun _ => K.mod (by blind) fun _ => ⟨rfl, rfl, rfl, rfl⟩)
theorem serRaw (t : Text) : Φ (serRaw t) :=
  K.get (by blind) fun _ => K.bind (K.mod (by blind) fun _ => ⟨rfl, rfl, rfl, rfl⟩) fun _ => K.bind (K.somes _) fun _ =>
    K.bind (K.guardR (K.write _)) fun _ => K.closes _
theorem serNewtypeStruct (name : Text) {f : W Unit} (h : Φ f) : Φ (serNewtypeStruct name f) := by
  refine K.get (by blind) fun _ => K.ite
    (K.bind (K.mod (by blind) fun _ => ⟨rfl, rfl, rfl, rfl⟩) fun _ => K.bind (K.validate _) fun _ => K.guardR h) ?_
  simp only [ite_seq2]
  exact K.bind (K.ite (K.ident _) (K.validate _)) fun _ => K.bind (K.mod (by blind) fun _ => ⟨rfl, rfl, rfl, rfl⟩) fun _ =>
    K.bind (K.write _) fun _ => K.bind (K.guardQ h) fun _ => K.write _
theorem serNewtypeVariant (name v : Text) {f : W Unit} (h : Φ f) : Φ (serNewtypeVariant name v f) :=
  K.bind (K.validate _) fun _ => K.bind (K.ident _) fun _ => K.bind (K.write _) fun _ => K.bind (K.mod (by blind) fun _ => ⟨rfl, rfl, rfl, rfl⟩) fun _ =>
    K.bind (K.guardQ h) fun _ => K.bind (K.mod (by blind) fun _ => ⟨rfl, rfl, rfl, rfl⟩) fun _ => K.write _

theorem seqElement (c : Comp) {f : W Unit} (h : Φ f) : Φ (seqElement c f) := by
  refine K.get (by blind) fun _ => ?_
  simp only [ite_seq, ite_seq2]
  exact K.bind (K.ite (K.between _) (K.pure _)) fun _ => K.bind (K.ite K.indent (K.pure _)) fun _ => K.bind (K.elemIndex _ _) fun _ =>
    K.bind (K.guardQ h) fun _ => K.pure _
theorem tupleElement (c : Comp) {f : W Unit} (h : Φ f) : Φ (tupleElement c f) := by
  refine K.get (by blind) fun _ => ?_
  simp only [ite_seq, ite_seq2]
  exact K.bind (K.ite (K.between _) (K.pure _)) fun _ => K.bind (K.ite K.indent (K.pure _)) fun _ =>
    K.bind (K.guardQ h) fun _ => K.pure _
theorem mapEntry (c : Comp) {f g : W Unit} (h : Φ f) (h' : Φ g) : Φ (mapEntry c f g) := by
  refine K.get (by blind) fun _ => ?_
  simp only [ite_seq, ite_seq2]
  exact K.bind (K.ite (K.between _) (K.pure _)) fun _ => K.bind (K.ite K.indent (K.pure _)) fun _ =>
    K.bind (K.guardR h) fun _ => K.bind (K.write _) fun _ => K.bind (K.colonSep _) fun _ => K.bind (K.guardQ h') fun _ => K.pure _

end Walk0

namespace WalkB1

variable {Φ : {α : Type} → W α → Prop} (K : WalkB1 @Φ)
include K

theorem seqOpen (l : Option Nat) : Φ (seqOpen l) := by
  refine K.bind (K.mod (by blind) fun _ => ⟨rfl, rfl, rfl, rfl⟩) fun _ => K.bind (K.write _) fun _ => K.get (by blind) fun _ => ?_
  simp only [ite_seq3]
  refine K.bind (K.ite (K.bind ?_ fun _ => K.startIndent) (K.pure _)) fun _ => K.pure _
  cases l with
  | none => exact K.pure _
  | some _ => exact K.mod (by blind) fun _ => ⟨rfl, rfl, rfl, rfl⟩
theorem mapOpen (l : Option Nat) : Φ (mapOpen l) := by
  refine K.bind (K.mod (by blind) fun _ => ⟨rfl, rfl, rfl, rfl⟩) fun _ => K.bind (K.write _) fun _ => K.get (by blind) fun _ => ?_
  simp only [ite_seq3]
  refine K.bind (K.ite (K.bind ?_ fun _ => K.startIndent) (K.pure _)) fun _ => K.pure _
  cases l with
  | none => exact K.pure _
  | some _ => exact K.mod (by blind) fun _ => ⟨rfl, rfl, rfl, rfl⟩
theorem tupleIndent (l : Nat) : Φ (tupleIndent l) :=
  K.get (by blind) fun _ => K.ite (K.bind (K.mod (by blind) fun _ => ⟨rfl, rfl, rfl, rfl⟩) fun _ => K.startIndent) (K.pure _)
theorem structIndent (l : Nat) : Φ (structIndent l) :=
  K.get (by blind) fun _ => K.ite (K.bind (K.mod (by blind) fun _ => ⟨rfl, rfl, rfl, rfl⟩) fun _ => K.startIndent) (K.pure _)

variable [Env]

theorem seqEnd (c : Comp) : Φ (seqEnd c) := by
  refine K.get (by blind) fun _ => K.bind (K.trailing _ _) fun _ => ?_
  simp only [ite_seq, ite_seq2]
  exact K.bind (K.ite K.endIndent (K.pure _)) fun _ => K.write _
theorem tupleEnd (c : Comp) : Φ (tupleEnd c) := by
  refine K.get (by blind) fun _ => K.bind (K.trailing _ _) fun _ => ?_
  simp only [ite_seq, ite_seq2]
  exact K.bind (K.ite K.endIndent (K.pure _)) fun _ => K.ite (K.write _) (K.pure _)
theorem mapEnd (c : Comp) : Φ (mapEnd c) := by
  refine K.get (by blind) fun _ => K.bind (K.trailing _ _) fun _ => ?_
  simp only [ite_seq, ite_seq2]
  exact K.bind (K.ite K.endIndent (K.pure _)) fun _ => K.write _
theorem structEnd (c : Comp) : Φ (structEnd c) := by
  have hp : Φ (do
      let s ← wget
      trailingComma c.rest s.compactStructs
      if !s.compactStructs then Ron.endIndent else Pure.pure ()
      if !c.nv then Ron.write c!")" else Pure.pure ()) := by
    refine K.get (by blind) fun _ => K.bind (K.trailing _ _) fun _ => ?_
    simp only [ite_seq, ite_seq2]
    exact K.bind (K.ite K.endIndent (K.pure _)) fun _ => K.ite (K.write _) (K.pure _)
  unfold Ron.structEnd
  dsimp only
  split
  · exact K.ite hp (K.rangeEnd _)
  · exact hp

theorem tupleOpen (l : Nat) : Φ (tupleOpen l) := by
  refine K.get (by blind) fun _ => K.bind (K.mod (by blind) fun _ => ⟨rfl, rfl, rfl, rfl⟩) fun _ => ?_
  simp only [ite_seq, ite_seq2]
  exact K.bind (K.ite (K.write _) (K.pure _)) fun _ => K.bind (K.tupleIndent _) fun _ => K.pure _
theorem tupleVariantOpen (name v : Text) (l : Nat) : Φ (tupleVariantOpen name v l) :=
  K.bind (K.mod (by blind) fun _ => ⟨rfl, rfl, rfl, rfl⟩) fun _ => K.bind (K.validate _) fun _ => K.bind (K.ident _) fun _ => K.bind (K.write _) fun _ =>
    K.bind (K.tupleIndent _) fun _ => K.pure _
theorem structVariantOpen (name v : Text) (l : Nat) : Φ (structVariantOpen name v l) :=
  K.bind (K.mod (by blind) fun _ => ⟨rfl, rfl, rfl, rfl⟩) fun _ => K.bind (K.validate _) fun _ => K.bind (K.ident _) fun _ => K.bind (K.write _) fun _ =>
    K.bind (K.structIndent _) fun _ => K.pure _
theorem structOpenPlain (name : Text) (l : Nat) : Φ (structOpenPlain name l) := by
  refine K.get (by blind) fun _ => K.bind (K.mod (by blind) fun _ => ⟨rfl, rfl, rfl, rfl⟩) fun _ => ?_
  simp only [ite_seq, ite_seq2]
  exact K.ite (K.bind (K.validate _) fun _ => K.bind (K.structIndent _) fun _ => K.pure _)
    (K.bind (K.ite (K.ident _) (K.validate _)) fun _ => K.bind (K.write _) fun _ => K.bind (K.structIndent _) fun _ => K.pure _)
theorem structOpen (name : Text) (l : Nat) : Φ (structOpen name l) := by
  refine K.get (by blind) fun _ => ?_
  split
  · exact K.bind (K.mod (by blind) fun _ => ⟨rfl, rfl, rfl, rfl⟩) fun _ => K.pure _
  · exact K.structOpenPlain _ _

end WalkB1

namespace Walk

variable {Φ : {α : Type} → W α → Prop} (K : Walk @Φ)
include K

theorem modP {f : Ser → Ser} (h : ∀ s w l, f { s with w := w, limit := l } = { f s with w := w, limit := l }) : Φ (wmod f) :=
  K.silent fun s w l => by rw [wmod_apply, h]; rfl
theorem startIndent : Φ startIndent :=
  K.getP (fun _ _ _ => rfl) fun _ => K.pretty (K.pure _) fun _ _ => K.bind (K.modP fun _ _ _ => rfl) fun _ => K.ite (K.write _) (K.pure _)
theorem endIndent : Φ endIndent := by
  refine K.getP (fun _ _ _ => rfl) fun s => K.pretty (K.pure _) fun c i => ?_
  simp only [ite_seq]
  exact K.bind (K.ite (K.writeAll _) (K.pure _)) fun _ => K.modP fun _ _ _ => rfl

theorem one : Walk1 @Φ := { K.toWalk0 with startIndent := K.startIndent, endIndent := K.endIndent, drop := K.drop }

variable [Env]

theorem fieldLead (p : Option (PrettyConfig × Nat)) : Φ (fieldLead p) := by
  refine K.bind K.indent fun _ => ?_
  split
  · split
    · exact K.docLines _
    · exact K.pure _
  · exact K.pure _
theorem takeMeta (k : Text) : Φ (takeMeta k) := by
  refine K.silent fun s w l => ?_
  unfold Ron.takeMeta
  dsimp only
  repeat' split
  all_goals rfl
theorem restoreMeta (k : Text) (r : Option MetaField) : Φ (restoreMeta k r) := by
  refine K.modP fun s w l => ?_
  obtain ⟨w', p, e, x, y, z, i⟩ := s
  cases p with
  | none => rfl
  | some p => rfl
theorem fieldPlain (c : Comp) (k : Text) {f : W Unit} (h : Φ f) : Φ (fieldPlain c k f) := by
  refine K.bind (K.takeMeta _) fun _ => K.getP (fun _ _ _ => rfl) fun _ => ?_
  simp only [ite_seq, ite_seq2]
  exact K.bind (K.ite (K.between _) (K.pure _)) fun _ => K.bind (K.ite (K.fieldLead _) (K.pure _)) fun _ => K.bind (K.ident _) fun _ =>
    K.bind (K.write _) fun _ => K.bind (K.colonSep _) fun _ => K.bind (K.guardQ h) fun _ => K.bind (K.restoreMeta _ _) fun _ => K.pure _
theorem replay (c : Comp) (b : Option (Text × Number)) : Φ (replayField c b) := by
  cases b with
  | none => exact K.pure _
  | some b => exact K.fieldPlain _ _ (K.serNumber _)
theorem rangeFallback (c : Comp) (r : RangeC) : Φ (rangeFallback c r) := by
  refine K.bind (K.write _) fun _ => K.get (by blind) fun _ => ?_
  simp only [ite_seq3]
  exact K.bind (K.ite (K.bind (K.mod (by blind) fun _ => ⟨rfl, rfl, rfl, rfl⟩) fun _ => K.startIndent) (K.pure _)) fun _ =>
    K.bind (K.replay _ _) fun _ => K.replay _ _
theorem structField (c : Comp) (k : Text) (x : Option Number) {f : W Unit} (h : Φ f) : Φ (structField c k x f) := by
  unfold Ron.structField
  split
  · exact K.fieldPlain _ _ h
  · refine K.ite (K.fieldPlain _ _ h) ?_
    split
    · exact K.ite (K.bind (K.rangeFallback _ _) fun _ => K.fieldPlain _ _ h) (K.ite (K.pure _) (K.pure _))
    · exact K.bind (K.rangeFallback _ _) fun _ => K.fieldPlain _ _ h

mutual
theorem ser : ∀ v : SVal, Φ (ser v)
  | .bool _ => by unfold Ron.ser; exact K.write _
  | .num _ => by unfold Ron.ser; exact K.serNumber _
  | .char _ => by unfold Ron.ser; exact K.serChar _
  | .str _ => by unfold Ron.ser; exact K.serStr _
  | .bytes _ => by unfold Ron.ser; exact K.serBytes _
  | .none => by unfold Ron.ser; exact K.serNone
  | .some v => by unfold Ron.ser; exact K.serSome (ser v)
  | .unit => by unfold Ron.ser; exact K.serUnit
  | .unitStruct _ => by unfold Ron.ser; exact K.serUnitStruct _
  | .unitVariant _ _ => by unfold Ron.ser; exact K.bind (K.validate _) fun _ => K.ident _
  | .newtypeStruct _ v => by unfold Ron.ser; exact K.serNewtypeStruct _ (ser v)
  | .newtypeVariant _ _ v => by unfold Ron.ser; exact K.serNewtypeVariant _ _ (ser v)
  | .seq _ vs => by unfold Ron.ser; exact K.bind (K.one.seqOpen _) fun c => K.drop (K.bind (serSeq vs c) fun _ => K.one.seqEnd _)
  | .tuple vs => by unfold Ron.ser; exact K.bind (K.one.tupleOpen _) fun c => K.drop (K.bind (serTuple vs c) fun _ => K.one.tupleEnd _)
  | .tupleStruct _ vs => by
    unfold Ron.ser
    exact K.bind (K.structName _) fun _ => K.bind (K.one.tupleOpen _) fun c => K.drop (K.bind (serTuple vs c) fun _ => K.one.tupleEnd _)
  | .tupleVariant _ _ vs => by
    unfold Ron.ser
    exact K.bind (K.one.tupleVariantOpen _ _ _) fun c => K.drop (K.bind (serTuple vs c) fun _ => K.one.tupleEnd _)
  | .map _ kvs => by unfold Ron.ser; exact K.bind (K.one.mapOpen _) fun c => K.drop (K.bind (serMap kvs c) fun _ => K.one.mapEnd _)
  | .struct _ fs => by
    unfold Ron.ser
    exact K.bind (K.one.structOpen _ _) fun c => K.drop (K.bind (serFields fs c) fun _ => K.one.structEnd _)
  | .structVariant _ _ fs => by
    unfold Ron.ser
    exact K.bind (K.one.structVariantOpen _ _ _) fun c => K.drop (K.bind (serFields fs c) fun _ => K.one.structEnd _)
  | .raw _ => by unfold Ron.ser; exact K.serRaw _
theorem serSeq : ∀ (vs : List SVal) (c : Comp), Φ (serSeq c vs)
  | [], c => by unfold Ron.serSeq; exact K.pure _
  | v :: vs, c => by unfold Ron.serSeq; exact K.bind (K.seqElement _ (ser v)) fun c => serSeq vs c
theorem serTuple : ∀ (vs : List SVal) (c : Comp), Φ (serTuple c vs)
  | [], c => by unfold Ron.serTuple; exact K.pure _
  | v :: vs, c => by unfold Ron.serTuple; exact K.bind (K.tupleElement _ (ser v)) fun c => serTuple vs c
theorem serMap : ∀ (kvs : List (SVal × SVal)) (c : Comp), Φ (serMap c kvs)
  | [], c => by unfold Ron.serMap; exact K.pure _
  | (k, v) :: kvs, c => by unfold Ron.serMap; exact K.bind (K.mapEntry _ (ser k) (ser v)) fun c => serMap kvs c
theorem serFields : ∀ (fs : List (Text × SVal)) (c : Comp), Φ (serFields c fs)
  | [], c => by unfold Ron.serFields; exact K.pure _
  | (k, v) :: fs, c => by unfold Ron.serFields; exact K.bind (K.structField _ _ _ (ser v)) fun c => serFields fs c
end

end Walk

end Ron
