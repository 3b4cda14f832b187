import Verif.Lemmas.Frame
import Verif.Lemmas.Seps
import Verif.Model.De
/-!
One traversal of the deserializer for all properties that are closed under its building blocks.
-/

set_option linter.unusedSimpArgs false
set_option linter.unusedSectionVars false

namespace Ron

/-- A change of errors that leaves alone the errors of the recursion limit and of the extensions. -/
structure Fixes (g : Err → Err) : Prop where
  limit : g .exceededRecursionLimit = .exceededRecursionLimit
  option : g .expectedOption = .expectedOption
  name : ∀ n, g (.expectedStructName n) = .expectedStructName n

/-- The kinds of data whose reading depends on extensions: named structs, newtype structs, options, newtype
variants, self-describing data. -/
structure Kinds where
  names : Prop
  newtype : Prop
  option : Prop
  variant : Prop
  any : Prop

/-- All kinds. -/
abbrev Kinds.all : Kinds := ⟨True, True, True, True, True⟩

/-- A property of deserializer programs closed under their building blocks: the token parsers (which do not touch the flags, the
extensions and the budget), reading and setting the flags, the recursion guards. -/
class DeBase (Φ : {α : Type} → P α → Prop) : Prop where
  flat : ∀ {α : Type} {f : P α}, (∀ X [Trace X], Fr X f) → Φ f
  bindOk : ∀ {α β : Type} {f : P α} {g : α → P β}, Φ f → (∀ a, (∃ s s', f s = .ok a s') → Φ (g a)) → Φ (f >>= g)
  getSt : ∀ {α : Type} {g : St → P α}, (∀ s s' : St, s.rest = s'.rest → s.nv = s'.nv → s.lastIdent = s'.lastIdent → g s = g s') →
    (∀ s, Φ (g s)) → Φ (getSt >>= g)
  mapErr : ∀ {α : Type} {f : P α} {g : Err → Err}, Fixes g → Φ f → Φ (mapErr g f)
  guardQ : ∀ {α : Type} {f : P α}, Φ f → Φ (deGuardQ f)
  guardR : ∀ {α : Type} {f : P α}, Φ f → Φ (deGuardR f)
  setNv : ∀ b, Φ (setNv b)
  setIdent : ∀ i : Text, Φ (modSt fun s => { s with lastIdent := some i })
  setExts : ∀ e : Exts, Φ (modSt fun s => { s with exts := s.exts.union e })

/-- The same, also under what depends on the extensions, for the kinds of data of `K`. -/
class TyWalk (Φ : {α : Type} → P α → Prop) (K : outParam Kinds) : Prop extends DeBase @Φ where
  structName : ∀ [Env] (n : Text), K.names → Φ (consumeStructName n)
  option : ∀ [Env] {α : Type} {vn : α} {visit : P α}, K.option → Φ visit → Φ (deOption vn visit)
  newtype : ∀ [Env] {α : Type} {name : Text} {visit : P α}, K.newtype → Φ visit → Φ (deNewtype name visit)
  variant : ∀ {α : Type} {seed : P α}, K.variant → Φ seed → Φ (newtypeVariant seed)
  any : K.any → K.option

/-- The same, also under reading the extensions. -/
class DeWalk (Φ : {α : Type} → P α → Prop) : Prop where
  flat : ∀ {α : Type} {f : P α}, (∀ X [Trace X], Fr X f) → Φ f
  bindOk : ∀ {α β : Type} {f : P α} {g : α → P β}, Φ f → (∀ a, (∃ s s', f s = .ok a s') → Φ (g a)) → Φ (f >>= g)
  getSt : ∀ {α : Type} {g : St → P α}, (∀ s s' : St, s.rest = s'.rest → s.exts = s'.exts → s.nv = s'.nv → s.lastIdent = s'.lastIdent → g s = g s') →
    (∀ s, Φ (g s)) → Φ (getSt >>= g)
  mapErr : ∀ {α : Type} {f : P α} {g : Err → Err}, Fixes g → Φ f → Φ (mapErr g f)
  guardQ : ∀ {α : Type} {f : P α}, Φ f → Φ (deGuardQ f)
  guardR : ∀ {α : Type} {f : P α}, Φ f → Φ (deGuardR f)
  setNv : ∀ b, Φ (setNv b)
  setUnwrap : Φ (modSt fun s => { s with nv := s.exts.unwrapVariantNewtypes })
  setIdent : ∀ i : Text, Φ (modSt fun s => { s with lastIdent := some i })
  setExts : ∀ g : Exts → Exts, Φ (modSt fun s => { s with exts := g s.exts })

instance {Φ : {α : Type} → P α → Prop} [DeWalk @Φ] : DeBase @Φ where
  flat h := DeWalk.flat h
  bindOk hf hg := DeWalk.bindOk hf hg
  getSt hg h := DeWalk.getSt (fun s s' h1 _ h3 h4 => hg s s' h1 h3 h4) h
  mapErr he h := DeWalk.mapErr he h
  guardQ h := DeWalk.guardQ h
  guardR h := DeWalk.guardR h
  setNv b := DeWalk.setNv b
  setIdent i := DeWalk.setIdent i
  setExts e := DeWalk.setExts fun x => x.union e

section
variable {Φ : {α : Type} → P α → Prop} [DeBase @Φ] {α : Type}

theorem DW.bind {β : Type} {f : P α} {g : α → P β} (hf : Φ f) (hg : ∀ a, Φ (g a)) : Φ (f >>= g) := DeBase.bindOk hf fun a _ => hg a
theorem DW.pure (a : α) : Φ (Pure.pure a : P α) := DeBase.flat fun _ _ => Rel.pure rfl
theorem DW.fail (e : Err) : Φ (Ron.fail e : P α) := DeBase.flat fun _ _ => Rel.fail e
theorem DW.ite {c : Prop} [Decidable c] {f g : P α} (hf : Φ f) (hg : Φ g) : Φ (if c then f else g) := by split <;> assumption
end

theorem structErrorName_ex (n : Option Text) : Fixes (structErrorName n) := ⟨rfl, rfl, fun _ => rfl⟩

/-- One step in the search for a proof. -/
syntax "dw_step" : tactic
macro_rules | `(tactic| dw_step) => `(tactic| (split))
macro_rules | `(tactic| dw_step) => `(tactic| with_reducible refine DW.bind ?_ fun _ => ?_)
macro_rules | `(tactic| dw_step) => `(tactic| (with_reducible refine DeBase.getSt (fun s s' h1 h3 h4 => by simp only [h1, h3, h4]) fun s => ?_))
macro_rules | `(tactic| dw_step) => `(tactic| with_reducible refine DW.ite ?_ ?_)
macro_rules | `(tactic| dw_step) => `(tactic| with_reducible refine DeBase.mapErr (by first | exact structErrorName_ex _ | exact ⟨by simp, by simp, by simp⟩) ?_)
macro_rules | `(tactic| dw_step) => `(tactic| with_reducible exact DeBase.flat fun _ _ => Fr.peekChar)
macro_rules | `(tactic| dw_step) => `(tactic| with_reducible exact DeBase.flat fun _ _ => Fr.peekCharOrEof)
macro_rules | `(tactic| dw_step) => `(tactic| with_reducible exact DeBase.flat fun _ _ => Fr.checkStr _)
macro_rules | `(tactic| dw_step) => `(tactic| with_reducible exact DeBase.flat fun _ _ => Fr.checkChar _)
macro_rules | `(tactic| dw_step) => `(tactic| with_reducible exact DeBase.flat fun _ _ => Fr.consumeStr _)
macro_rules | `(tactic| dw_step) => `(tactic| with_reducible exact DeBase.flat fun _ _ => Fr.consumeChar _)
macro_rules | `(tactic| dw_step) => `(tactic| with_reducible exact DeBase.flat fun _ _ => Fr.expectChar _ _)
macro_rules | `(tactic| dw_step) => `(tactic| with_reducible exact DeBase.flat fun _ _ => Fr.skipWs)
macro_rules | `(tactic| dw_step) => `(tactic| with_reducible exact DeBase.flat fun _ _ => Fr.consumeAll _ _)
macro_rules | `(tactic| dw_step) => `(tactic| with_reducible exact DeBase.flat fun _ _ => Fr.comma)
macro_rules | `(tactic| dw_step) => `(tactic| with_reducible exact DeBase.flat fun _ _ => Fr.string)
macro_rules | `(tactic| dw_step) => `(tactic| with_reducible exact DeBase.flat fun _ _ => Fr.charLit)
macro_rules | `(tactic| dw_step) => `(tactic| with_reducible exact DeBase.flat fun _ _ => Fr.byteString)
macro_rules | `(tactic| dw_step) => `(tactic| with_reducible exact DeBase.flat fun _ _ => Fr.checkIdent _)
macro_rules | `(tactic| dw_step) => `(tactic| with_reducible exact DeBase.flat fun _ _ => Fr.consumeIdent _)
macro_rules | `(tactic| dw_step) => `(tactic| with_reducible exact DeBase.flat fun _ _ => Fr.skipIdentifier)
macro_rules | `(tactic| dw_step) => `(tactic| with_reducible exact DeBase.flat fun _ _ => Fr.identifier)
macro_rules | `(tactic| dw_step) => `(tactic| with_reducible exact DeBase.flat fun _ _ => Fr.bool)
macro_rules | `(tactic| dw_step) => `(tactic| with_reducible exact DeBase.flat fun _ _ => Fr.integer _)
macro_rules | `(tactic| dw_step) => `(tactic| with_reducible exact DeBase.flat fun _ _ => Fr.float _)
macro_rules | `(tactic| dw_step) => `(tactic| with_reducible exact DeBase.flat fun _ _ => Fr.anyNumber)
macro_rules | `(tactic| dw_step) => `(tactic| with_reducible exact DeBase.flat fun _ _ => Fr.checkStructType _ _)
macro_rules | `(tactic| dw_step) => `(tactic| with_reducible exact DW.pure _)
macro_rules | `(tactic| dw_step) => `(tactic| with_reducible exact DW.fail _)
macro_rules | `(tactic| dw_step) => `(tactic| with_reducible refine DeBase.guardQ ?_)
macro_rules | `(tactic| dw_step) => `(tactic| with_reducible refine DeBase.guardR ?_)
macro_rules | `(tactic| dw_step) => `(tactic| with_reducible exact DeBase.setNv _)
macro_rules | `(tactic| dw_step) => `(tactic| with_reducible exact DeBase.setIdent _)
macro_rules | `(tactic| dw_step) => `(tactic| with_reducible assumption)

section
variable {Φ : {α : Type} → P α → Prop} [DeBase @Φ] {α κ ν : Type}

theorem DW.hasElement (c : Char) (h : Bool) : Φ (hasElement c h) := by unfold Ron.hasElement; repeat dw_step
macro_rules | `(tactic| dw_step) => `(tactic| with_reducible exact DW.hasElement _ _)
theorem DW.nextElement {c : Char} {h : Bool} {seed : P α} (hs : Φ seed) : Φ (nextElement c h seed) := by
  unfold Ron.nextElement; repeat dw_step
theorem DW.nextKey {c : Char} {h : Bool} {seed : P α} (hs : Φ seed) : Φ (nextKey c h seed) := by
  unfold Ron.nextKey; repeat dw_step
theorem DW.nextValue {seed : P α} (hs : Φ seed) : Φ (nextValue seed) := by
  unfold Ron.nextValue; repeat dw_step
macro_rules | `(tactic| dw_step) => `(tactic| with_reducible refine DW.nextElement ?_)
macro_rules | `(tactic| dw_step) => `(tactic| with_reducible refine DW.nextKey ?_)
macro_rules | `(tactic| dw_step) => `(tactic| with_reducible refine DW.nextValue ?_)
theorem DW.seqLoop {c : Char} {seed : P α} (hs : Φ seed) (f : Nat) : ∀ h, Φ (seqLoop c seed f h) := by
  induction f with
  | zero => intro h; exact DW.fail _
  | succ f ih =>
    intro h
    unfold Ron.seqLoop
    refine DW.bind (DW.nextElement hs) fun r => ?_
    cases r with
    | none => exact DW.pure _
    | some r => exact DW.bind (ih _) fun _ => DW.pure _
theorem DW.readSeq {c : Char} {seed : P α} (hs : Φ seed) : Φ (readSeq c seed) := by
  unfold Ron.readSeq
  refine DeBase.getSt (fun s s' h1 h3 h4 => by simp only [h1]) fun s => ?_
  exact DW.seqLoop hs _ _
macro_rules | `(tactic| dw_step) => `(tactic| with_reducible refine DW.readSeq ?_)
theorem DW.mapLoop {c : Char} {key : P κ} {value : P ν} (hk : Φ key) (hv : Φ value) (f : Nat) : ∀ h, Φ (mapLoop c key value f h) := by
  induction f with
  | zero => intro h; exact DW.fail _
  | succ f ih =>
    intro h
    unfold Ron.mapLoop
    refine DW.bind (DW.nextKey hk) fun r => ?_
    cases r with
    | none => exact DW.pure _
    | some r => exact DW.bind (DW.nextValue hv) fun _ => DW.bind (ih _) fun _ => DW.pure _
theorem DW.readMap {c : Char} {key : P κ} {value : P ν} (hk : Φ key) (hv : Φ value) : Φ (readMap c key value) := by
  unfold Ron.readMap
  refine DeBase.getSt (fun s s' h1 h3 h4 => by simp only [h1]) fun s => ?_
  exact DW.mapLoop hk hv _ _
macro_rules | `(tactic| dw_step) => `(tactic| with_reducible refine DW.readMap ?_ ?_)

theorem DW.deSeq {visit : P α} (hv : Φ visit) : Φ (deSeq visit) := by unfold Ron.deSeq; repeat dw_step
theorem DW.deTuple {visit : P α} (hv : Φ visit) : Φ (deTuple visit) := by unfold Ron.deTuple; repeat dw_step
theorem DW.deMap {visit : P α} (hv : Φ visit) : Φ (deMap visit) := by unfold Ron.deMap; repeat dw_step
theorem DW.structAfterName {name : Text} {visit : P α} (hv : Φ visit) : Φ (structAfterName name visit) := by
  unfold Ron.structAfterName; repeat dw_step
macro_rules | `(tactic| dw_step) => `(tactic| with_reducible refine DW.deSeq ?_)
macro_rules | `(tactic| dw_step) => `(tactic| with_reducible refine DW.deTuple ?_)
macro_rules | `(tactic| dw_step) => `(tactic| with_reducible refine DW.deMap ?_)
macro_rules | `(tactic| dw_step) => `(tactic| with_reducible refine DW.structAfterName ?_)
theorem DW.deUnit : Φ deUnit := by unfold Ron.deUnit; repeat dw_step
macro_rules | `(tactic| dw_step) => `(tactic| with_reducible exact DW.deUnit)

theorem DW.liftE (e : Except Err α) : Φ (liftE e) := by cases e <;> first | exact DW.fail _ | exact DW.pure _
end
macro_rules | `(tactic| dw_step) => `(tactic| with_reducible exact DW.liftE _)

/-! ### What depends on the extensions -/

section
variable {Ψ : {α : Type} → P α → Prop} [DeWalk @Ψ]

theorem DW.structName' [Env] (n : Text) : Ψ (consumeStructName n) := by
  unfold Ron.consumeStructName
  refine DW.bind (DeWalk.flat fun _ _ => Fr.checkIdent _) fun b => DW.ite ?_ ?_
  · refine DeWalk.getSt (fun s s' h1 h2 h3 h4 => by simp only [h2]) fun s => ?_
    repeat dw_step
  · refine DW.bind (DeWalk.flat fun _ _ => Rel.attempt Fr.identifier) fun r => ?_
    repeat dw_step
theorem DW.option' [Env] {α : Type} {vn : α} {visit : P α} (hv : Ψ visit) : Ψ (deOption vn visit) := by
  have hu : Ψ (modSt fun s => { s with nv := s.exts.unwrapVariantNewtypes }) := DeWalk.setUnwrap
  have hi : Ψ (getSt >>= fun s => if s.exts.implicitSome then deGuardR visit else Ron.fail .expectedOption) :=
    DeWalk.getSt (fun s s' h1 h2 h3 h4 => by simp only [h2]) fun s => by repeat dw_step
  unfold Ron.deOption
  repeat (first | exact hi | exact hu | dw_step)
theorem DW.newtype' [Env] {α : Type} {name : Text} {visit : P α} (hv : Ψ visit) : Ψ (deNewtype name visit) := by
  have hn := DW.structName' (Ψ := @Ψ) name
  unfold Ron.deNewtype
  refine DeWalk.getSt (fun s s' h1 h2 h3 h4 => by simp only [h2, h3]) fun s => ?_
  repeat dw_step
theorem DW.variant' {α : Type} {seed : P α} (hv : Ψ seed) : Ψ (newtypeVariant seed) := by
  have hu : Ψ (modSt fun s => { s with nv := s.exts.unwrapVariantNewtypes }) := DeWalk.setUnwrap
  unfold Ron.newtypeVariant
  refine DeWalk.getSt (fun s s' h1 h2 h3 h4 => by simp only [h4]) fun s => ?_
  repeat (first | exact hu | dw_step)
end

instance {Φ : {α : Type} → P α → Prop} [DeWalk @Φ] : TyWalk @Φ .all where
  structName n _ := DW.structName' n
  option _ h := DW.option' h
  newtype _ h := DW.newtype' h
  variant _ h := DW.variant' h
  any h := h

section
variable {Φ : {α : Type} → P α → Prop} {K : Kinds} [walk : TyWalk @Φ K] [Env] {α : Type}
include walk

macro_rules | `(tactic| dw_step) => `(tactic| with_reducible exact TyWalk.structName _ (by first | assumption | trivial))
macro_rules | `(tactic| dw_step) => `(tactic| with_reducible exact DeWalk.setUnwrap)

theorem DW.deIdentifier : Φ deIdentifier := by unfold Ron.deIdentifier; repeat dw_step
macro_rules | `(tactic| dw_step) => `(tactic| with_reducible exact DW.deIdentifier)
macro_rules | `(tactic| dw_step) => `(tactic| with_reducible refine TyWalk.option (by first | assumption | trivial) ?_)
theorem DW.floatRangeOrValue (n : Number) : Φ (floatRangeOrValue n) := by unfold Ron.floatRangeOrValue; repeat dw_step
macro_rules | `(tactic| dw_step) => `(tactic| with_reducible exact DW.floatRangeOrValue _)
theorem DW.visitSeq {c : Char} {any : P Value} (h : Φ any) : Φ (visitSeq c any) := by unfold Ron.visitSeq; repeat dw_step
macro_rules | `(tactic| dw_step) => `(tactic| with_reducible refine DW.visitSeq ?_)
theorem DW.visitMap {c : Char} {key any : P Value} (hk : Φ key) (h : Φ any) : Φ (visitMap c key any) := by
  unfold Ron.visitMap; repeat dw_step
macro_rules | `(tactic| dw_step) => `(tactic| with_reducible refine DW.visitMap ?_ ?_)
theorem DW.deIdentValue : Φ deIdentValue := by unfold Ron.deIdentValue; repeat dw_step
macro_rules | `(tactic| dw_step) => `(tactic| with_reducible exact DW.deIdentValue)
theorem DW.anyStruct (ha : K.any) {any : P Value} (h : Φ any) : Φ (anyStruct any) := by unfold Ron.anyStruct; repeat dw_step
macro_rules | `(tactic| dw_step) => `(tactic| with_reducible refine DW.anyStruct (by first | assumption | trivial) ?_)
theorem DW.anyChar (ha : K.any) {any : P Value} (h : Φ any) : Φ (anyChar any) := by unfold Ron.anyChar; repeat dw_step
macro_rules | `(tactic| dw_step) => `(tactic| with_reducible refine DW.anyChar (by first | assumption | trivial) ?_)
theorem DW.anyPlain (ha : K.any) {any : P Value} (h : Φ any) : Φ (anyPlain any) := by have := walk.any ha; unfold Ron.anyPlain; repeat dw_step
macro_rules | `(tactic| dw_step) => `(tactic| with_reducible refine DW.anyPlain (by first | assumption | trivial) ?_)
theorem DW.anyBody (ha : K.any) {any : P Value} (h : Φ any) : Φ (anyBody any) := by unfold Ron.anyBody; repeat dw_step
theorem DW.deAny (ha : K.any) (f : Nat) : Φ (deAny f) := by
  induction f with
  | zero => exact DW.fail _
  | succ f ih => exact DW.anyBody ha ih
theorem DW.deValue (ha : K.any) : Φ deValue := by
  unfold Ron.deValue
  refine DeBase.getSt (fun s s' h1 h3 h4 => by simp only [h1]) fun s => ?_
  exact DW.deAny ha _
macro_rules | `(tactic| dw_step) => `(tactic| with_reducible exact DW.deValue (by first | assumption | trivial))
theorem DW.deIgnored (ha : K.any) : Φ deIgnored := by unfold Ron.deIgnored; repeat dw_step
macro_rules | `(tactic| dw_step) => `(tactic| with_reducible exact DW.deIgnored (by first | assumption | trivial))

/-! ### Typed data -/

omit [Env] in
theorem DW.tupleLoop {ex : Text} (seeds : List (P SVal)) (h : ∀ sd ∈ seeds, Φ sd) : ∀ i had, Φ (tupleLoop ex seeds i had) := by
  induction seeds with
  | nil => intro i had; exact DW.pure _
  | cons sd sds ih =>
    intro i had
    unfold Ron.tupleLoop
    refine DW.bind (DW.nextElement (h _ (by simp))) fun r => ?_
    cases r with
    | none => exact DW.fail _
    | some r => exact DW.bind (ih (fun sd hsd => h sd (by simp [hsd])) _ _) fun _ => DW.pure _
theorem DW.fieldKey (deny : Bool) (fs : List Text) : Φ (fieldKey deny fs) := by unfold Ron.fieldKey; repeat dw_step
macro_rules | `(tactic| dw_step) => `(tactic| with_reducible exact DW.fieldKey _ _)

/-- The field types have a property. -/
def AllFields (p : Ty → Prop) (fields : List (Text × Ty)) : Prop := ∀ e ∈ fields, p e.2

omit walk in
/-- Without unknown fields there is nothing to ignore. -/
theorem nextKey_known {c : Char} {had : Bool} {fs : List Text} {s s' : St} {r : Option (Option Text)}
    (h : nextKey c had (fieldKey true fs) s = .ok r s') : r ≠ some none := by
  rintro rfl
  unfold nextKey at h
  obtain ⟨b, s1, -, h⟩ := bind_ok h
  split at h
  · obtain ⟨k, s2, h1, h⟩ := bind_ok h
    cases h
    obtain ⟨s3, l, h1, -⟩ := deGuardR_inv h1
    unfold fieldKey at h1
    obtain ⟨id, s4, -, h1⟩ := bind_ok h1
    split at h1
    · cases h1
    · cases h1
  · cases h
theorem DW.structLoop {rec : Ty → P SVal} {deny : Bool} {fields : List (Text × Ty)} (ha : deny = true ∨ K.any)
    (h : AllFields (fun t => Φ (rec t)) fields) (f : Nat) :
    ∀ had got, Φ (structLoop rec Ron.deIgnored deny fields f had got) := by
  induction f with
  | zero => intro had got; exact DW.fail _
  | succ f ih =>
    intro had got
    unfold Ron.structLoop
    refine DeBase.bindOk (DW.nextKey (DW.fieldKey _ _)) fun r hr => ?_
    cases r with
    | none => exact DW.pure _
    | some r =>
      cases r with
      | none =>
        rcases ha with rfl | ha
        · obtain ⟨s, s', hr⟩ := hr
          exact absurd rfl (nextKey_known hr)
        · exact DW.bind (DW.nextValue (DW.deIgnored ha)) fun _ => ih _ _
      | some key =>
        refine DW.ite (DW.fail _) ?_
        generalize he : List.find? (fun e => decide (e.1 = key)) fields = o
        cases o with
        | none => exact DW.fail _
        | some e => exact DW.bind (DW.nextValue (h e (List.mem_of_find?_eq_some he))) fun _ => ih _ _
theorem DW.visitStruct {rec : Ty → P SVal} {io : Ty → Bool} {deny : Bool} {fields : List (Text × Ty)}
    (ha : deny = true ∨ K.any) (h : AllFields (fun t => Φ (rec t)) fields) : Φ (visitStruct rec io deny fields) := by
  unfold Ron.visitStruct
  refine DeBase.getSt (fun s s' h1 h3 h4 => by simp only [h1]) fun s => ?_
  exact DW.bind (DW.structLoop ha h _ _ _) fun _ => DW.liftE _
theorem DW.rangeStruct (name : Text) (fields : List Text) : Φ (rangeStruct name fields) := by
  unfold Ron.rangeStruct
  repeat dw_step
theorem DW.deStruct {rec : Ty → P SVal} {io : Ty → Bool} {conv : Ty → Number → Except Err SVal} {name : Text} {deny : Bool}
    {fields : List (Text × Ty)} (hn : K.names) (ha : deny = true ∨ K.any) (h : AllFields (fun t => Φ (rec t)) fields) : Φ (deStruct rec io conv name deny fields) := by
  unfold Ron.deStruct
  refine DW.bind (DW.rangeStruct _ _) fun r => ?_
  cases r with
  | some es => exact DW.bind (DW.liftE _) fun _ => DW.pure _
  | none =>
    have := DW.visitStruct (io := io) (deny := deny) ha h
    repeat dw_step
theorem DW.deUnitStruct (hn : K.names) (name : Text) : Φ (deUnitStruct name) := by unfold Ron.deUnitStruct; repeat dw_step
macro_rules | `(tactic| dw_step) => `(tactic| with_reducible exact DW.deUnitStruct (by first | assumption | trivial) _)
macro_rules | `(tactic| dw_step) => `(tactic| with_reducible refine TyWalk.newtype (by first | assumption | trivial) ?_)
theorem DW.deTupleStruct (hn : K.names) {name : Text} {visit : P α} (hv : Φ visit) : Φ (deTupleStruct name visit) := by
  unfold Ron.deTupleStruct; repeat dw_step
macro_rules | `(tactic| dw_step) => `(tactic| with_reducible refine DW.deTupleStruct (by first | assumption | trivial) ?_)
macro_rules | `(tactic| dw_step) => `(tactic| with_reducible refine TyWalk.variant (by first | assumption | trivial) ?_)
theorem DW.deEnum {name : Text} {visit : P α} (hv : Φ visit) : Φ (deEnum name visit) := by
  unfold Ron.deEnum; repeat dw_step
macro_rules | `(tactic| dw_step) => `(tactic| with_reducible refine DW.deEnum ?_)
theorem DW.deInt (t : IntTy) : Φ (deInt t) := by unfold Ron.deInt; repeat dw_step
macro_rules | `(tactic| dw_step) => `(tactic| with_reducible exact DW.deInt _)
theorem DW.deBytes : Φ deBytes := by unfold Ron.deBytes; repeat dw_step
macro_rules | `(tactic| dw_step) => `(tactic| with_reducible exact DW.deBytes)

end

variable {Φ : {α : Type} → P α → Prop} {K : Kinds} {ok : Prop}

mutual
/-- A type with data of the kinds of `K` only, and with raw values only if `ok` (type names are looked up elsewhere). -/
def Ty.Within (K : Kinds) (ok : Prop) : Ty → Prop
  | .raw => ok
  | .value => K.any
  | .newtype _ t => K.newtype ∧ t.Within K ok
  | .option t => K.option ∧ t.Within K ok
  | .seq t => t.Within K ok
  | .tuple ts => TysWithin K ok ts
  | .tupleStruct _ ts => K.names ∧ TysWithin K ok ts
  | .unitStruct _ => K.names
  | .map k v => k.Within K ok ∧ v.Within K ok
  | .struct _ deny fs => K.names ∧ (deny = true ∨ K.any) ∧ FieldsWithin K ok fs
  | .enum _ vs => VariantsWithin K ok vs
  | _ => True
/-- The elements of a tuple type. -/
def TysWithin (K : Kinds) (ok : Prop) : List Ty → Prop
  | [] => True
  | t :: ts => t.Within K ok ∧ TysWithin K ok ts
/-- The fields of a struct type. -/
def FieldsWithin (K : Kinds) (ok : Prop) : List (Text × Ty) → Prop
  | [] => True
  | (_, t) :: fs => t.Within K ok ∧ FieldsWithin K ok fs
/-- The variants of an enum type. -/
def VariantsWithin (K : Kinds) (ok : Prop) : List (Text × Variant) → Prop
  | [] => True
  | (_, v) :: vs => v.Within K ok ∧ VariantsWithin K ok vs
/-- A variant. -/
def Variant.Within (K : Kinds) (ok : Prop) : Variant → Prop
  | .unit => True
  | .newtype t => K.variant ∧ t.Within K ok
  | .tuple ts => TysWithin K ok ts
  | .struct deny fs => (deny = true ∨ K.any) ∧ FieldsWithin K ok fs
end

mutual
/-- A type that contains raw values only if `ok` (type names are looked up elsewhere). -/
def Ty.RawIf (ok : Prop) : Ty → Prop
  | .raw => ok
  | .newtype _ t => t.RawIf ok
  | .option t => t.RawIf ok
  | .seq t => t.RawIf ok
  | .tuple ts => NoRaws ok ts
  | .tupleStruct _ ts => NoRaws ok ts
  | .map k v => k.RawIf ok ∧ v.RawIf ok
  | .struct _ _ fs => NoRawFields ok fs
  | .enum _ vs => NoRawVariants ok vs
  | _ => True
/-- The elements of a tuple type. -/
def NoRaws (ok : Prop) : List Ty → Prop
  | [] => True
  | t :: ts => t.RawIf ok ∧ NoRaws ok ts
/-- The fields of a struct type. -/
def NoRawFields (ok : Prop) : List (Text × Ty) → Prop
  | [] => True
  | (_, t) :: fs => t.RawIf ok ∧ NoRawFields ok fs
/-- The variants of an enum type. -/
def NoRawVariants (ok : Prop) : List (Text × Variant) → Prop
  | [] => True
  | (_, v) :: vs => v.RawIf ok ∧ NoRawVariants ok vs
/-- A variant. -/
def Variant.RawIf (ok : Prop) : Variant → Prop
  | .unit => True
  | .newtype t => t.RawIf ok
  | .tuple ts => NoRaws ok ts
  | .struct _ fs => NoRawFields ok fs
end

/-- A type without raw values. -/
abbrev Ty.NoRaw (t : Ty) : Prop := t.RawIf False

mutual
theorem Ty.RawIf.within : (t : Ty) → t.RawIf ok → t.Within .all ok
  | .raw => fun h => h
  | .newtype _ t => fun h => ⟨trivial, Ty.RawIf.within t h⟩
  | .option t => fun h => ⟨trivial, Ty.RawIf.within t h⟩
  | .seq t => fun h => Ty.RawIf.within t h
  | .tuple ts => fun h => NoRaws.within ts h
  | .tupleStruct _ ts => fun h => ⟨trivial, NoRaws.within ts h⟩
  | .map k v => fun h => ⟨Ty.RawIf.within k h.1, Ty.RawIf.within v h.2⟩
  | .struct _ _ fs => fun h => ⟨trivial, .inr trivial, NoRawFields.within fs h⟩
  | .enum _ vs => fun h => NoRawVariants.within vs h
  | .value => fun _ => trivial
  | .bool | .int _ | .f32 | .f64 | .char | .str | .bytes | .unit | .unitStruct _ | .ref _ => fun _ => trivial
theorem NoRaws.within : (ts : List Ty) → NoRaws ok ts → TysWithin .all ok ts
  | [] => fun _ => trivial
  | t :: ts => fun h => ⟨Ty.RawIf.within t h.1, NoRaws.within ts h.2⟩
theorem NoRawFields.within : (fs : List (Text × Ty)) → NoRawFields ok fs → FieldsWithin .all ok fs
  | [] => fun _ => trivial
  | (_, t) :: fs => fun h => ⟨Ty.RawIf.within t h.1, NoRawFields.within fs h.2⟩
theorem NoRawVariants.within : (vs : List (Text × Variant)) → NoRawVariants ok vs → VariantsWithin .all ok vs
  | [] => fun _ => trivial
  | (_, .unit) :: vs => fun h => ⟨trivial, NoRawVariants.within vs h.2⟩
  | (_, .newtype t) :: vs => fun h => ⟨⟨trivial, Ty.RawIf.within t h.1⟩, NoRawVariants.within vs h.2⟩
  | (_, .tuple ts) :: vs => fun h => ⟨NoRaws.within ts h.1, NoRawVariants.within vs h.2⟩
  | (_, .struct _ fs) :: vs => fun h => ⟨⟨.inr trivial, NoRawFields.within fs h.1⟩, NoRawVariants.within vs h.2⟩
end

mutual
theorem Ty.rawIf_true : (t : Ty) → t.RawIf True
  | .raw => trivial
  | .newtype _ t => by simp only [Ty.RawIf]; exact t.rawIf_true
  | .option t => by simp only [Ty.RawIf]; exact t.rawIf_true
  | .seq t => by simp only [Ty.RawIf]; exact t.rawIf_true
  | .tuple ts => by simp only [Ty.RawIf]; exact rawIfs_true ts
  | .tupleStruct _ ts => by simp only [Ty.RawIf]; exact rawIfs_true ts
  | .map k v => by simp only [Ty.RawIf]; exact ⟨k.rawIf_true, v.rawIf_true⟩
  | .struct _ _ fs => by simp only [Ty.RawIf]; exact rawIfFields_true fs
  | .enum _ vs => by simp only [Ty.RawIf]; exact rawIfVariants_true vs
  | .bool | .int _ | .f32 | .f64 | .char | .str | .bytes | .unit | .unitStruct _ | .value | .ref _ => by simp only [Ty.RawIf]
theorem rawIfs_true : (ts : List Ty) → NoRaws True ts
  | [] => trivial
  | t :: ts => ⟨t.rawIf_true, rawIfs_true ts⟩
theorem rawIfFields_true : (fs : List (Text × Ty)) → NoRawFields True fs
  | [] => trivial
  | (_, t) :: fs => ⟨t.rawIf_true, rawIfFields_true fs⟩
theorem rawIfVariants_true : (vs : List (Text × Variant)) → NoRawVariants True vs
  | [] => trivial
  | (_, .unit) :: vs => ⟨trivial, rawIfVariants_true vs⟩
  | (_, .newtype t) :: vs => ⟨t.rawIf_true, rawIfVariants_true vs⟩
  | (_, .tuple ts) :: vs => ⟨rawIfs_true ts, rawIfVariants_true vs⟩
  | (_, .struct _ fs) :: vs => ⟨rawIfFields_true fs, rawIfVariants_true vs⟩
end

theorem TysWithin.all {ts : List Ty} (h : TysWithin K ok ts) : ∀ t ∈ ts, t.Within K ok := by
  induction ts with
  | nil => simp
  | cons t ts ih => intro x hx; cases hx with | head => exact h.1 | tail _ hx => exact ih h.2 x hx
theorem FieldsWithin.all {fs : List (Text × Ty)} (h : FieldsWithin K ok fs) : AllFields (Ty.Within K ok) fs := by
  induction fs with
  | nil => intro e he; cases he
  | cons t ts ih => intro x hx; cases hx with | head => exact h.1 | tail _ hx => exact ih h.2 x hx
theorem VariantsWithin.all {vs : List (Text × Variant)} (h : VariantsWithin K ok vs) : ∀ e ∈ vs, e.2.Within K ok := by
  induction vs with
  | nil => simp
  | cons t ts ih => intro x hx; cases hx with | head => exact h.1 | tail _ hx => exact ih h.2 x hx

variable [walk : TyWalk @Φ K] [Env] {α : Type}
include walk

theorem DW.variantData {rec : Ty → P SVal} {io : Ty → Bool} {name var : Text} (h : ∀ t : Ty, t.Within K ok → Φ (rec t)) (v : Variant) (hv : v.Within K ok) :
    Φ (variantData rec io name var v) := by
  cases v with
  | unit => exact DW.pure _
  | newtype t =>
    unfold Ron.variantData
    have := h t hv.2
    have := hv.1
    repeat dw_step
  | tuple ts =>
    unfold Ron.variantData
    have := DW.tupleLoop (ex := c!"tuple variant") (ts.map rec) (by
      intro sd hsd
      obtain ⟨t, ht, rfl⟩ := List.mem_map.mp hsd
      exact h t (TysWithin.all hv t ht)) 0 true
    repeat dw_step
  | struct deny fs =>
    unfold Ron.variantData
    refine DeBase.getSt (fun s s' h1 h3 h4 => by simp only [h1, h3, h4]) fun s => ?_
    have := DW.visitStruct (rec := rec) (io := io) (deny := deny) (fields := fs) hv.1 fun e he => h _ (FieldsWithin.all hv.2 e he)
    repeat dw_step

theorem DW.visitEnum {rec : Ty → P SVal} {io : Ty → Bool} {name : Text} {vs : List (Text × Variant)} (h : ∀ t : Ty, t.Within K ok → Φ (rec t))
    (hv : VariantsWithin K ok vs) : Φ (visitEnum rec io name vs) := by
  unfold Ron.visitEnum
  refine DW.bind (DeBase.flat fun _ _ => Fr.skipWs) fun _ => ?_
  refine DeBase.bindOk (DeBase.guardQ ?_) ?_
  · refine DW.bind DW.deIdentifier fun id => ?_
    repeat dw_step
  · rintro ⟨a, k⟩ ⟨s, s', hs⟩
    obtain ⟨s2, l, hs, -⟩ := deGuardQ_inv hs
    replace hs := bind_ok hs
    obtain ⟨id, s3, -, hs⟩ := hs
    generalize he : List.find? (fun e => decide (e.1 = id)) vs = o at hs
    cases o with
    | none => cases hs
    | some e =>
      cases hs
      exact DW.variantData h _ (VariantsWithin.all hv e (List.mem_of_find?_eq_some he))

/-- Typed data. -/
theorem DW.deTy {D : Nat → Ty} (hok : ok → Φ deRaw) (hD : ∀ i, (D i).Within K ok) (f : Nat) : ∀ t : Ty, t.Within K ok → Φ (deTy D f t) := by
  induction f with
  | zero => intro t _; exact DW.fail _
  | succ f ih =>
    intro t ht
    have tup : ∀ ex ts, TysWithin K ok ts → ∀ i had, Φ (Ron.tupleLoop ex (ts.map (Ron.deTy D f)) i had) := fun ex ts hts =>
      DW.tupleLoop _ (by
        intro sd hsd
        obtain ⟨t, ht, rfl⟩ := List.mem_map.mp hsd
        exact ih t (hts.all t ht))
    cases t with
    | newtype _ t => have := ih t ht.2; have := ht.1; unfold Ron.deTy; repeat dw_step
    | option t => have := ih t ht.2; have := ht.1; unfold Ron.deTy; repeat dw_step
    | seq t => have := ih t ht; unfold Ron.deTy; repeat dw_step
    | tuple ts => have := tup c!"tuple" ts ht 0 true; unfold Ron.deTy; repeat dw_step
    | tupleStruct _ ts => have := tup c!"tuple struct" ts ht.2 0 true; have := ht.1; unfold Ron.deTy; repeat dw_step
    | map k v => have := ih k ht.1; have := ih v ht.2; unfold Ron.deTy; repeat dw_step
    | struct n d fs =>
      unfold Ron.deTy
      exact DW.deStruct ht.1 ht.2.1 fun e he => ih _ (FieldsWithin.all ht.2.2 e he)
    | enum n vs =>
      unfold Ron.deTy
      exact DW.deEnum (DW.visitEnum ih ht)
    | raw => have := hok ht; unfold Ron.deTy; repeat dw_step
    | unitStruct n => have : K.names := ht; unfold Ron.deTy; repeat dw_step
    | value => have : K.any := ht; unfold Ron.deTy; repeat dw_step
    | ref i => unfold Ron.deTy; exact ih _ (hD i)
    | _ => unfold Ron.deTy; repeat dw_step


/-! ### Documents -/

theorem DW.extensionList (f : Nat) : ∀ acc, Φ (extensionList f acc) := by
  induction f with
  | zero => intro acc; exact DW.fail _
  | succ f ih =>
    intro acc
    unfold Ron.extensionList
    refine DW.bind (DeBase.flat fun _ _ => Fr.identifier) fun id => ?_
    generalize Exts.fromIdent id = o
    cases o with
    | none => exact DW.fail _
    | some e =>
      refine DW.bind (DeBase.flat fun _ _ => Fr.comma) fun c => DeBase.getSt (fun s s' h1 h3 h4 => by simp only [h1]) fun s => ?_
      exact DW.ite (DW.fail _) (DW.ite (DW.pure _) (ih _))
macro_rules | `(tactic| dw_step) => `(tactic| with_reducible exact DW.extensionList _ _)
theorem DW.docAttribute : Φ docAttribute := by unfold Ron.docAttribute; repeat dw_step
theorem DW.attributes (f : Nat) : Φ (attributes f) := by
  induction f with
  | zero => exact DW.fail _
  | succ f ih =>
    unfold Ron.attributes
    refine DW.bind DW.docAttribute fun r => ?_
    cases r with
    | none => exact DW.pure _
    | ignored => exact DW.bind (DeBase.flat fun _ _ => Fr.skipWs) fun _ => ih
    | extensions e =>
      refine DW.bind (DeBase.setExts e) fun _ => ?_
      exact DW.bind (DeBase.flat fun _ _ => Fr.skipWs) fun _ => ih
theorem DW.deEnd : Φ deEnd := by unfold Ron.deEnd; repeat dw_step


end Ron
