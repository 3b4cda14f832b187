import Verif.Lemmas.ExtSim
import Verif.Lemmas.Witness
import Verif.Lemmas.Deq
/-!
# C58: an extension changes only what it is about

`implicit_some` and the absence of `explicit_struct_names` let more documents in and change nothing else; `unwrap_newtypes` and
`unwrap_variant_newtypes` change nothing for types without what they are about.  All of this for every text, also malformed ones,
with the same errors at the same places.
-/

namespace Ron

variable [Env]

/-- Turning `implicit_some` on changes nothing, whatever the type and the text, except that a document that was rejected because
an option was expected may be read now. -/
theorem C58_implicit_some (o : Options) (D : Nat → Ty) (f : Nat) (T : Ty) (t : Text) :
    let on := { o with defaultExtensions := { o.defaultExtensions with implicitSome := true } }
    let off := { o with defaultExtensions := { o.defaultExtensions with implicitSome := false } }
    (fromStr on (deTy D f T) t = fromStr off (deTy D f T) t ∨ ∃ sp, fromStr off (deTy D f T) t = .error (.expectedOption, sp)) ∧
    (fromStr on deValue t = fromStr off deValue t ∨ ∃ sp, fromStr off deValue t = .error (.expectedOption, sp)) := by
  have k : ∀ {α : Type} (g : P α), ExSim { implicitSome := true } g → _ := fun g hg =>
    readDoc_sim (o := { o with defaultExtensions := { o.defaultExtensions with implicitSome := false } })
      (o' := { o with defaultExtensions := { o.defaultExtensions with implicitSome := true } }) rfl
      ⟨⟨fun _ => rfl, fun h => absurd h (by decide)⟩, fun _ => ⟨fun h => h, fun _ => rfl⟩, fun _ => rfl, fun _ => rfl⟩ hg t
  have b : ∀ {e : Err}, ({ implicitSome := true } : Differ).Blames e → e = .expectedOption := by
    rintro e (⟨-, h⟩ | ⟨h, -⟩)
    · exact h
    · cases h
  refine ⟨?_, ?_⟩
  · rcases k _ (ExSim.deTy (fun i => Ty.within_all rfl rfl rfl _) f T (Ty.within_all rfl rfl rfl _)) with h | ⟨e, sp, h, hb⟩
    · exact .inl h
    · exact .inr ⟨sp, by rw [h, b hb]⟩
  · rcases k _ (ExSim.deValue rfl) with h | ⟨e, sp, h, hb⟩
    · exact .inl h
    · exact .inr ⟨sp, by rw [h, b hb]⟩

/-- Turning `explicit_struct_names` off changes nothing, whatever the type and the text, except that a document that was
rejected because the name of a struct was missing may be read now. -/
theorem C58_explicit_struct_names (o : Options) (D : Nat → Ty) (f : Nat) (T : Ty) (t : Text) :
    let on := { o with defaultExtensions := { o.defaultExtensions with explicitStructNames := true } }
    let off := { o with defaultExtensions := { o.defaultExtensions with explicitStructNames := false } }
    fromStr off (deTy D f T) t = fromStr on (deTy D f T) t ∨ ∃ n sp, fromStr on (deTy D f T) t = .error (.expectedStructName n, sp) := by
  rcases readDoc_sim (d := { explicitNames := true })
      (o := { o with defaultExtensions := { o.defaultExtensions with explicitStructNames := true } })
      (o' := { o with defaultExtensions := { o.defaultExtensions with explicitStructNames := false } }) rfl
      ⟨⟨fun h => h, fun _ => rfl⟩, fun _ => ⟨fun _ => rfl, fun h => absurd h (by decide)⟩, fun _ => rfl, fun _ => rfl⟩
      (ExSim.deTy (fun i => Ty.within_all rfl rfl rfl _) f T (Ty.within_all rfl rfl rfl _)) t with h | ⟨e, sp, h, hb⟩
  · exact .inl h
  · rcases hb with ⟨hb, -⟩ | ⟨-, n, rfl⟩
    · cases hb
    · exact .inr ⟨n, sp, h⟩

/-- `explicit_struct_names` makes no difference for a type without structs, nor for a `Value`, whatever the text. -/
theorem C58_no_structs (o : Options) (D : Nat → Ty) (hD : ∀ i, (D i).NoStruct) (f : Nat) (T : Ty) (hT : T.NoStruct) (b : Bool) (t : Text) :
    fromStr { o with defaultExtensions := { o.defaultExtensions with explicitStructNames := b } } (deTy D f T) t = fromStr o (deTy D f T) t ∧
    fromStr { o with defaultExtensions := { o.defaultExtensions with explicitStructNames := b } } deValue t = fromStr o deValue t := by
  have k : ∀ {α : Type} (g : P α), ExSim { names := true } g →
      fromStr { o with defaultExtensions := { o.defaultExtensions with explicitStructNames := b } } g t = fromStr o g t := by
    intro α g hg
    rcases readDoc_sim (o := o) (o' := { o with defaultExtensions := { o.defaultExtensions with explicitStructNames := b } }) rfl
      ⟨⟨fun h => h, fun _ => rfl⟩, fun h => absurd h (by decide), fun _ => rfl, fun _ => rfl⟩ hg t with h | ⟨e, sp, h, hb⟩
    · exact h
    · rcases hb with ⟨hb, -⟩ | ⟨hb, -⟩ <;> cases hb
  exact ⟨k _ (ExSim.deTy (fun i => Ty.NoStruct.within rfl _ (hD i)) f T (Ty.NoStruct.within rfl _ hT)), k _ (ExSim.deValue rfl)⟩

/-- `unwrap_newtypes` makes no difference for a type without newtype structs, whatever the text. -/
theorem C58_unwrap_newtypes (o : Options) (D : Nat → Ty) (hD : ∀ i, (D i).NoNewtype) (f : Nat) (T : Ty) (hT : T.NoNewtype) (b : Bool) (t : Text) :
    fromStr { o with defaultExtensions := { o.defaultExtensions with unwrapNewtypes := b } } (deTy D f T) t = fromStr o (deTy D f T) t ∧
    fromStr { o with defaultExtensions := { o.defaultExtensions with unwrapNewtypes := b } } deValue t = fromStr o deValue t := by
  have k : ∀ {α : Type} (g : P α), ExSim { newtypes := true } g →
      fromStr { o with defaultExtensions := { o.defaultExtensions with unwrapNewtypes := b } } g t = fromStr o g t := by
    intro α g hg
    rcases readDoc_sim (o := o) (o' := { o with defaultExtensions := { o.defaultExtensions with unwrapNewtypes := b } }) rfl
      ⟨⟨fun h => h, fun _ => rfl⟩, fun _ => ⟨fun h => h, fun _ => rfl⟩, fun h => absurd h (by decide), fun _ => rfl⟩ hg t with h | ⟨e, sp, h, hb⟩
    · exact h
    · rcases hb with ⟨hb, -⟩ | ⟨hb, -⟩ <;> cases hb
  exact ⟨k _ (ExSim.deTy (fun i => Ty.NoNewtype.within rfl rfl _ (hD i)) f T (Ty.NoNewtype.within rfl rfl _ hT)), k _ (ExSim.deValue rfl)⟩

/-- `unwrap_variant_newtypes` makes no difference for a type without newtype variants, options and self-describing data, whatever
the text. -/
theorem C58_unwrap_variant_newtypes (o : Options) (D : Nat → Ty) (hD : ∀ i, (D i).NoVariant) (f : Nat) (T : Ty) (hT : T.NoVariant) (b : Bool)
    (t : Text) :
    fromStr { o with defaultExtensions := { o.defaultExtensions with unwrapVariantNewtypes := b } } (deTy D f T) t = fromStr o (deTy D f T) t := by
  rcases readDoc_sim (d := { variants := true }) (o := o)
      (o' := { o with defaultExtensions := { o.defaultExtensions with unwrapVariantNewtypes := b } }) rfl
      ⟨⟨fun h => h, fun _ => rfl⟩, fun _ => ⟨fun h => h, fun _ => rfl⟩, fun _ => rfl, fun h => absurd h (by decide)⟩
      (ExSim.deTy (fun i => Ty.NoVariant.within rfl rfl _ (hD i)) f T (Ty.NoVariant.within rfl rfl _ hT)) t with h | ⟨e, sp, h, hb⟩
  · exact h
  · rcases hb with ⟨hb, -⟩ | ⟨hb, -⟩ <;> cases hb

/-! ### Cases -/

/-- `struct P { a: u8, b: Option<u8> }` -/
def c58T : Ty := .struct c!"P" false [(c!"a", .int .u8), (c!"b", .option (.int .u8))]

/-- Both ways of `C58_implicit_some`: an explicit `Some` is read in the same way, an implicit one with the extension only. -/
example : let _ : Env := asciiEnv true true
    let on : Options := { defaultExtensions := { implicitSome := true } }
    let v := Except.ok (SVal.struct c!"P" [(c!"a", .num (.int .u8 1)), (c!"b", .some (.num (.int .u8 2)))])
    fromStr {} (deTy (fun _ => .unit) 9 c58T) c!"P(a: 1, b: Some(2))" = v ∧ fromStr on (deTy (fun _ => .unit) 9 c58T) c!"P(a: 1, b: Some(2))" = v ∧
    fromStr on (deTy (fun _ => .unit) 9 c58T) c!"P(a: 1, b: 2)" = v ∧
    fromStr {} (deTy (fun _ => .unit) 9 c58T) c!"P(a: 1, b: 2)" = .error (.expectedOption, ⟨⟨1, 11⟩, ⟨1, 12⟩⟩) := by decide +kernel

/-- Both ways of `C58_explicit_struct_names`. -/
example : let _ : Env := asciiEnv true true
    let on : Options := { defaultExtensions := { explicitStructNames := true } }
    let v := Except.ok (SVal.struct c!"P" [(c!"a", .num (.int .u8 1)), (c!"b", .none)])
    fromStr {} (deTy (fun _ => .unit) 9 c58T) c!"P(a: 1, b: None)" = v ∧ fromStr on (deTy (fun _ => .unit) 9 c58T) c!"P(a: 1, b: None)" = v ∧
    fromStr {} (deTy (fun _ => .unit) 9 c58T) c!"(a: 1, b: None)" = v ∧
    fromStr on (deTy (fun _ => .unit) 9 c58T) c!"(a: 1, b: None)" = .error (.expectedStructName c!"P", ⟨⟨1, 1⟩, ⟨1, 1⟩⟩) := by decide +kernel

/-- The hypotheses of the other theorems can be met: an enum with an option for `C58_no_structs` and `C58_unwrap_newtypes`, a
struct of a newtype for `C58_unwrap_variant_newtypes`. -/
example : (Ty.enum c!"E" [(c!"A", .unit), (c!"B", .newtype (.option .str)), (c!"C", .struct false [(c!"x", .value)])]).NoStruct ∧
    (Ty.enum c!"E" [(c!"A", .unit), (c!"B", .newtype (.option .str)), (c!"C", .struct false [(c!"x", .value)])]).NoNewtype ∧
    (Ty.struct c!"P" true [(c!"a", .newtype c!"N" .bool), (c!"b", .enum c!"E" [(c!"A", .tuple [.str, .char])])]).NoVariant := by
  simp [Ty.NoStruct, NoStructVariants, Variant.NoStruct, NoStructFields, Ty.NoNewtype, NoNewtypeVariants, Variant.NoNewtype,
    NoNewtypeFields, Ty.NoVariant, NoVariantFields, NoVariantVariants, Variant.NoVariant, NoVariants]

/-- They are needed: a newtype struct is read differently with `unwrap_newtypes`. -/
example : let _ : Env := asciiEnv true true
    let T := Ty.newtype c!"N" .bool
    fromStr {} (deTy (fun _ => .unit) 9 T) c!"N(true)" = .ok (.newtypeStruct c!"N" (.bool true)) ∧
    fromStr { defaultExtensions := { unwrapNewtypes := true } } (deTy (fun _ => .unit) 9 T) c!"N(true)" = .error (.expectedBoolean, ⟨⟨1, 1⟩, ⟨1, 1⟩⟩) := by
  decide +kernel

/-- A `Value` depends on `implicit_some` and on `unwrap_variant_newtypes`, where it has an option. -/
example : let _ : Env := asciiEnv true true
    fromStr {} deValue c!"Some 1" = .error (.expectedOption, ⟨⟨1, 5⟩, ⟨1, 6⟩⟩) ∧
    fromStr { defaultExtensions := { implicitSome := true } } deValue c!"Some 1" = .ok (.some (.num (.int .u8 1))) ∧
    fromStr { defaultExtensions := { unwrapVariantNewtypes := true } } deValue c!"Some(a: 1)" =
      .ok (.some (.map (mapOfList [(.str c!"a", .num (.int .u8 1))]))) ∧
    fromStr {} deValue c!"Some(a: 1)" = .error (.expectedOptionEnd, ⟨⟨1, 7⟩, ⟨1, 7⟩⟩) := by
  exact ⟨by decide +kernel, by decide +kernel, by decide +kernel, by decide +kernel⟩

end Ron
