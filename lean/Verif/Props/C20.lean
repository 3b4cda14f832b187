import Verif.Lemmas.TyDoc
import Verif.Lemmas.Witness
/-!
# C20: nested options round-trip with `implicit_some`

The payload is any data that C19 covers; the options around it are arbitrarily many.
-/

set_option linter.unusedSimpArgs false

namespace Ron

variable [Env]

/-- The type `Option<Option<…<T>…>>`, `d` times. -/
def optionTy : Nat → Ty → Ty
  | 0, T => T
  | d + 1, T => .option (optionTy d T)

omit [Env] in
/-- The data `Some(Some(…u…))`, `d` times. -/
def someData : Nat → SVal → SVal
  | 0, u => u
  | d + 1, u => .some (someData d u)

/-- A value of the nested type is `None` below less than `d` times `Some`, or a payload below `d` times `Some`. -/
theorem hasTy_options (D : Nat → Ty) (n : Nat) (T : Ty) : ∀ (d : Nat) (v : SVal), HasTy D (n + d) (optionTy d T) v ↔
    (∃ k, k < d ∧ v = someData k .none) ∨ (∃ u, HasTy D n T u ∧ v = someData d u)
  | 0, v => by simp [optionTy, someData]
  | d + 1, v => by
    show HasTy D (n + d + 1) (.option (optionTy d T)) v ↔ _
    simp only [HasTy, hasTy_options D n T d]
    constructor
    · rintro (rfl | ⟨u, rfl, ⟨k, hk, rfl⟩ | ⟨w, hw, rfl⟩⟩)
      · exact .inl ⟨0, by omega, rfl⟩
      · exact .inl ⟨k + 1, by omega, rfl⟩
      · exact .inr ⟨w, hw, rfl⟩
    · rintro (⟨k, hk, rfl⟩ | ⟨w, hw, rfl⟩)
      · cases k with
        | zero => exact .inl rfl
        | succ k => exact .inr ⟨_, rfl, .inl ⟨k, by omega, rfl⟩⟩
      · exact .inr ⟨_, rfl, .inr ⟨w, hw, rfl⟩⟩

theorem someData_clean {rg : Ranges} {wx : Bool} {u : SVal} (h : u.Clean rg wx) : ∀ d, (someData d u).Clean rg wx
  | 0 => h
  | d + 1 => by simp only [someData, SVal.Clean]; exact someData_clean h d

theorem someData_named {u : SVal} (h : u.Named) : ∀ d, (someData d u).Named
  | 0 => h
  | d + 1 => by simp only [someData, SVal.Named]; exact someData_named h d

omit [Env] in
theorem someData_cost (u : SVal) : ∀ d, (someData d u).cost = u.cost + d
  | 0 => rfl
  | d + 1 => by simp only [someData, SVal.cost, someData_cost u d]; omega

omit [Env] in
theorem someData_nesting (u : SVal) : ∀ d, (someData d u).nesting = u.nesting + d
  | 0 => rfl
  | d + 1 => by simp only [someData, SVal.nesting, someData_nesting u d]; omega

/-- Under any set of extensions, in particular with `implicit_some`, every value of every nested option type is written and read back: `k` times
`Some` around `None`, for each `k` below the depth of the type, and the depth of the type times `Some` around a payload. -/
theorem C20 (o : Options) (cfg : Option PrettyConfig) (D : Nat → Ty) (n f d : Nat) (T : Ty)
    (hb : ∀ c, cfg = some c → c.Blank) (hf : n + d ≤ f) :
    (∀ k, k < d → (∀ m, o.recursionLimit = some m → k ≤ m) → ∃ t, toText o cfg (someData k .none) = .ok t ∧
      ∀ l l', Layout l → Layout l' → fromStr o (deTy D f (optionTy d T)) (l ++ (t ++ l')) = .ok (someData k .none)) ∧
    (∀ u, HasTy D n T u → u.Named → u.Clean (rgOf o cfg) (wxOf o cfg) → (∀ m, o.recursionLimit = some m → u.cost + d ≤ m) →
      ∃ t, toText o cfg (someData d u) = .ok t ∧
      ∀ l l', Layout l → Layout l' → fromStr o (deTy D f (optionTy d T)) (l ++ (t ++ l')) = .ok (someData d u)) := by
  constructor
  · intro k hk hm
    obtain ⟨t, ht⟩ := toText_goes (o := o) hb (someData_named (u := .none) (by simp [SVal.Named]) k)
      (fun m h => by rw [someData_nesting]; simpa [SVal.nesting] using hm m h)
    refine ⟨t, ht, typed_reads ((hasTy_options D n T d _).mpr (.inl ⟨k, hk, rfl⟩)) hf
      (someData_clean (by simp [SVal.Clean]) k) (fun m h => ?_) ht⟩
    rw [someData_cost]; simpa [SVal.cost] using hm m h
  · intro u hT hu hc hm
    have hcl := HasTy.clean D n T u hT
    obtain ⟨t, ht⟩ := toText_goes (o := o) hb (someData_named hu d)
      (fun m h => by rw [someData_nesting]; exact Nat.le_trans (Nat.add_le_add_right (nesting_le_cost u hcl) d) (hm m h))
    refine ⟨t, ht, typed_reads ((hasTy_options D n T d _).mpr (.inr ⟨u, hT, rfl⟩)) hf
      (someData_clean hc d) (fun m h => ?_) ht⟩
    rw [someData_cost]; exact hm m h

/-- No two values of a nested option type have the same text. -/
theorem C20_distinct (o : Options) (cfg : Option PrettyConfig) (D : Nat → Ty) (n d : Nat) (T : Ty) (v v' : SVal) (t : Text)
    (ho : o.recursionLimit = none)
    (hT : ∀ u, HasTy D n T u → u.Clean (rgOf o cfg) (wxOf o cfg))
    (hv : HasTy D (n + d) (optionTy d T) v) (hv' : HasTy D (n + d) (optionTy d T) v')
    (h : toText o cfg v = .ok t) (h' : toText o cfg v' = .ok t) : v = v' := by
  have hcl : ∀ w, HasTy D (n + d) (optionTy d T) w → w.Clean (rgOf o cfg) (wxOf o cfg) := by
    intro w hw
    rcases (hasTy_options D n T d w).mp hw with ⟨k, -, rfl⟩ | ⟨u, hu, rfl⟩
    · exact someData_clean (by simp [SVal.Clean]) k
    · exact someData_clean (hT u hu) d
  have h1 := typed_reads hv (Nat.le_refl _) (hcl v hv) (by simp [ho]) h [] [] .nil .nil
  have h2 := typed_reads hv' (Nat.le_refl _) (hcl v' hv') (by simp [ho]) h' [] [] .nil .nil
  rw [h1] at h2
  exact Except.ok.inj h2

/-- Non-vacuity: the four values of `Option<Option<Option<bool>>>` with `true`. -/
example : let _ := asciiEnv true true
    let D : Nat → Ty := fun _ => .unit
    HasTy D (1 + 3) (optionTy 3 .bool) .none ∧ HasTy D (1 + 3) (optionTy 3 .bool) (.some .none) ∧
    HasTy D (1 + 3) (optionTy 3 .bool) (.some (.some .none)) ∧ HasTy D (1 + 3) (optionTy 3 .bool) (.some (.some (.some (.bool true)))) ∧
    ∀ u, HasTy D 1 .bool u → u.Clean .compactStrict true := by
  refine ⟨.inl rfl, .inr ⟨_, rfl, .inl rfl⟩, .inr ⟨_, rfl, .inr ⟨_, rfl, .inl rfl⟩⟩, .inr ⟨_, rfl, .inr ⟨_, rfl, .inr ⟨_, rfl, _, rfl⟩⟩⟩, ?_⟩
  rintro u ⟨b, rfl⟩
  simp [SVal.Clean]

end Ron
