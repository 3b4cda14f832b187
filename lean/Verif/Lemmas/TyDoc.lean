import Verif.Lemmas.TyThm
import Verif.Lemmas.ValueRt
/-! Documents of typed data. -/

set_option linter.unusedSimpArgs false

namespace Ron

variable [Env]

theorem cleanAll_of {rg : Ranges} {wx : Bool} : ∀ {vs : List SVal}, (∀ v ∈ vs, v.Clean rg wx) → CleanAll rg wx vs
  | [], _ => by simp [CleanAll]
  | v :: vs, h => by simp only [CleanAll]; exact ⟨h v (by simp), cleanAll_of fun u hu => h u (by simp [hu])⟩

theorem cleanEntries_of {rg : Ranges} {wx : Bool} : ∀ {kvs : List (SVal × SVal)}, (∀ e ∈ kvs, e.1.Clean rg wx ∧ e.2.Clean rg wx) →
    CleanEntries rg wx kvs
  | [], _ => by simp [CleanEntries]
  | (k, v) :: kvs, h => by simp only [CleanEntries]; exact ⟨h (k, v) (by simp), cleanEntries_of fun u hu => h u (by simp [hu])⟩

theorem cleanFields_of {rg : Ranges} {wx : Bool} : ∀ {fs : List (Text × SVal)}, (∀ e ∈ fs, e.2.Clean rg wx) → CleanFields rg wx fs
  | [], _ => by simp [CleanFields]
  | (k, v) :: fs, h => by simp only [CleanFields]; exact ⟨h (k, v) (by simp), cleanFields_of fun u hu => h u (by simp [hu])⟩

omit [Env] in
theorem all2_mem_right {α β : Type} {R : α → β → Prop} : ∀ {as : List α} {bs : List β}, All2 R as bs → ∀ b ∈ bs, ∃ a, R a b
  | [], [], _, _, hb => by cases hb
  | a :: as, b :: bs, h, c, hc => by
    rcases List.mem_cons.mp hc with rfl | hc
    · exact ⟨a, h.1⟩
    · exact all2_mem_right h.2 c hc
  | [], _ :: _, h, _, _ => h.elim
  | _ :: _, [], h, _, _ => h.elim

/-- Typed data is clean. -/
theorem HasTy.clean (D : Nat → Ty) : ∀ (n : Nat) (T : Ty) (v : SVal), HasTy D n T v → v.Clean .structs false
  | 0, _, _, h => h.elim
  | n + 1, T, v, h => by
    cases T <;> simp only [HasTy] at h
    case bool => obtain ⟨b, rfl⟩ := h; simp [SVal.Clean]
    case int => obtain ⟨i, rfl, h1, h2⟩ := h; simp only [SVal.Clean, Number.WF]; exact ⟨h1, h2⟩
    case f32 => obtain ⟨i, rfl, -⟩ := h; simp [SVal.Clean, Number.WF]
    case f64 => obtain ⟨i, rfl, -⟩ := h; simp [SVal.Clean, Number.WF]
    case char => obtain ⟨i, rfl⟩ := h; simp [SVal.Clean]
    case str => obtain ⟨i, rfl⟩ := h; simp [SVal.Clean]
    case bytes => obtain ⟨i, rfl⟩ := h; simp [SVal.Clean]
    case unit => subst h; simp [SVal.Clean]
    case unitStruct => subst h; simp [SVal.Clean]
    case newtype => obtain ⟨u, rfl, h⟩ := h; simp only [SVal.Clean]; exact HasTy.clean D n _ u h
    case option =>
      rcases h with rfl | ⟨u, rfl, h⟩
      · simp [SVal.Clean]
      · simp only [SVal.Clean]; exact HasTy.clean D n _ u h
    case seq => obtain ⟨vs, rfl, h⟩ := h; simp only [SVal.Clean]; exact cleanAll_of fun v hv => HasTy.clean D n _ v (h v hv)
    case tuple =>
      obtain ⟨vs, rfl, h⟩ := h; simp only [SVal.Clean]
      exact cleanAll_of fun v hv => (all2_mem_right h v hv).elim fun T h => HasTy.clean D n T v h
    case tupleStruct =>
      obtain ⟨vs, rfl, h⟩ := h; simp only [SVal.Clean]
      exact cleanAll_of fun v hv => (all2_mem_right h v hv).elim fun T h => HasTy.clean D n T v h
    case map =>
      obtain ⟨kvs, rfl, h⟩ := h; simp only [SVal.Clean]
      exact cleanEntries_of fun e he => ⟨HasTy.clean D n _ _ (h e he).1, HasTy.clean D n _ _ (h e he).2⟩
    case struct =>
      obtain ⟨fs, rfl, -, h⟩ := h; simp only [SVal.Clean]
      exact ⟨by simp, cleanFields_of fun e he => (all2_mem_right h e he).elim fun F h => HasTy.clean D n F.2 e.2 h.2⟩
    case enum =>
      obtain ⟨id, k, -, -, h⟩ := h
      cases k <;> simp only at h
      · subst h; simp [SVal.Clean]
      · obtain ⟨u, rfl, h⟩ := h; simp only [SVal.Clean]; exact ⟨by simp, HasTy.clean D n _ u h⟩
      · obtain ⟨vs, rfl, h⟩ := h; simp only [SVal.Clean]
        exact cleanAll_of fun v hv => (all2_mem_right h v hv).elim fun T h => HasTy.clean D n T v h
      · obtain ⟨fs, rfl, -, h⟩ := h; simp only [SVal.Clean]
        exact cleanFields_of fun e he => (all2_mem_right h e he).elim fun F h => HasTy.clean D n F.2 e.2 h.2
    case ref => exact HasTy.clean D n _ v h

mutual
/-- Fewer modes ask for less. -/
theorem SVal.Clean.mono {rg rg' : Ranges} {wx wx' : Bool} (h1 : rg' = .structs ∨ rg' = rg ∨ rg = .compactStrict) (h2 : wx' = true → wx = true) :
    ∀ {v : SVal}, v.Clean rg wx → v.Clean rg' wx'
  | .some v, h => by simp only [SVal.Clean] at h ⊢; exact h.mono h1 h2
  | .newtypeStruct _ v, h => by simp only [SVal.Clean] at h ⊢; exact h.mono h1 h2
  | .newtypeVariant _ _ v, h => by simp only [SVal.Clean] at h ⊢; exact ⟨fun hx => h.1 (h2 hx), h.2.mono h1 h2⟩
  | .seq _ vs, h => by simp only [SVal.Clean] at h ⊢; exact cleanAll_mono h1 h2 h
  | .tuple vs, h => by simp only [SVal.Clean] at h ⊢; exact cleanAll_mono h1 h2 h
  | .tupleStruct _ vs, h => by simp only [SVal.Clean] at h ⊢; exact cleanAll_mono h1 h2 h
  | .tupleVariant _ _ vs, h => by simp only [SVal.Clean] at h ⊢; exact cleanAll_mono h1 h2 h
  | .map _ kvs, h => by simp only [SVal.Clean] at h ⊢; exact cleanEntries_mono h1 h2 h
  | .struct _ fs, h => by
    simp only [SVal.Clean] at h ⊢
    refine ⟨fun hx => ?_, cleanFields_mono h1 h2 h.2⟩
    rcases h1 with h1 | rfl | rfl
    · exact absurd h1 hx
    · exact h.1 hx
    · rcases h.1 (by simp) with h | h | ⟨h, _⟩
      · exact .inl h
      · exact .inr (.inl h)
      · cases h
  | .structVariant _ _ fs, h => by simp only [SVal.Clean] at h ⊢; exact cleanFields_mono h1 h2 h
  | .num _, h => by simp only [SVal.Clean] at h ⊢; exact h
  | .raw _, h => by simp [SVal.Clean] at h
  | .bool _, _ => by simp [SVal.Clean]
  | .char _, _ => by simp [SVal.Clean]
  | .str _, _ => by simp [SVal.Clean]
  | .bytes _, _ => by simp [SVal.Clean]
  | .none, _ => by simp [SVal.Clean]
  | .unitStruct _, _ => by simp [SVal.Clean]
  | .unit, _ => by simp [SVal.Clean]
  | .unitVariant _ _, _ => by simp [SVal.Clean]
theorem cleanAll_mono {rg rg' : Ranges} {wx wx' : Bool} (h1 : rg' = .structs ∨ rg' = rg ∨ rg = .compactStrict) (h2 : wx' = true → wx = true) :
    ∀ {vs : List SVal}, CleanAll rg wx vs → CleanAll rg' wx' vs
  | [], _ => by simp [CleanAll]
  | _ :: _, h => by simp only [CleanAll] at h ⊢; exact ⟨h.1.mono h1 h2, cleanAll_mono h1 h2 h.2⟩
theorem cleanEntries_mono {rg rg' : Ranges} {wx wx' : Bool} (h1 : rg' = .structs ∨ rg' = rg ∨ rg = .compactStrict) (h2 : wx' = true → wx = true) :
    ∀ {kvs : List (SVal × SVal)}, CleanEntries rg wx kvs → CleanEntries rg' wx' kvs
  | [], _ => by simp [CleanEntries]
  | (_, _) :: _, h => by
    simp only [CleanEntries] at h ⊢; exact ⟨⟨h.1.1.mono h1 h2, h.1.2.mono h1 h2⟩, cleanEntries_mono h1 h2 h.2⟩
theorem cleanFields_mono {rg rg' : Ranges} {wx wx' : Bool} (h1 : rg' = .structs ∨ rg' = rg ∨ rg = .compactStrict) (h2 : wx' = true → wx = true) :
    ∀ {fs : List (Text × SVal)}, CleanFields rg wx fs → CleanFields rg' wx' fs
  | [], _ => by simp [CleanFields]
  | (_, _) :: _, h => by simp only [CleanFields] at h ⊢; exact ⟨h.1.mono h1 h2, cleanFields_mono h1 h2 h.2⟩
end

/-- A document of typed data gives back the data. -/
theorem typed_reads {o : Options} {cfg : Option PrettyConfig} {D : Nat → Ty} {n f : Nat} {T : Ty} {v : SVal} {t : Text}
    (hT : HasTy D n T v) (hf : n ≤ f) (hv : v.Clean (rgOf o cfg) (wxOf o cfg))
    (hk : ∀ m, o.recursionLimit = some m → v.cost ≤ m) (h : toText o cfg v = .ok t) :
    ∀ l l', Layout l → Layout l' → fromStr o (deTy D f T) (l ++ (t ++ l')) = .ok v := by
  intro l l' hl hl'
  obtain ⟨hdr, w, e, rfl, h1, h2, h3⟩ := toText_rend hv h
  rw [List.append_assoc]
  exact doc_reads ((ty_reads D n f T v hf hT).1 w h3) hl h1 h2 hk hl'

mutual
/-- Writing takes no more budget than reading. -/
theorem nesting_le_cost : ∀ v : SVal, v.Clean .structs false → v.nesting ≤ v.cost
  | .some v, h => by
    have := nesting_le_cost v (by simpa [SVal.Clean] using h)
    simp only [SVal.nesting, SVal.cost]; omega
  | .newtypeStruct _ v, h => by
    have := nesting_le_cost v (by simpa [SVal.Clean] using h)
    simp only [SVal.nesting, SVal.cost]; omega
  | .newtypeVariant _ _ v, h => by
    have := nesting_le_cost v (by simpa [SVal.Clean] using h)
    simp only [SVal.nesting, SVal.cost]; omega
  | .seq _ vs, h => by
    have := nestingAll_le_cost vs (by simpa [SVal.Clean] using h)
    simp only [SVal.nesting, SVal.cost]; omega
  | .tuple vs, h => by
    have := nestingAll_le_cost vs (by simpa [SVal.Clean] using h)
    simp only [SVal.nesting, SVal.cost]; omega
  | .tupleStruct _ vs, h => by
    have := nestingAll_le_cost vs (by simpa [SVal.Clean] using h)
    simp only [SVal.nesting, SVal.cost]; omega
  | .tupleVariant _ _ vs, h => by
    have := nestingAll_le_cost vs (by simpa [SVal.Clean] using h)
    simp only [SVal.nesting, SVal.cost]; omega
  | .map _ kvs, h => by
    have := nestingEntries_le_cost kvs (by simpa [SVal.Clean] using h)
    simp only [SVal.nesting, SVal.cost]; omega
  | .struct _ fs, h => by
    have := nestingFields_le_cost fs (by simpa [SVal.Clean] using h)
    simp only [SVal.nesting, SVal.cost]; omega
  | .structVariant _ _ fs, h => by
    have := nestingFields_le_cost fs (by simpa [SVal.Clean] using h)
    simp only [SVal.nesting, SVal.cost]; omega
  | .raw _, h => by simp [SVal.Clean] at h
  | .bool _, _ => by simp [SVal.nesting]
  | .num _, _ => by simp [SVal.nesting]
  | .char _, _ => by simp [SVal.nesting]
  | .str _, _ => by simp [SVal.nesting]
  | .bytes _, _ => by simp [SVal.nesting]
  | .none, _ => by simp [SVal.nesting]
  | .unit, _ => by simp [SVal.nesting]
  | .unitStruct _, _ => by simp [SVal.nesting]
  | .unitVariant _ _, _ => by simp [SVal.nesting]
theorem nestingAll_le_cost : ∀ vs : List SVal, CleanAll .structs false vs → nestingAll vs ≤ costAll vs
  | [], _ => by simp [nestingAll]
  | v :: vs, h => by
    simp only [CleanAll] at h
    have h1 := nesting_le_cost v h.1
    have h2 := nestingAll_le_cost vs h.2
    simp only [nestingAll, costAll]; omega
theorem nestingEntries_le_cost : ∀ kvs : List (SVal × SVal), CleanEntries .structs false kvs → nestingEntries kvs ≤ costEntries kvs
  | [], _ => by simp [nestingEntries]
  | (k, v) :: kvs, h => by
    simp only [CleanEntries] at h
    have h1 := nesting_le_cost k h.1.1
    have h1' := nesting_le_cost v h.1.2
    have h2 := nestingEntries_le_cost kvs h.2
    simp only [nestingEntries, costEntries]; omega
theorem nestingFields_le_cost : ∀ fs : List (Text × SVal), CleanFields .structs false fs → nestingFields fs ≤ costFields fs
  | [], _ => by simp [nestingFields]
  | (_, v) :: fs, h => by
    simp only [CleanFields] at h
    have h1 := nesting_le_cost v h.1
    have h2 := nestingFields_le_cost fs h.2
    simp only [nestingFields, costFields]; omega
end

end Ron
