import Verif.Model.ContentDe
/-! Buffered data that name a field more than once. -/

set_option linter.unusedSectionVars false
set_option linter.unusedVariables false

namespace Ron

variable [Env]

/-- The entry names the field. -/
def NamesField (key : Text) (e : Content × Content) : Bool := match e.1 with
  | .str t => decide (t = key)
  | _ => false

/-- Once a field has been taken, no further entry may name it. -/
theorem contentFields_taken {rec : Ty → Content → Except Err SVal} {deny : Bool} {fields : List (Text × Ty)} {key : Text}
    (hk : key ∈ fields.map Prod.fst) : ∀ (es : List (Content × Content)) (got got' : Text → Option SVal),
    contentFields rec deny fields es got = .ok got' →
    es.countP (NamesField key) + (if (got key).isSome then 1 else 0) ≤ 1
  | [], got, got', _ => by simp; split <;> omega
  | (k, c) :: es, got, got', h => by
    rw [contentFields] at h
    have hfield : k = .str key → contentField deny (fields.map Prod.fst) k = .ok (some key) := by
      rintro rfl
      have hc : (fields.map Prod.fst).contains key = true := by rw [List.contains_iff_mem]; exact hk
      simp only [contentField, fieldOfKey, fieldOfKey.named, hc, ↓reduceIte]
    have hname : NamesField key (k, c) = true → k = .str key := by cases k <;> simp [NamesField]
    rw [List.countP_cons]
    cases hf : contentField deny (fields.map Prod.fst) k with
    | error e => rw [hf] at h; cases h
    | ok o =>
      rw [hf] at h
      have hne : o ≠ some key → ¬ NamesField key (k, c) = true := fun hn e => hn (by
        have := hfield (hname e)
        rw [hf] at this
        cases this
        rfl)
      cases o with
      | none =>
        have := contentFields_taken hk es got got' h
        rw [if_neg (hne (by simp))]
        omega
      | some key' =>
        simp only [bind, Except.bind] at h
        split at h
        · cases h
        next hg =>
        cases hfi : fields.find? (fun e => e.1 = key') with
        | none => rw [hfi] at h; cases h
        | some ft =>
          rw [hfi] at h
          simp only at h
          cases hr : rec ft.2 c with
          | error e => rw [hr] at h; cases h
          | ok v =>
            rw [hr] at h
            have := contentFields_taken hk es _ got' h
            by_cases hkk : key' = key
            · subst hkk
              simp only [↓reduceIte, Option.isSome_some] at this
              rw [if_neg hg]
              split <;> omega
            · rw [if_neg (hne (by simpa using hkk))]
              rw [if_neg (Ne.symm hkk)] at this
              exact this

/-- A field that has been read is named by an entry. -/
theorem contentFields_named {rec : Ty → Content → Except Err SVal} {deny : Bool} {fields : List (Text × Ty)} {key : Text} :
    ∀ (es : List (Text × Content)) (got got' : Text → Option SVal),
    contentFields rec deny fields (es.map fun e => (.str e.1, e.2)) got = .ok got' → (got' key).isSome → (got key).isSome ∨ key ∈ es.map Prod.fst
  | [], got, got', h, hk => by cases h; exact .inl hk
  | (k, c) :: es, got, got', h, hk => by
    rw [List.map_cons, contentFields] at h
    cases hf : contentField deny (fields.map Prod.fst) (.str k) with
    | error e => rw [hf] at h; cases h
    | ok o =>
      rw [hf] at h
      cases o with
      | none => exact (contentFields_named es got got' h hk).imp id fun h => by simp only [List.map_cons, List.mem_cons]; exact .inr h
      | some key' =>
        have hkk : key' = k := by
          simp only [contentField, fieldOfKey, fieldOfKey.named] at hf
          split at hf
          · cases hf; rfl
          · split at hf <;> cases hf
        subst hkk
        simp only [bind, Except.bind] at h
        split at h
        · cases h
        cases hfi : fields.find? (fun e => e.1 = key') with
        | none => rw [hfi] at h; cases h
        | some ft =>
          rw [hfi] at h
          simp only at h
          cases hr : rec ft.2 c with
          | error e => rw [hr] at h; cases h
          | ok v =>
            rw [hr] at h
            rcases contentFields_named es _ got' h hk with h | h
            · by_cases e : key = key'
              · exact .inr (by simp [e])
              · rw [if_neg e] at h; exact .inl h
            · exact .inr (by simp only [List.map_cons, List.mem_cons]; exact .inr h)

end Ron
