import Verif.Lemmas.Through
import Verif.Lemmas.TyCompound
import Verif.Lemmas.Typed
import Verif.Spec.Fields
/-! Structs from maps: which entries make which struct. -/

set_option linter.unusedSectionVars false

namespace Ron

variable [Env]

/-- What an entry of a map contributes to a struct: nothing, or a field. -/
def Gives1 (rec : Ty → Value → Except Err SVal) (deny : Bool) (fields : List (Text × Ty)) (e : Value × Value) : Option (Text × SVal) → Prop
  | none => fieldOfKey deny (fields.map Prod.fst) e.1 = .ok none
  | some (k, v) => fieldOfKey deny (fields.map Prod.fst) e.1 = .ok (some k) ∧ ∃ t, fields.find? (fun x => x.1 = k) = some (k, t) ∧ rec t e.2 = .ok v

theorem find_name {fields : List (Text × Ty)} {k n : Text} {t : Ty} (h : fields.find? (fun x => x.1 = k) = some (n, t)) : n = k := by
  simpa using List.find?_some h

theorem structProg_iff {α : Type} {rec : Ty → Value → Except Err SVal} {deny : Bool} {fields : List (Text × Ty)}
    {x : (Text → Option SVal) → Except Err α} {a : α} : ∀ (es : List (Value × Value)) (n : Nat) (got : Text → Option SVal) (w : Option Value),
    es.length < n →
    (TakesM (structProg rec deny fields (fun got => MapProg.ofExcept (x got)) n got) w es (.ok a) es.length ↔
      ∃ ds, All2 (Gives1 rec deny fields) es ds ∧ (keysOf ds).Nodup ∧ (∀ k ∈ keysOf ds, got k = none) ∧ x (gotOf ds got) = .ok a)
  | [], n, got, w, hn => by
    obtain ⟨n, rfl⟩ : ∃ m, n = m + 1 := ⟨n - 1, by simp at hn; omega⟩
    simp only [structProg]
    constructor
    · intro h
      cases h with
      | stop h =>
        refine ⟨[], trivial, by simp [keysOf], by simp [keysOf], ?_⟩
        simp only [gotOf, List.foldl_nil]
        cases hx : x got with
        | ok b => simp only [hx, MapProg.ofExcept] at h; cases h; rfl
        | error e => simp only [hx, MapProg.ofExcept] at h; cases h
    · rintro ⟨ds, h1, -, -, h4⟩
      cases ds with
      | cons => exact h1.elim
      | nil =>
        simp only [gotOf, List.foldl_nil] at h4
        refine .stop ?_
        simp only [h4, MapProg.ofExcept]
        exact .done
  | (k, v) :: es, n, got, w, hn => by
    obtain ⟨n, rfl⟩ : ∃ m, n = m + 1 := ⟨n - 1, by simp at hn; omega⟩
    have hn' : es.length < n := by simp at hn; omega
    simp only [structProg, List.length_cons]
    constructor
    · intro h
      cases h with
      | @key _ _ _ _ _ _ _ b _ _ hk h =>
      cases b with
      | none =>
        cases h with
        | value _ h =>
        obtain ⟨ds, h1, h2, h3, h4⟩ := (structProg_iff es n got none hn').mp h
        refine ⟨none :: ds, ⟨hk, h1⟩, by rwa [keysOf_none], by rwa [keysOf_none], h4⟩
      | some key =>
        simp only at h
        cases hg : got key with
        | some y => simp only [hg, Option.isSome_some, ↓reduceIte] at h; cases h
        | none =>
        simp only [hg, Option.isSome_none, Bool.false_eq_true, ↓reduceIte] at h
        cases hf : fields.find? (fun x => x.1 = key) with
        | none => simp only [hf] at h; cases h
        | some F =>
        obtain ⟨fn, t⟩ := F
        have := find_name hf
        subst this
        simp only [hf] at h
        cases h with
        | @value _ _ _ _ _ b _ _ hv h =>
        obtain ⟨ds, h1, h2, h3, h4⟩ := (structProg_iff es n (fun k => if k = fn then some b else got k) none hn').mp h
        have hnot : fn ∉ keysOf ds := fun hm => by have := h3 fn hm; simp at this
        refine ⟨some (fn, b) :: ds, ⟨⟨hk, t, hf, hv⟩, h1⟩, by rw [keysOf_some]; exact List.nodup_cons.mpr ⟨hnot, h2⟩, ?_, h4⟩
        rw [keysOf_some]
        intro k' hk'
        rcases List.mem_cons.mp hk' with rfl | hm
        · exact hg
        · have := h3 k' hm
          have hne : k' ≠ fn := by rintro rfl; exact hnot hm
          simpa [hne] using this
    · rintro ⟨ds, h1, h2, h3, h4⟩
      cases ds with
      | nil => exact h1.elim
      | cons d ds =>
      obtain ⟨hd, h1⟩ := h1
      cases d with
      | none =>
        refine .key hd ?_
        simp only
        refine .value rfl ?_
        rw [keysOf_none] at h2 h3
        exact (structProg_iff es n got none hn').mpr ⟨ds, h1, h2, h3, h4⟩
      | some d =>
        obtain ⟨key, b⟩ := d
        obtain ⟨hk, t, hf, hv⟩ := hd
        rw [keysOf_some] at h2 h3
        obtain ⟨hnot, h2⟩ := List.nodup_cons.mp h2
        refine .key hk ?_
        simp only [h3 key (by simp), Option.isSome_none, Bool.false_eq_true, ↓reduceIte, hf]
        refine .value hv ?_
        refine (structProg_iff es n _ none hn').mpr ⟨ds, h1, h2, ?_, h4⟩
        intro k' hm
        have hne : k' ≠ key := by rintro rfl; exact hnot hm
        simp only [hne, ↓reduceIte]
        exact h3 k' (by simp [hm])

theorem collectFields_iff {isOption : Ty → Bool} {got : Text → Option SVal} : ∀ {fields : List (Text × Ty)} {fs : List (Text × SVal)},
    collectFields isOption got fields = .ok fs ↔
      All2 (fun F f => F.1 = f.1 ∧ (got F.1 = some f.2 ∨ (got F.1 = none ∧ isOption F.2 = true ∧ f.2 = .none))) fields fs := by
  intro fields fs
  refine ⟨fun h => ?_, collectFields_ok⟩
  induction fields generalizing fs with
  | nil => cases h; trivial
  | cons F fields ih =>
    obtain ⟨n, t⟩ := F
    unfold collectFields at h
    cases hg : got n with
    | some v =>
      simp only [hg] at h
      cases hc : collectFields isOption got fields with
      | error e => simp [hc, Except.map] at h
      | ok gs =>
        simp only [hc, Except.map] at h
        cases h
        exact ⟨⟨rfl, .inl hg⟩, ih hc⟩
    | none =>
      simp only [hg] at h
      by_cases ho : isOption t = true
      · simp only [ho, ↓reduceIte] at h
        cases hc : collectFields isOption got fields with
        | error e => simp [hc, Except.map] at h
        | ok gs =>
          simp only [hc, Except.map] at h
          cases h
          exact ⟨⟨rfl, .inr ⟨hg, ho, rfl⟩⟩, ih hc⟩
      · rw [if_neg ho] at h
        cases h

/-- What the identifier visitor makes of a key. -/
theorem fieldOfKey_some {deny : Bool} {fs : List Text} {k : Value} {n : Text} : fieldOfKey deny fs k = .ok (some n) ↔ Names fs k n := by
  constructor
  · intro h
    cases k with
    | str t =>
      simp only [fieldOfKey, fieldOfKey.named] at h
      split at h
      · rename_i hc
        cases h
        exact .str (List.contains_iff_mem.mp hc)
      · split at h <;> cases h
    | char c =>
      simp only [fieldOfKey, fieldOfKey.named] at h
      split at h
      · rename_i hc
        cases h
        exact .char (List.contains_iff_mem.mp hc)
      · split at h <;> cases h
    | bytes b =>
      simp only [fieldOfKey] at h
      cases hf : fs.find? (fun f => utf8EncAll f = b) with
      | none => simp only [hf] at h; split at h <;> cases h
      | some f =>
        simp only [hf] at h
        cases h
        have h1 := List.find?_some hf
        simp only [decide_eq_true_eq] at h1
        subst h1
        exact .bytes (List.mem_of_find?_eq_some hf)
    | num m =>
      cases m with
      | int t i =>
        simp only [fieldOfKey] at h
        split at h
        · cases h
        · rename_i hc
          cases hf : fs[i.toNat]? with
          | none => simp only [hf] at h; split at h <;> cases h
          | some f =>
            simp only [hf] at h
            cases h
            refine .pos ?_ ?_ hf
            · cases hs : t.signed with
              | false => rfl
              | true => exact absurd (.inl hs) hc
            · exact fun hb => hc (.inr hb)
      | f32 b => simp [fieldOfKey] at h
      | f64 b => simp [fieldOfKey] at h
    | _ => simp [fieldOfKey] at h
  · intro h
    cases h with
    | str h => simp only [fieldOfKey, fieldOfKey.named, List.contains_iff_mem.mpr h, ↓reduceIte]
    | char h => simp only [fieldOfKey, fieldOfKey.named, List.contains_iff_mem.mpr h, ↓reduceIte]
    | bytes h =>
      simp only [fieldOfKey]
      cases hf : fs.find? (fun f => utf8EncAll f = utf8EncAll n) with
      | none => exact absurd (List.find?_eq_none.mp hf n h) (by simp)
      | some f =>
        have h1 := List.find?_some hf
        simp only [decide_eq_true_eq] at h1
        have : f = n := Option.some.inj (by rw [← utf8Dec_encAll f, h1, utf8Dec_encAll])
        rw [this]
    | @pos t i _ h1 h2 h3 =>
      simp only [fieldOfKey]
      rw [if_neg (by rintro (h | h); · rw [h1] at h; cases h
                     · exact h2 h)]
      simp only [h3]

theorem names_isKey {fs : List Text} {k : Value} {n : Text} (h : Names fs k n) : IsKey k := by
  cases h with
  | str _ => exact .str
  | char _ => exact .char
  | bytes _ => exact .bytes
  | pos h1 h2 _ => exact .pos h1 h2

theorem names_mem {fs : List Text} {k : Value} {n : Text} (h : Names fs k n) : n ∈ fs := by
  cases h with
  | str h => exact h
  | char h => exact h
  | bytes h => exact h
  | pos _ _ h => exact List.mem_of_getElem? h

theorem names_unique {fs : List Text} {k : Value} {n n' : Text} (h : Names fs k n) (h' : Names fs k n') : n = n' := by
  have h1 := fieldOfKey_some (deny := false).mpr h
  rw [fieldOfKey_some.mpr h'] at h1
  cases h1
  rfl

theorem fieldOfKey_none {deny : Bool} {fs : List Text} {k : Value} :
    fieldOfKey deny fs k = .ok none ↔ deny = false ∧ IsKey k ∧ ∀ n, ¬ Names fs k n := by
  constructor
  · intro h
    refine ⟨?_, ?_, fun n hn => by rw [fieldOfKey_some.mpr hn] at h; cases h⟩
    · cases deny with
      | false => rfl
      | true =>
        exfalso
        cases k with
        | str t => simp only [fieldOfKey, fieldOfKey.named] at h; split at h <;> simp at h
        | char t => simp only [fieldOfKey, fieldOfKey.named] at h; split at h <;> simp at h
        | bytes b => simp only [fieldOfKey] at h; split at h <;> simp at h
        | num m =>
          cases m with
          | int t i =>
            simp only [fieldOfKey] at h
            split at h
            · simp at h
            · split at h <;> simp at h
          | f32 b => simp [fieldOfKey] at h
          | f64 b => simp [fieldOfKey] at h
        | _ => simp [fieldOfKey] at h
    · cases k with
      | str t => exact .str
      | char t => exact .char
      | bytes t => exact .bytes
      | num m =>
        cases m with
        | int t i =>
          simp only [fieldOfKey] at h
          split at h
          · cases h
          · rename_i hc
            refine .pos ?_ fun hb => hc (.inr hb)
            cases hs : t.signed with
            | false => rfl
            | true => exact absurd (.inl hs) hc
        | f32 b => simp [fieldOfKey] at h
        | f64 b => simp [fieldOfKey] at h
      | _ => simp [fieldOfKey] at h
  · rintro ⟨rfl, hk, hn⟩
    cases hk with
    | @str t =>
      simp only [fieldOfKey, fieldOfKey.named]
      rw [if_neg fun h => hn _ (.str (List.contains_iff_mem.mp h))]
      rfl
    | @char c =>
      simp only [fieldOfKey, fieldOfKey.named]
      rw [if_neg fun h => hn _ (.char (List.contains_iff_mem.mp h))]
      rfl
    | @bytes b =>
      simp only [fieldOfKey]
      cases hf : fs.find? (fun f => utf8EncAll f = b) with
      | none => rfl
      | some f =>
        exfalso
        have h1 := List.find?_some hf
        simp only [decide_eq_true_eq] at h1
        subst h1
        exact hn _ (.bytes (List.mem_of_find?_eq_some hf))
    | @pos t i h1 h2 =>
      simp only [fieldOfKey]
      rw [if_neg (by rintro (h | h); · rw [h1] at h; cases h
                     · exact h2 h)]
      cases hf : fs[i.toNat]? with
      | none => rfl
      | some f => exact absurd (.pos h1 h2 hf) (hn _)

/-- Fields that are given: the entries that give something, and what the fields are. -/
theorem gotOf_spec {rec : Ty → Value → Except Err SVal} {deny : Bool} {fields : List (Text × Ty)} {es : List (Value × Value)}
    {ds : List (Option (Text × SVal))} (h : All2 (Gives1 rec deny fields) es ds) (hn : (keysOf ds).Nodup) {F : Text × Ty}
    (hF : fields.find? (fun x => x.1 = F.1) = some F) (v : SVal) :
    (gotOf ds (fun _ => none) F.1 = some v ↔ ∃ e ∈ es, Names (fields.map Prod.fst) e.1 F.1 ∧ rec F.2 e.2 = .ok v) ∧
    (gotOf ds (fun _ => none) F.1 = none ↔ ∀ e ∈ es, ¬ Names (fields.map Prod.fst) e.1 F.1) := by
  have a1 : ∀ v, some (F.1, v) ∈ ds → ∃ e ∈ es, Names (fields.map Prod.fst) e.1 F.1 ∧ rec F.2 e.2 = .ok v := by
    intro v hm
    obtain ⟨e, he, h1, t, h2, h3⟩ := All2.mem_left (all2_swap h) _ hm
    rw [hF] at h2
    obtain rfl : F.2 = t := congrArg Prod.snd (Option.some.inj h2)
    exact ⟨e, he, fieldOfKey_some.mp h1, h3⟩
  have a2 : ∀ e ∈ es, Names (fields.map Prod.fst) e.1 F.1 → ∃ v, some (F.1, v) ∈ ds ∧ rec F.2 e.2 = .ok v := by
    intro e he hnm
    obtain ⟨d, hd, h1⟩ := All2.mem_left h e he
    have hk := fieldOfKey_some (deny := deny).mpr hnm
    cases d with
    | none => simp only [Gives1, hk] at h1; cases h1
    | some d =>
      obtain ⟨k, v⟩ := d
      obtain ⟨h1, t, h2, h3⟩ := h1
      rw [hk] at h1
      cases h1
      rw [hF] at h2
      obtain rfl : F.2 = t := congrArg Prod.snd (Option.some.inj h2)
      exact ⟨v, hd, h3⟩
  have a3 : ∀ v, some (F.1, v) ∈ ds → gotOf ds (fun _ => none) F.1 = some v := fun v hm => gotOf_mem _ _ _ _ hn hm
  have a4 : (∀ v, some (F.1, v) ∉ ds) → gotOf ds (fun _ => none) F.1 = none := by
    intro hno
    refine gotOf_not _ _ _ fun hk => ?_
    obtain ⟨e, he, hk⟩ := List.mem_map.mp hk
    obtain ⟨d, hd, hde⟩ := List.mem_filterMap.mp he
    simp only [id] at hde
    subst hde
    exact hno e.2 (by rw [← hk]; exact hd)
  constructor
  · constructor
    · intro hg
      by_cases hex : ∃ v', some (F.1, v') ∈ ds
      · obtain ⟨v', hv'⟩ := hex
        rw [a3 v' hv'] at hg
        cases hg
        exact a1 _ hv'
      · rw [a4 fun v' hv' => hex ⟨v', hv'⟩] at hg
        cases hg
    · rintro ⟨e, he, h1, h2⟩
      obtain ⟨v', hv', h3⟩ := a2 e he h1
      rw [h2] at h3
      cases h3
      exact a3 _ hv'
  · constructor
    · intro hg e he h1
      obtain ⟨v', hv', h3⟩ := a2 e he h1
      rw [a3 _ hv'] at hg
      cases hg
    · intro hno
      refine a4 fun v' hv' => ?_
      obtain ⟨e, he, h1, -⟩ := a1 v' hv'
      exact hno e he h1

/-- No two entries give the same field. -/
theorem keys_pairwise {rec : Ty → Value → Except Err SVal} {deny : Bool} {fields : List (Text × Ty)} : ∀ {es : List (Value × Value)}
    {ds : List (Option (Text × SVal))}, All2 (Gives1 rec deny fields) es ds →
    ((keysOf ds).Nodup ↔ es.Pairwise fun e e' => ∀ n, Names (fields.map Prod.fst) e.1 n → ¬ Names (fields.map Prod.fst) e'.1 n)
  | [], [], _ => by simp [keysOf]
  | e :: es, d :: ds, h => by
    obtain ⟨h1, h2⟩ := h
    have ih := keys_pairwise h2
    have hk : ∀ n, n ∈ keysOf ds ↔ ∃ e' ∈ es, Names (fields.map Prod.fst) e'.1 n := by
      intro n
      constructor
      · intro hm
        obtain ⟨x, hx, rfl⟩ := List.mem_map.mp hm
        obtain ⟨d, hd, hde⟩ := List.mem_filterMap.mp hx
        simp only [id] at hde
        subst hde
        obtain ⟨e', he', h3, -⟩ := All2.mem_left (all2_swap h2) _ hd
        exact ⟨e', he', fieldOfKey_some.mp h3⟩
      · rintro ⟨e', he', hn⟩
        obtain ⟨d, hd, h3⟩ := All2.mem_left h2 e' he'
        have hkk := fieldOfKey_some (deny := deny).mpr hn
        cases d with
        | none => simp only [Gives1, hkk] at h3; cases h3
        | some d =>
          obtain ⟨k, v⟩ := d
          obtain ⟨h3, -⟩ := h3
          rw [hkk] at h3
          cases h3
          exact List.mem_map.mpr ⟨(n, v), List.mem_filterMap.mpr ⟨_, hd, rfl⟩, rfl⟩
    rw [List.pairwise_cons]
    cases d with
    | none =>
      have hno := (fieldOfKey_none.mp h1).2.2
      rw [keysOf_none, ih]
      exact ⟨fun h => ⟨fun e' _ n hn => absurd hn (hno n), h⟩, fun h => h.2⟩
    | some d =>
      obtain ⟨k, v⟩ := d
      have hkn := fieldOfKey_some.mp h1.1
      rw [keysOf_some, List.nodup_cons, ih, hk]
      constructor
      · rintro ⟨g1, g2⟩
        refine ⟨fun e' he' n hn hn' => g1 ⟨e', he', ?_⟩, g2⟩
        rw [names_unique hkn hn]
        exact hn'
      · rintro ⟨g1, g2⟩
        exact ⟨fun ⟨e', he', hn'⟩ => g1 e' he' k hkn hn', g2⟩
  | [], _ :: _, h => h.elim
  | _ :: _, [], h => h.elim

/-- Entries that give something, from what is known of each. -/
theorem gives_all {rec : Ty → Value → Except Err SVal} {deny : Bool} {fields : List (Text × Ty)} (hn : (fields.map Prod.fst).Nodup) :
    ∀ {es : List (Value × Value)},
    (∀ e ∈ es, IsKey e.1 ∧ (deny = true → ∃ n, Names (fields.map Prod.fst) e.1 n)) →
    (∀ e ∈ es, ∀ F ∈ fields, Names (fields.map Prod.fst) e.1 F.1 → ∃ v, rec F.2 e.2 = .ok v) →
    ∃ ds, All2 (Gives1 rec deny fields) es ds
  | [], _, _ => ⟨[], trivial⟩
  | e :: es, h1, h2 => by
    obtain ⟨ds, hds⟩ := gives_all (rec := rec) hn (es := es) (fun e he => h1 e (by simp [he])) (fun e he => h2 e (by simp [he]))
    obtain ⟨g1, g2⟩ := h1 e (by simp)
    by_cases hex : ∃ n, Names (fields.map Prod.fst) e.1 n
    · obtain ⟨n, hnm⟩ := hex
      obtain ⟨F, hF, rfl⟩ := List.mem_map.mp (names_mem hnm)
      obtain ⟨v, hv⟩ := h2 e (by simp) F hF hnm
      exact ⟨some (F.1, v) :: ds, ⟨fieldOfKey_some.mpr hnm, F.2, find_field hn hF, hv⟩, hds⟩
    · refine ⟨none :: ds, fieldOfKey_none.mpr ⟨?_, g1, fun n h => hex ⟨n, h⟩⟩, hds⟩
      cases deny with
      | false => rfl
      | true => exact absurd (g2 rfl) hex

end Ron
