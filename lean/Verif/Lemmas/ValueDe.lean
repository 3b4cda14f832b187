import Verif.Spec.Takes
import Verif.Lemmas.ValueRt
/-!
# Lemmas on `Value` as a deserializer
-/

namespace Ron

theorem runSeq_takes {α : Type} : ∀ (p : SeqProg α) (vs : List Value), ∃ r n, Takes p vs r n ∧ n ≤ vs.length ∧
    runSeq p vs.reverse = r.map fun a => (a, (vs.drop n).reverse)
  | .done a, vs => ⟨.ok a, 0, .done, by omega, rfl⟩
  | .err e, vs => ⟨.error e, 0, .err, by omega, rfl⟩
  | .next seed k, [] => by
    obtain ⟨r, n, h1, h2, h3⟩ := runSeq_takes (k none) []
    refine ⟨r, n, .stop h1, h2, ?_⟩
    simpa only [runSeq, List.reverse_nil, List.getLast?_nil] using h3
  | .next seed k, v :: vs => by
    cases hv : seed v with
    | error e =>
      refine ⟨.error e, 1, .fail hv, by simp, ?_⟩
      simp only [runSeq, List.reverse_cons, List.getLast?_append, List.getLast?_singleton, Option.some_or, hv]
      rfl
    | ok b =>
      obtain ⟨r, n, h1, h2, h3⟩ := runSeq_takes (k (some b)) vs
      refine ⟨r, n + 1, .step hv h1, by simpa using h2, ?_⟩
      simp only [runSeq, List.reverse_cons, List.getLast?_append, List.getLast?_singleton, Option.some_or, hv,
        List.dropLast_concat, List.drop_succ_cons, ← h3]
      rfl

theorem Takes.unique {α : Type} {p : SeqProg α} {vs : List Value} {r r' : Except Err α} {n n' : Nat} (h : Takes p vs r n) :
    Takes p vs r' n' → r = r' ∧ n = n' := by
  induction h generalizing r' n' with
  | done => intro h; cases h; exact ⟨rfl, rfl⟩
  | err => intro h; cases h; exact ⟨rfl, rfl⟩
  | stop _ ih => intro h; cases h with | stop h => exact ih h
  | fail hv =>
    intro h
    cases h with
    | fail hv' => rw [hv] at hv'; cases hv'; exact ⟨rfl, rfl⟩
    | step hv' _ => rw [hv] at hv'; cases hv'
  | step hv _ ih =>
    intro h
    cases h with
    | fail hv' => rw [hv] at hv'; cases hv'
    | step hv' h =>
      rw [hv] at hv'
      cases hv'
      obtain ⟨rfl, rfl⟩ := ih h
      exact ⟨rfl, rfl⟩

theorem runMap_takes {α : Type} : ∀ (p : MapProg α) (w : Option Value) (es : List (Value × Value)),
    ∃ r n, TakesM p w es r n ∧ n ≤ es.length ∧ runMap p es.reverse w = r.map fun a => (a, (es.drop n).reverse)
  | .done a, w, es => ⟨.ok a, 0, .done, by omega, rfl⟩
  | .err e, w, es => ⟨.error e, 0, .err, by omega, rfl⟩
  | .key seed k, w, [] => by
    obtain ⟨r, n, h1, h2, h3⟩ := runMap_takes (k none) w []
    refine ⟨r, n, .stop h1, h2, ?_⟩
    simpa only [runMap, List.reverse_nil, List.getLast?_nil] using h3
  | .key seed k, w, (x, v) :: es => by
    cases hv : seed x with
    | error e =>
      refine ⟨.error e, 1, .keyFail hv, by simp, ?_⟩
      simp only [runMap, List.reverse_cons, List.getLast?_append, List.getLast?_singleton, Option.some_or, hv]
      rfl
    | ok b =>
      obtain ⟨r, n, h1, h2, h3⟩ := runMap_takes (k (some b)) (some v) es
      refine ⟨r, n + 1, .key hv h1, by simpa using h2, ?_⟩
      simp only [runMap, List.reverse_cons, List.getLast?_append, List.getLast?_singleton, Option.some_or, hv,
        List.dropLast_concat, List.drop_succ_cons, ← h3]
      rfl
  | .value seed k, none, es => ⟨.error .panic, 0, .noValue, by omega, rfl⟩
  | .value seed k, some v, es => by
    cases hv : seed v with
    | error e =>
      refine ⟨.error e, 0, .valueFail hv, by simp, ?_⟩
      simp only [runMap, hv]
      rfl
    | ok b =>
      obtain ⟨r, n, h1, h2, h3⟩ := runMap_takes (k b) none es
      refine ⟨r, n, .value hv h1, h2, ?_⟩
      simp only [runMap, hv, ← h3]
      rfl

theorem TakesM.unique {α : Type} {p : MapProg α} {w : Option Value} {es : List (Value × Value)} {r r' : Except Err α} {n n' : Nat}
    (h : TakesM p w es r n) : TakesM p w es r' n' → r = r' ∧ n = n' := by
  induction h generalizing r' n' with
  | done => intro h; cases h; exact ⟨rfl, rfl⟩
  | err => intro h; cases h; exact ⟨rfl, rfl⟩
  | stop _ ih => intro h; cases h with | stop h => exact ih h
  | keyFail hv =>
    intro h
    cases h with
    | keyFail hv' => rw [hv] at hv'; cases hv'; exact ⟨rfl, rfl⟩
    | key hv' _ => rw [hv] at hv'; cases hv'
  | key hv _ ih =>
    intro h
    cases h with
    | keyFail hv' => rw [hv] at hv'; cases hv'
    | key hv' h =>
      rw [hv] at hv'
      cases hv'
      obtain ⟨rfl, rfl⟩ := ih h
      exact ⟨rfl, rfl⟩
  | valueFail hv =>
    intro h
    cases h with
    | valueFail hv' => rw [hv] at hv'; cases hv'; exact ⟨rfl, rfl⟩
    | value hv' _ => rw [hv] at hv'; cases hv'
  | value hv _ ih =>
    intro h
    cases h with
    | valueFail hv' => rw [hv] at hv'; cases hv'
    | value hv' h =>
      rw [hv] at hv'
      cases hv'
      exact ih h
  | noValue => intro h; cases h; exact ⟨rfl, rfl⟩

/-- A sequence given to a visitor. -/
theorem visit_seq {α : Type} (vis : Visitor α) {vs : List Value} {r : Except Err α} {n : Nat}
    (h : Takes (vis.seq vs.length) vs r n) :
    n ≤ vs.length ∧ Value.visit vis (.seq vs) = r.bind fun a => if n = vs.length then .ok a
      else .error (.expectedDifferentLength (c!"a sequence of length " ++ natText n) vs.length) := by
  obtain ⟨r', n', h1, h2, h3⟩ := runSeq_takes (vis.seq vs.length) vs
  obtain ⟨rfl, rfl⟩ := h.unique h1
  refine ⟨h2, ?_⟩
  simp only [Value.visit, List.length_reverse, h3]
  cases r with
  | error e => rfl
  | ok a =>
    simp only [Except.map, bind, Except.bind, List.isEmpty_iff, List.reverse_eq_nil_iff, List.drop_eq_nil_iff, List.length_reverse, List.length_drop]
    by_cases hn : n = vs.length
    · rw [if_pos (by omega), if_pos hn]
    · rw [if_neg (by omega), if_neg hn, show vs.length - (vs.length - n) = n by omega]

/-- A map given to a visitor. -/
theorem visit_map {α : Type} (vis : Visitor α) {es : List (Value × Value)} {r : Except Err α} {n : Nat}
    (h : TakesM (vis.map es.length) none es r n) :
    n ≤ es.length ∧ Value.visit vis (.map es) = r.bind fun a => if n = es.length then .ok a
      else .error (.expectedDifferentLength (c!"a map of length " ++ natText n) es.length) := by
  obtain ⟨r', n', h1, h2, h3⟩ := runMap_takes (vis.map es.length) none es
  obtain ⟨rfl, rfl⟩ := h.unique h1
  refine ⟨h2, ?_⟩
  simp only [Value.visit, List.length_reverse, h3]
  cases r with
  | error e => rfl
  | ok a =>
    simp only [Except.map, bind, Except.bind, List.isEmpty_iff, List.reverse_eq_nil_iff, List.drop_eq_nil_iff, List.length_reverse, List.length_drop]
    by_cases hn : n = es.length
    · rw [if_pos (by omega), if_pos hn]
    · rw [if_neg (by omega), if_neg hn, show es.length - (es.length - n) = n by omega]

/-- Success of a program on a sequence. -/
theorem visit_seq_ok {α : Type} (vis : Visitor α) {vs : List Value} {a : α}
    (h : Takes (vis.seq vs.length) vs (.ok a) vs.length) : Value.visit vis (.seq vs) = .ok a := by
  rw [(visit_seq vis h).2]; simp [Except.bind]
theorem visit_map_ok {α : Type} (vis : Visitor α) {es : List (Value × Value)} {a : α}
    (h : TakesM (vis.map es.length) none es (.ok a) es.length) : Value.visit vis (.map es) = .ok a := by
  rw [(visit_map vis h).2]; simp [Except.bind]

/-- A loop over a sequence collects all its elements. -/
theorem collectSeq_takes {α β : Type} {seed : Value → Except Err β} {fin : List β → α} : ∀ (vs : List Value) (bs acc : List β) (n : Nat),
    All2 (fun v b => seed v = .ok b) vs bs → vs.length < n →
    Takes (collectSeq seed fin n acc) vs (.ok (fin (acc.reverse ++ bs))) vs.length
  | [], _ :: _, _, _, h, _ => h.elim
  | [], [], acc, n, h, hn => by
    obtain ⟨n, rfl⟩ : ∃ m, n = m + 1 := ⟨n - 1, by simp at hn; omega⟩
    simp only [collectSeq, List.append_nil, List.length_nil]
    exact .stop .done
  | v :: vs, [], _, _, h, _ => h.elim
  | v :: vs, b :: bs, acc, n, h, hn => by
    obtain ⟨h1, h2⟩ := h
    obtain ⟨n, rfl⟩ : ∃ m, n = m + 1 := ⟨n - 1, by simp at hn; omega⟩
    simp only [collectSeq, List.length_cons]
    refine .step h1 ?_
    have := collectSeq_takes (fin := fin) vs bs (b :: acc) n h2 (by simp at hn; omega)
    simpa only [List.reverse_cons, List.append_assoc, List.singleton_append] using this

/-- A loop over a map inserts all its entries. -/
theorem collectMap_takes {α β γ σ : Type} {key : Value → Except Err β} {val : Value → Except Err γ} {ins : σ → β → γ → σ} {fin : σ → α} :
    ∀ (es : List (Value × Value)) (bs : List (β × γ)) (acc : σ) (n : Nat) (w : Option Value),
    All2 (fun e b => key e.1 = .ok b.1 ∧ val e.2 = .ok b.2) es bs → es.length < n →
    TakesM (collectMap key val ins fin n acc) w es (.ok (fin (bs.foldl (fun a b => ins a b.1 b.2) acc))) es.length
  | [], _ :: _, _, _, _, h, _ => h.elim
  | [], [], acc, n, w, h, hn => by
    obtain ⟨n, rfl⟩ : ∃ m, n = m + 1 := ⟨n - 1, by simp at hn; omega⟩
    simp only [collectMap, List.foldl_nil, List.length_nil]
    exact .stop .done
  | e :: es, [], _, _, _, h, _ => h.elim
  | e :: es, b :: bs, acc, n, w, h, hn => by
    obtain ⟨h1, h2⟩ := h
    obtain ⟨n, rfl⟩ : ∃ m, n = m + 1 := ⟨n - 1, by simp at hn; omega⟩
    simp only [collectMap, List.length_cons, List.foldl_cons]
    refine .key h1.1 ?_
    refine .value h1.2 ?_
    exact collectMap_takes es bs _ n _ h2 (by simp at hn; omega)

variable [Env]

mutual
theorem value_identity {p : Number → Prop} : ∀ (V : Value) (f : Nat), V.Holds p → V.height ≤ f → V.visit (valueVisitor f) = .ok V
  | .bool b, f, _, hf => by
    obtain ⟨f, rfl⟩ : ∃ m, f = m + 1 := ⟨f - 1, by simp [Value.height] at hf; omega⟩
    rfl
  | .char b, f, _, hf => by
    obtain ⟨f, rfl⟩ : ∃ m, f = m + 1 := ⟨f - 1, by simp [Value.height] at hf; omega⟩
    rfl
  | .num b, f, _, hf => by
    obtain ⟨f, rfl⟩ : ∃ m, f = m + 1 := ⟨f - 1, by simp [Value.height] at hf; omega⟩
    rfl
  | .none, f, _, hf => by
    obtain ⟨f, rfl⟩ : ∃ m, f = m + 1 := ⟨f - 1, by simp [Value.height] at hf; omega⟩
    rfl
  | .str b, f, _, hf => by
    obtain ⟨f, rfl⟩ : ∃ m, f = m + 1 := ⟨f - 1, by simp [Value.height] at hf; omega⟩
    rfl
  | .bytes b, f, _, hf => by
    obtain ⟨f, rfl⟩ : ∃ m, f = m + 1 := ⟨f - 1, by simp [Value.height] at hf; omega⟩
    rfl
  | .unit, f, _, hf => by
    obtain ⟨f, rfl⟩ : ∃ m, f = m + 1 := ⟨f - 1, by simp [Value.height] at hf; omega⟩
    rfl
  | .some V, f, hV, hf => by
    obtain ⟨f, rfl⟩ : ∃ m, f = m + 1 := ⟨f - 1, by simp [Value.height] at hf; omega⟩
    have := value_identity V f (by simpa [Value.Holds] using hV) (by simp only [Value.height] at hf; omega)
    show (V.visit (valueVisitor f)).map Value.some = _
    rw [this]; rfl
  | .seq vs, f, hV, hf => by
    obtain ⟨f, rfl⟩ : ∃ m, f = m + 1 := ⟨f - 1, by simp [Value.height] at hf; omega⟩
    have := values_identity vs f (by simpa [Value.Holds] using hV) (by simp only [Value.height] at hf; omega)
    refine visit_seq_ok _ ?_
    have h2 := collectSeq_takes (fin := Value.seq) vs vs [] (vs.length + 1) this (by omega)
    simpa only [valueVisitor, List.reverse_nil, List.nil_append] using h2
  | .map m, f, hV, hf => by
    obtain ⟨f, rfl⟩ : ∃ m, f = m + 1 := ⟨f - 1, by simp [Value.height] at hf; omega⟩
    simp only [Value.Holds] at hV
    have := entries_identity m f hV.2 (by simp only [Value.height] at hf; omega)
    refine visit_map_ok _ ?_
    have h2 := collectMap_takes (ins := fun m k v => (mapInsert m k v).2) (fin := Value.map) m m [] (m.length + 1) Option.none this
      (by omega)
    have h3 : m.foldl (fun a b => (mapInsert a b.1 b.2).2) [] = m := mapOfList_inv hV.1
    rw [h3] at h2
    simpa only [valueVisitor] using h2
theorem values_identity {p : Number → Prop} : ∀ (vs : List Value) (f : Nat), HoldsAll p vs → heightAll vs ≤ f →
    All2 (fun v b => v.visit (valueVisitor f) = .ok b) vs vs
  | [], _, _, _ => trivial
  | v :: vs, f, hV, hf => by
    simp only [heightAll] at hf
    simp only [HoldsAll] at hV
    exact ⟨value_identity v f hV.1 (by omega), values_identity vs f hV.2 (by omega)⟩
theorem entries_identity {p : Number → Prop} : ∀ (m : List (Value × Value)) (f : Nat), HoldsEntries p m → heightEntries m ≤ f →
    All2 (fun (e b : Value × Value) => e.1.visit (valueVisitor f) = .ok b.1 ∧ e.2.visit (valueVisitor f) = .ok b.2) m m
  | [], _, _, _ => trivial
  | (k, v) :: m, f, hV, hf => by
    simp only [heightEntries] at hf
    simp only [HoldsEntries] at hV
    exact ⟨⟨value_identity k f hV.1.1 (by omega), value_identity v f hV.1.2 (by omega)⟩, entries_identity m f hV.2 (by omega)⟩
end

end Ron
