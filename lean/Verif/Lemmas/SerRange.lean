import Verif.Lemmas.SerStep
import Verif.Spec.Clean
/-! Serialization of ranges: the compact notation, and the way back to a struct. -/

set_option linter.unusedSimpArgs false

namespace Ron

theorem rangeKindOf_one {name : Text} {kind : RangeKind} {n : Nat} (h : rangeKindOf name n = some kind) :
    (n = 2 ∧ (kind = .range ∧ name = c!"Range" ∨ kind = .rangeInclusive ∧ name = c!"RangeInclusive")) ∨
    (n = 1 ∧ (kind = .rangeFrom ∧ name = c!"RangeFrom" ∨ kind = .rangeTo ∧ name = c!"RangeTo" ∨
      kind = .rangeToInclusive ∧ name = c!"RangeToInclusive")) := by
  unfold rangeKindOf at h
  repeat' split at h
  all_goals simp_all

theorem wbind_assoc {α β γ : Type} (f : W α) (g : α → W β) (h : β → W γ) :
    ((f >>= g) >>= h) = (f >>= fun a => g a >>= h) := by
  funext s
  simp only [wbind_apply]
  cases f s <;> rfl
theorem wpure_bind {α β : Type} (a : α) (g : α → W β) : ((pure a : W α) >>= g) = g a := rfl

theorem asNumber_inv {v : SVal} {n : Number} (h : v.asNumber = some n) : v = .num n := by
  cases v <;> simp [SVal.asNumber] at h
  subst h; rfl

theorem numericRange_kind {name : Text} {fs : List (Text × SVal)} (h : numericRange name fs = true) :
    ∃ kind, rangeKindOf name fs.length = some kind := by
  unfold numericRange at h
  split at h
  · simp at h
    rcases h with ⟨-, rfl⟩ | ⟨-, rfl | rfl⟩ <;> exact ⟨_, rfl⟩
  · simp at h
    rcases h with ⟨-, rfl | rfl⟩ <;> exact ⟨_, rfl⟩
  · cases h


/-! ### Falling back to a struct -/

variable [Env]

/-- A field without the bookkeeping. -/
def fieldCore (rest : Bool) (k : Text) (v : W Unit) : W Unit := fieldPlain { rest := rest } k v >>= fun _ => pure ()

theorem fieldPlain_core (c : Comp) (k : Text) (v : W Unit) :
    fieldPlain c k v = fieldCore c.rest k v >>= fun _ => pure { c with rest := true } := by
  unfold fieldCore fieldPlain
  simp only [ite_seq, wbind_assoc, wpure_bind]

/-- The fields of a struct that was to be a range are those of any struct. -/
theorem serFields_full {c : Comp} {r : RangeC} (hc : c.range = some r) (hr : r.fallback = true) (fs : List (Text × SVal)) :
    (serFields c fs >>= structEnd) = (serFields { c with range := none } fs >>= structEnd) := by
  induction fs generalizing c with
  | nil => simp only [serFields, wpure_bind, structEnd, hc, hr, ↓reduceIte]
  | cons f fs ih =>
    obtain ⟨k, v⟩ := f
    have h1 : structField c k v.asNumber (ser v) = fieldPlain c k (ser v) := by simp [structField, hc, hr]
    have h2 : structField { c with range := none } k v.asNumber (ser v) = fieldPlain { c with range := none } k (ser v) := rfl
    rw [serFields, serFields, h1, h2]
    simp only [wbind_assoc, fieldPlain_core, wpure_bind]
    have := ih (c := { c with rest := true }) hc
    simp only at this
    rw [this]

theorem rangeFallback_struct (c : Comp) (r : RangeC) (n : Nat) (hn : (n == 0) = false) (f : Comp → W Unit) :
    (rangeFallback c r >>= f) = (write c!"(" >>= fun _ => structIndent n >>= fun _ =>
      replayField { c with range := some { r with first := none, second := none, fallback := true } } r.first >>= fun c =>
      replayField c r.second >>= f) := by
  unfold rangeFallback structIndent
  simp only [ite_seq3, wbind_assoc, wpure_bind, hn]

/-- A range that is not written compactly is written like a struct without name. -/
theorem range_falls {name : Text} {kind : RangeKind} (fs : List (Text × SVal)) (hk : rangeKindOf name fs.length = some kind)
    (hn : numericRange name fs = false) :
    (serFields { range := some { kind := kind } } fs >>= structEnd) =
      (write c!"(" >>= fun _ => structIndent fs.length >>= fun _ => serFields {} fs >>= structEnd) := by
  have hfull : ∀ (c : Comp) (r : RangeC) k v fs, c.range = some r → r.fallback = true →
      (fieldPlain c k (ser v) >>= fun c => serFields c fs >>= structEnd) =
        (serFields { c with range := none } ((k, v) :: fs) >>= structEnd) := by
    intro c r k v fs hc hr
    rw [← serFields_full hc hr, serFields]
    have h1 : structField c k v.asNumber (ser v) = fieldPlain c k (ser v) := by simp [structField, hc, hr]
    rw [h1, wbind_assoc]
  rcases rangeKindOf_one hk with ⟨hl, hkn⟩ | ⟨hl, hkn⟩
  · obtain ⟨k, v, k', v', rfl⟩ : ∃ k v k' v', fs = [(k, v), (k', v')] := by
      match fs, hl with
      | [(k, v), (k', v')], _ => exact ⟨k, v, k', v', rfl⟩
    have hfst : (rangeFallback { range := some { kind := kind } } { kind := kind } >>= fun c => fieldPlain c k (ser v) >>= fun c =>
        serFields c [(k', v')] >>= structEnd) = (write c!"(" >>= fun _ => structIndent 2 >>= fun _ =>
          serFields {} [(k, v), (k', v')] >>= structEnd) := by
      rw [rangeFallback_struct _ _ 2 rfl]
      simp only [replayField, wpure_bind]
      rw [hfull _ { kind := kind, fallback := true } k v _ rfl rfl]
    have hsnd : ∀ n, v = .num n → (rangeFallback { range := some { kind := kind, first := some (k, n) } } { kind := kind, first := some (k, n) } >>= fun c =>
        fieldPlain c k' (ser v') >>= fun c => serFields c [] >>= structEnd) = (write c!"(" >>= fun _ => structIndent 2 >>= fun _ =>
          serFields {} [(k, v), (k', v')] >>= structEnd) := by
      rintro n rfl
      rw [rangeFallback_struct _ _ 2 rfl]
      simp only [replayField, wpure_bind]
      have e1 : ser (.num n) = serNumber n := by rw [ser]
      have e2 := hfull { range := some { kind := kind, fallback := true } } { kind := kind, fallback := true } k (.num n) [(k', v')] rfl rfl
      rw [e1] at e2
      rw [← e2]
      have e3 : ∀ c : Comp, c.range = some { kind := kind, fallback := true } →
          (serFields c [(k', v')] >>= structEnd) = (fieldPlain c k' (ser v') >>= fun c => serFields c [] >>= structEnd) := by
        intro c hc
        rw [hfull c _ k' v' [] hc rfl]
        exact serFields_full hc rfl _
      simp only [fieldPlain_core, wbind_assoc, wpure_bind]
      congr 1; funext _; congr 1; funext _; congr 1; funext _
      rw [e3 _ rfl]
      simp only [fieldPlain_core, wbind_assoc, wpure_bind]
    simp only [List.length_cons, List.length_nil, Nat.zero_add, Nat.reduceAdd]
    rw [← hfst] at *
    rw [serFields, structField]
    cases hv : v.asNumber with
    | none =>
      simp only [Bool.false_eq_true, ↓reduceIte, wbind_assoc]
    | some n =>
      obtain rfl := asNumber_inv hv
      by_cases hk1 : k = c!"start"
      · have e1 : k = RangeC.expectedKey { kind := kind } := by
          rcases hkn with ⟨rfl, -⟩ | ⟨rfl, -⟩ <;> exact hk1
        simp only [Bool.false_eq_true, ↓reduceIte, wbind_assoc, ← e1, ne_eq, not_true_eq_false, decide_false, Option.isSome, Bool.false_and,
          Bool.or_false, Option.isNone, wpure_bind]
        rw [hfst, ← hsnd n rfl]
        rw [serFields, structField]
        cases hv' : v'.asNumber with
        | none => simp only [Bool.false_eq_true, ↓reduceIte, wbind_assoc]
        | some n' =>
          obtain rfl := asNumber_inv hv'
          by_cases hk2 : k' = c!"end"
          · have hnr : numericRange name [(k, .num n), (k', .num n')] = true := by
              rcases hkn with ⟨-, rfl⟩ | ⟨-, rfl⟩ <;> simp [numericRange, hk1, hk2]
            rw [hnr] at hn; cases hn
          · have e2 : ¬ k' = RangeC.expectedKey { kind := kind, first := some (k, n) } := by
              rcases hkn with ⟨rfl, -⟩ | ⟨rfl, -⟩ <;> exact hk2
            simp only [ne_eq, e2, not_false_eq_true, decide_true, Bool.true_or, Bool.false_eq_true, ↓reduceIte, wbind_assoc]
      · have e1 : ¬ k = RangeC.expectedKey { kind := kind } := by
          rcases hkn with ⟨rfl, -⟩ | ⟨rfl, -⟩ <;> exact hk1
        simp only [ne_eq, e1, not_false_eq_true, decide_true, Bool.true_or, Bool.false_eq_true, ↓reduceIte, wbind_assoc]
  · obtain ⟨k, v, rfl⟩ : ∃ k v, fs = [(k, v)] := by
      match fs, hl with
      | [(k, v)], _ => exact ⟨k, v, rfl⟩
    have hfst : (rangeFallback { range := some { kind := kind } } { kind := kind } >>= fun c => fieldPlain c k (ser v) >>= fun c =>
        serFields c [] >>= structEnd) = (write c!"(" >>= fun _ => structIndent 1 >>= fun _ =>
          serFields {} [(k, v)] >>= structEnd) := by
      rw [rangeFallback_struct _ _ 1 rfl]
      simp only [replayField, wpure_bind]
      rw [hfull _ { kind := kind, fallback := true } k v _ rfl rfl]
    simp only [List.length_cons, List.length_nil, Nat.zero_add, Nat.reduceAdd]
    rw [← hfst]
    rw [serFields, structField]
    cases hv : v.asNumber with
    | none => simp only [Bool.false_eq_true, ↓reduceIte, wbind_assoc]
    | some n =>
      obtain rfl := asNumber_inv hv
      by_cases hk1 : k = RangeC.expectedKey { kind := kind }
      · have hnr : numericRange name [(k, .num n)] = true := by
          rcases hkn with ⟨rfl, rfl⟩ | ⟨rfl, rfl⟩ | ⟨rfl, rfl⟩ <;> subst hk1 <;> rfl
        rw [hnr] at hn; cases hn
      · simp only [ne_eq, hk1, not_false_eq_true, decide_true, Bool.true_or, Bool.false_eq_true, ↓reduceIte, wbind_assoc]

/-! ### The compact notation -/

/-- The number of bounds fits the kind. -/
theorem rangeLit_kind {sfx : Bool} {name w : Text} {es : List (Text × Number)} (h : RangeLit sfx name es w) :
    ∃ kind, rangeKindOf name es.length = some kind := by
  cases h <;> exact ⟨_, rfl⟩

theorem range_compact {sfx : Bool} {name w : Text} {es : List (Text × Number)} (h : RangeLit sfx name es w) {kind : RangeKind}
    (hk : rangeKindOf name es.length = some kind) {s : Ser} (hq : s.Quiet) (hs : s.numberSuffixes = sfx) :
    (serFields { range := some { kind := kind } } (es.map fun e => (e.1, SVal.num e.2)) >>= structEnd) s = .ok () (s.put w) := by
  have hnum : ∀ t n, serNumber n (s.put t) = .ok () (s.put (t ++ n.text sfx)) := by
    intro t n
    rw [serNumber_quiet (hq.put _), Ser.put_put]
    have : (s.put t).numberSuffixes = sfx := hs
    rw [this]
  have hnum0 : ∀ n, serNumber n s = .ok () (s.put (n.text sfx)) := by
    intro n
    rw [serNumber_quiet hq, hs]
  cases h <;> (cases hk; simp [serFields, structField, SVal.asNumber, RangeC.expectedKey, RangeC.maxFields, structEnd, rangeEnd, serBound,
    wbind_apply, hnum0, hnum, write_quiet hq, write_quiet (hq.put _), Ser.put_put])

end Ron
