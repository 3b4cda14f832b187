import Verif.Model.Value
/-! What values feed to a hasher: values without maps are told apart. -/

namespace Ron

mutual
/-- No map in the value. -/
def Value.mapFree : Value → Prop
  | .map _ => False
  | .some v => v.mapFree
  | .seq vs => valuesMapFree vs
  | _ => True
/-- No map in the values. -/
def valuesMapFree : List Value → Prop
  | [] => True
  | v :: vs => v.mapFree ∧ valuesMapFree vs
end

/-- What follows a value: nothing or the start of another value. -/
def HashFresh (r : List HashCall) : Prop := ∀ c r', r = (6, c) :: r' → False

theorem Value.hash_fresh (v : Value) (r : List HashCall) : HashFresh (v.hash ++ r) := by
  intro c r' h
  cases v <;> simp [Value.hash] at h

theorem hashValues_fresh (vs : List Value) {r : List HashCall} (hr : HashFresh r) : HashFresh (hashValues vs ++ r) := by
  cases vs with
  | nil => simpa [hashValues] using hr
  | cons v vs => rw [hashValues, List.append_assoc]; exact v.hash_fresh _

theorem chars_inj : ∀ {t t' : Text} {r r' : List HashCall}, HashFresh r → HashFresh r' →
    (t.map fun c => ((6, (c.toNat : Int)) : HashCall)) ++ r = (t'.map fun c => (6, (c.toNat : Int))) ++ r' → t = t' ∧ r = r'
  | [], [], _, _, _, _, h => ⟨rfl, h⟩
  | [], c :: t', r, r', hr, _, h => absurd h (by intro h; exact hr _ _ h)
  | c :: t, [], r, r', _, hr', h => absurd h (by intro h; exact hr' _ _ h.symm)
  | c :: t, d :: t', r, r', hr, hr', h => by
    simp only [List.map_cons, List.cons_append, List.cons.injEq, Prod.mk.injEq, true_and] at h
    obtain ⟨rfl, rfl⟩ := chars_inj hr hr' h.2
    have : c = d := Char.toNat_inj.mp (by omega)
    exact ⟨by rw [this], rfl⟩

theorem bytes_inj : ∀ {t t' : List UInt8} {r r' : List HashCall}, t.length = t'.length →
    (t.map fun c => ((8, (c.toNat : Int)) : HashCall)) ++ r = (t'.map fun c => (8, (c.toNat : Int))) ++ r' → t = t' ∧ r = r'
  | [], [], _, _, _, h => ⟨rfl, h⟩
  | [], c :: t', r, r', hl, h => by simp at hl
  | c :: t, [], r, r', hl, h => by simp at hl
  | c :: t, d :: t', r, r', hl, h => by
    simp only [List.map_cons, List.cons_append, List.cons.injEq, Prod.mk.injEq, true_and] at h
    obtain ⟨rfl, rfl⟩ := bytes_inj (by simpa using hl) h.2
    have : c = d := UInt8.toNat_inj.mp (by omega)
    exact ⟨by rw [this], rfl⟩

theorem Number.hash_inj {a b : Number} {r r' : List HashCall} (h : a.hash ++ r = b.hash ++ r') : a = b ∧ r = r' := by
  simp only [Number.hash, List.cons_append, List.cons.injEq, Prod.mk.injEq, true_and] at h
  obtain ⟨hr, h⟩ := h
  cases a with
  | int t v =>
    cases b with
    | int t' v' =>
      simp at h
      refine ⟨?_, h.2⟩
      have : t = t' := by cases t <;> cases t' <;> first | rfl | (simp [Number.rank] at hr)
      rw [this, h.1]
    | f32 b => simp at h
    | f64 b => simp at h
  | f32 x =>
    cases b with
    | int t' v' => simp at h
    | f32 b =>
      simp at h
      exact ⟨by rw [show x = b from BitVec.eq_of_toNat_eq (by omega)], h.2⟩
    | f64 b => simp at h
  | f64 x =>
    cases b with
    | int t' v' => simp at h
    | f32 b => simp at h
    | f64 b =>
      simp at h
      exact ⟨by rw [show x = b from BitVec.eq_of_toNat_eq (by omega)], h.2⟩

mutual
theorem Value.hash_inj : ∀ {v w : Value} {r r' : List HashCall}, v.mapFree → w.mapFree → HashFresh r → HashFresh r' →
    v.hash ++ r = w.hash ++ r' → v = w ∧ r = r'
  | .map _, _, _, _, hv, _, _, _, _ => absurd hv (by simp [Value.mapFree])
  | .bool a, w, r, r', hv, hw, hr, hr', h => by
    cases w <;> simp [Value.hash] at h
    case bool b => exact ⟨by cases a <;> cases b <;> simp_all, h.2⟩
  | .char a, w, r, r', hv, hw, hr, hr', h => by
    cases w <;> simp [Value.hash] at h
    case char b => exact ⟨by rw [show a = b from Char.toNat_inj.mp (by omega)], h.2⟩
  | .num a, w, r, r', hv, hw, hr, hr', h => by
    cases w <;> simp [Value.hash] at h
    case num b =>
      obtain ⟨rfl, rfl⟩ := Number.hash_inj h
      exact ⟨rfl, rfl⟩
  | .none, w, r, r', hv, hw, hr, hr', h => by
    cases w <;> simp [Value.hash] at h
    case none => exact ⟨rfl, h⟩
  | .some a, w, r, r', hv, hw, hr, hr', h => by
    cases w <;> simp [Value.hash] at h
    case some b =>
      obtain ⟨rfl, rfl⟩ := Value.hash_inj (v := a) (w := b) (by simpa [Value.mapFree] using hv) (by simpa [Value.mapFree] using hw) hr hr' h
      exact ⟨rfl, rfl⟩
  | .str a, w, r, r', hv, hw, hr, hr', h => by
    cases w <;> simp [Value.hash] at h
    case str b =>
      obtain ⟨rfl, rfl⟩ := chars_inj hr hr' h
      exact ⟨rfl, rfl⟩
  | .bytes a, w, r, r', hv, hw, hr, hr', h => by
    cases w <;> simp [Value.hash] at h
    case bytes b =>
      obtain ⟨rfl, rfl⟩ := bytes_inj (by omega) h.2
      exact ⟨rfl, rfl⟩
  | .seq a, w, r, r', hv, hw, hr, hr', h => by
    cases w <;> simp [Value.hash] at h
    case seq b =>
      obtain ⟨rfl, rfl⟩ := hashValues_inj (vs := a) (ws := b) (by simpa [Value.mapFree] using hv) (by simpa [Value.mapFree] using hw) hr hr' (by omega) h.2
      exact ⟨rfl, rfl⟩
  | .unit, w, r, r', hv, hw, hr, hr', h => by
    cases w <;> simp [Value.hash] at h
    case unit => exact ⟨rfl, h⟩
theorem hashValues_inj : ∀ {vs ws : List Value} {r r' : List HashCall}, valuesMapFree vs → valuesMapFree ws → HashFresh r → HashFresh r' →
    vs.length = ws.length → hashValues vs ++ r = hashValues ws ++ r' → vs = ws ∧ r = r'
  | [], [], _, _, _, _, _, _, _, h => ⟨rfl, by simpa [hashValues] using h⟩
  | [], w :: ws, _, _, _, _, _, _, hl, h => by simp at hl
  | v :: vs, [], _, _, _, _, _, _, hl, h => by simp at hl
  | v :: vs, w :: ws, r, r', hv, hw, hr, hr', hl, h => by
    rw [valuesMapFree] at hv hw
    rw [hashValues, hashValues, List.append_assoc, List.append_assoc] at h
    obtain ⟨rfl, h2⟩ := Value.hash_inj hv.1 hw.1 (hashValues_fresh vs hr) (hashValues_fresh ws hr') h
    obtain ⟨rfl, rfl⟩ := hashValues_inj hv.2 hw.2 hr hr' (by simpa using hl) h2
    exact ⟨rfl, rfl⟩
end

theorem hashEntries_inj : ∀ {m n : List (Value × Value)}, (∀ e ∈ m, e.1.mapFree ∧ e.2.mapFree) → (∀ e ∈ n, e.1.mapFree ∧ e.2.mapFree) →
    hashEntries m = hashEntries n → m = n
  | [], [], _, _, _ => rfl
  | [], (k, v) :: n, _, _, h => by cases k <;> simp [hashEntries, Value.hash] at h
  | (k, v) :: m, [], _, _, h => by cases k <;> simp [hashEntries, Value.hash] at h
  | (k, v) :: m, (k', v') :: n, hm, hn, h => by
    have f : ∀ m : List (Value × Value), HashFresh (hashEntries m) := by
      intro m
      cases m with
      | nil => intro c r' h; simp [hashEntries] at h
      | cons e m => rw [hashEntries, List.append_assoc]; exact e.1.hash_fresh _
    obtain ⟨a1, a2⟩ : k.mapFree ∧ v.mapFree := hm (k, v) (by simp)
    obtain ⟨b1, b2⟩ : k'.mapFree ∧ v'.mapFree := hn (k', v') (by simp)
    rw [hashEntries, hashEntries, List.append_assoc, List.append_assoc] at h
    obtain ⟨e1, h⟩ := Value.hash_inj a1 b1 (v.hash_fresh _) (v'.hash_fresh _) h
    obtain ⟨e2, h⟩ := Value.hash_inj a2 b2 (f m) (f n) h
    rw [hashEntries_inj (fun e he => hm e (by simp [he])) (fun e he => hn e (by simp [he])) h, e1, e2]

end Ron
