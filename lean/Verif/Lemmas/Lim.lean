import Verif.Lemmas.DeWalk
/-!
Reading with a recursion limit agrees with reading without one, or fails because of the limit; which of the two is decided by
a threshold that depends on what is read only.
-/

set_option linter.unusedSimpArgs false
set_option linter.unusedSectionVars false

namespace Ron

/-- The state `s` with budget `l`. -/
def St.at (s : St) (l : Option Nat) : St := { s with limit := l }

/-- Two states that differ in the budget only: none, and `n`. -/
structure Lx (n : Nat) (s s' : St) : Prop where
  src : s.src = s'.src
  preWs : s.preWs = s'.preWs
  lastWs : s.lastWs = s'.lastWs
  prev : s.prev = s'.prev
  none : s.limit = none
  some : s'.limit = some n
  exts : s.exts = s'.exts

theorem Eqv.at {n : Nat} {s s' : St} (h : Eqv (Lx n) s s') : s.limit = none ∧ s' = s.at (some n) := by
  refine ⟨h.more.none, ?_⟩
  obtain ⟨h1, h3, ⟨g1, g2, g3, g4, g5, g6, h2⟩, h5⟩ := h
  cases s; cases s'
  simp_all [St.at]

theorem Eqv.ofAt {n : Nat} {s : St} (h : s.limit = none) : Eqv (Lx n) s (s.at (some n)) :=
  ⟨rfl, rfl, ⟨rfl, rfl, rfl, rfl, h, rfl, rfl⟩, rfl⟩

theorem trackWs_at (s : St) (l : Option Nat) : (s.at l).trackWs = s.trackWs.at l := by
  unfold St.trackWs St.at
  dsimp only
  split
  · split <;> rfl
  · rfl

instance (n : Nat) : Trace (Lx n) where
  move p r h := ⟨h.src, h.preWs, h.lastWs, rfl, h.none, h.some, h.exts⟩
  step r h := ⟨h.src, h.preWs, h.lastWs, h.prev, h.none, h.some, h.exts⟩
  back h hr ht := ⟨ht.src, h.preWs, h.lastWs, ht.prev, ht.none, ht.some, ht.exts⟩
  track {s s'} h hr := by
    have e : s'.preWs = s.preWs := h.preWs.symm
    have e2 : s'.lastWs = s.lastWs := h.lastWs.symm
    unfold St.trackWs
    rw [e, e2, ← hr]
    split
    · split
      · first | exact ⟨h.src, rfl, rfl, h.prev, h.none, h.some, h.exts⟩ | exact h
      · first | exact ⟨h.src, rfl, rfl, h.prev, h.none, h.some, h.exts⟩ | exact h
    · first | exact h | exact ⟨h.src, rfl, rfl, h.prev, h.none, h.some, h.exts⟩
  openLine h := ⟨h.src, h.preWs, rfl, h.prev, h.none, h.some, h.exts⟩
  closed h hr := ⟨h.src, h.preWs, by rw [h.preWs, hr], h.prev, h.none, h.some, h.exts⟩

/-- The outcome with budget `n` is the outcome without a limit. -/
def Agrees {α : Type} (n : Nat) : Res α → Res α → Prop
  | .ok a t, r => t.limit = none ∧ r = .ok a (t.at (some n))
  | .err e t, r => ∃ l, r = .err e (t.at l)

/-- There is a threshold from which on the limit does not matter, and below which reading fails because of it. -/
def Lim {α : Type} (f : P α) : Prop :=
  ∀ s : St, s.limit = none → ∃ k, ∀ n, (k ≤ n → Agrees n (f s) (f (s.at (some n)))) ∧
    (n < k → ∃ t, f (s.at (some n)) = .err .exceededRecursionLimit t)

section
variable {α β : Type}

theorem Lim.flat {f : P α} (h : ∀ X [Trace X], Fr X f) : Lim f := by
  intro s hs
  refine ⟨0, fun n => ⟨fun _ => ?_, fun h => absurd h (Nat.not_lt_zero _)⟩⟩
  have := h (Lx n) s _ (Eqv.ofAt hs)
  revert this
  cases f s <;> cases f (s.at (some n)) <;> intro h
  · obtain ⟨rfl, h⟩ := h
    obtain ⟨h1, rfl⟩ := h.at
    exact ⟨h1, rfl⟩
  · exact h.elim
  · exact h.elim
  · obtain ⟨rfl, h⟩ := h
    obtain ⟨h1, rfl⟩ := h.at
    exact ⟨_, rfl⟩

theorem Lim.bindOk {f : P α} {g : α → P β} (hf : Lim f) (hg : ∀ a, (∃ s s', f s = .ok a s') → Lim (g a)) : Lim (f >>= g) := by
  intro s hs
  obtain ⟨k, hk⟩ := hf s hs
  have e : ∀ t, (f >>= g) t = P.bind f g t := fun _ => rfl
  simp only [e, P.bind]
  generalize he : f s = r at hk
  cases r with
  | err x t =>
    refine ⟨k, fun n => ⟨fun h => ?_, fun h => ?_⟩⟩
    · obtain ⟨l, h⟩ := (hk n).1 h
      rw [h]
      exact ⟨l, rfl⟩
    · obtain ⟨t, h⟩ := (hk n).2 h
      rw [h]
      exact ⟨t, rfl⟩
  | ok a t =>
    have ht : t.limit = none := ((hk k).1 (Nat.le_refl _)).1
    obtain ⟨k2, hk2⟩ := hg a ⟨_, _, he⟩ t ht
    refine ⟨max k k2, fun n => ⟨fun h => ?_, fun h => ?_⟩⟩
    · obtain ⟨-, h1⟩ := (hk n).1 (by omega)
      rw [h1]
      exact (hk2 n).1 (by omega)
    · by_cases h1 : n < k
      · obtain ⟨t, h⟩ := (hk n).2 h1
        rw [h]
        exact ⟨t, rfl⟩
      · obtain ⟨-, h1⟩ := (hk n).1 (by omega)
        rw [h1]
        exact (hk2 n).2 (by omega)

theorem Lim.bind {f : P α} {g : α → P β} (hf : Lim f) (hg : ∀ a, Lim (g a)) : Lim (f >>= g) := hf.bindOk fun a _ => hg a

theorem Lim.getSt {g : St → P α} (h : ∀ s l, g (s.at l) = g s) (hg : ∀ s, Lim (g s)) : Lim (Ron.getSt >>= g) := by
  intro s hs
  have := hg s s hs
  simpa only [bind_apply, getSt_apply, h] using this

theorem Lim.mapErr {f : P α} {g : Err → Err} (he : g .exceededRecursionLimit = .exceededRecursionLimit) (h : Lim f) : Lim (mapErr g f) := by
  intro s hs
  obtain ⟨k, hk⟩ := h s hs
  refine ⟨k, fun n => ⟨fun h => ?_, fun h => ?_⟩⟩
  · have := (hk n).1 h
    unfold Ron.mapErr
    generalize f s = r at this
    cases r with
    | ok a t => obtain ⟨h1, h2⟩ := this; rw [h2]; exact ⟨h1, rfl⟩
    | err e t => obtain ⟨l, h2⟩ := this; rw [h2]; exact ⟨l, rfl⟩
  · obtain ⟨t, h⟩ := (hk n).2 h
    unfold Ron.mapErr
    rw [h]
    exact ⟨t, by show Res.err (g _) t = _; rw [he]⟩

theorem deGuardQ_none {f : P α} {s : St} (hs : s.limit = none) : deGuardQ f s = match f s with
    | .ok a t => .ok a (t.at (t.limit.map (· + 1)))
    | .err e t => .err e t := by
  unfold deGuardQ
  have : ({ s with limit := s.limit.map (· - 1) } : St) = s := by cases s; cases hs; rfl
  rw [this, hs]
  rfl
theorem deGuardR_none {f : P α} {s : St} (hs : s.limit = none) : deGuardR f s = match f s with
    | .ok a t => .ok a (t.at (t.limit.map (· + 1)))
    | .err e t => .err e (t.at (t.limit.map (· + 1))) := by
  unfold deGuardR
  have : ({ s with limit := s.limit.map (· - 1) } : St) = s := by cases s; cases hs; rfl
  rw [this, hs]
  rfl

theorem Lim.guardQ {f : P α} (h : Lim f) : Lim (deGuardQ f) := by
  intro s hs
  obtain ⟨k, hk⟩ := h s hs
  refine ⟨k + 1, fun n => ?_⟩
  rw [deGuardQ_none hs]
  cases n with
  | zero => exact ⟨fun h => absurd h (by omega), fun _ => ⟨_, rfl⟩⟩
  | succ n =>
    have e : deGuardQ f (s.at (some (n + 1))) = match f (s.at (some n)) with
      | .ok a t => .ok a (t.at (t.limit.map (· + 1)))
      | .err e t => .err e t := rfl
    rw [e]
    refine ⟨fun h => ?_, fun h => ?_⟩
    · have := (hk n).1 (by omega)
      generalize f s = r at this
      cases r with
      | ok a t => obtain ⟨h1, h2⟩ := this; rw [h2]; exact ⟨by simp [St.at, h1], rfl⟩
      | err e t => obtain ⟨l, h2⟩ := this; rw [h2]; exact ⟨l, rfl⟩
    · obtain ⟨t, h⟩ := (hk n).2 (by omega)
      rw [h]
      exact ⟨t, rfl⟩
theorem Lim.guardR {f : P α} (h : Lim f) : Lim (deGuardR f) := by
  intro s hs
  obtain ⟨k, hk⟩ := h s hs
  refine ⟨k + 1, fun n => ?_⟩
  rw [deGuardR_none hs]
  cases n with
  | zero => exact ⟨fun h => absurd h (by omega), fun _ => ⟨_, rfl⟩⟩
  | succ n =>
    have e : deGuardR f (s.at (some (n + 1))) = match f (s.at (some n)) with
      | .ok a t => .ok a (t.at (t.limit.map (· + 1)))
      | .err e t => .err e (t.at (t.limit.map (· + 1))) := rfl
    rw [e]
    refine ⟨fun h => ?_, fun h => ?_⟩
    · have := (hk n).1 (by omega)
      generalize f s = r at this
      cases r with
      | ok a t => obtain ⟨h1, h2⟩ := this; rw [h2]; exact ⟨by simp [St.at, h1], rfl⟩
      | err e t => obtain ⟨l, h2⟩ := this; rw [h2]; exact ⟨_, rfl⟩
    · obtain ⟨t, h⟩ := (hk n).2 (by omega)
      rw [h]
      exact ⟨_, rfl⟩

theorem Lim.modSt {f : St → St} (h : ∀ s l, f (s.at l) = (f s).at l) (hn : ∀ s : St, s.limit = none → (f s).limit = none) : Lim (modSt f) := by
  intro s hs
  refine ⟨0, fun n => ⟨fun _ => ⟨hn s hs, ?_⟩, fun h => absurd h (Nat.not_lt_zero _)⟩⟩
  rw [modSt_apply, h]
end

instance : DeWalk @Lim where
  flat h := Lim.flat h
  bindOk hf hg := hf.bindOk hg
  getSt hg h := Lim.getSt (fun s l => hg _ _ rfl rfl rfl rfl) h
  mapErr he h := h.mapErr he.1
  guardQ h := h.guardQ
  guardR h := h.guardR
  setNv b := Lim.modSt (fun _ _ => rfl) fun _ h => h
  setUnwrap := Lim.modSt (fun _ _ => rfl) fun _ h => h
  setIdent i := Lim.modSt (fun _ _ => rfl) fun _ h => h
  setExts g := Lim.modSt (fun _ _ => rfl) fun _ h => h

variable [Env] {α : Type}

theorem Lim.deValue : Lim deValue := DW.deValue (Φ := @Lim) trivial
theorem Lim.deIgnored : Lim deIgnored := DW.deIgnored (Φ := @Lim) trivial
theorem Lim.hasUnclosed : Lim hasUnclosedLineComment := Lim.getSt (fun _ _ => rfl) fun _ => Lim.flat fun _ _ => Rel.pure rfl
theorem Lim.deRaw : Lim deRaw := by
  unfold Ron.deRaw
  have hw : Lim Ron.skipWs := Lim.flat fun _ _ => Fr.skipWs
  have hp : ∀ t : Text, Lim (pure t : P Text) := fun t => Lim.flat fun _ _ => Rel.pure rfl
  have hf : ∀ e, Lim (fail e : P Text) := fun e => Lim.flat fun _ _ => Rel.fail e
  refine Lim.getSt (fun _ _ => rfl) fun s0 => hw.bind fun _ => Lim.deIgnored.bind fun _ => hw.bind fun _ => Lim.hasUnclosed.bind fun b => ?_
  split
  · exact hf _
  · refine Lim.getSt (fun _ _ => rfl) fun s => ?_
    dsimp only
    generalize fromStr {} Ron.deIgnored _ = r
    cases r
    · exact hf _
    · exact hp _
theorem Lim.deTy {D : Nat → Ty} (f : Nat) (t : Ty) : Lim (deTy D f t) :=
  DW.deTy (Φ := @Lim) (fun _ => Lim.deRaw) (fun i => Ty.RawIf.within _ (D i).rawIf_true) f t (Ty.RawIf.within _ t.rawIf_true)
theorem Lim.attributes (f : Nat) : Lim (attributes f) := DW.attributes (Φ := @Lim) f
theorem Lim.deEnd : Lim deEnd := DW.deEnd (Φ := @Lim)

theorem Lim.parserNew : Lim parserNew :=
  (Lim.flat fun _ _ => Fr.skipWs : Lim skipWs).bind fun _ => Lim.getSt (fun _ _ => rfl) fun _ => Lim.attributes _

/-- A whole document. -/
theorem readDoc_lim {o : Options} {f : P α} (hf : Lim f) (s : St) : ∃ k, ∀ n,
    (k ≤ n → Agrees n (readDoc { o with recursionLimit := none } f s) (readDoc { o with recursionLimit := some n } f s)) ∧
    (n < k → ∃ t, readDoc { o with recursionLimit := some n } f s = .err .exceededRecursionLimit t) := by
  let body : P α := parserNew >>= fun _ => (Ron.modSt fun s => { s with exts := s.exts.union o.defaultExtensions }) >>= fun _ =>
    f >>= fun a => deEnd >>= fun _ => pure a
  have hm : Lim (Ron.modSt fun s => { s with exts := s.exts.union o.defaultExtensions }) := Lim.modSt (fun _ _ => rfl) fun _ h => h
  have hb : Lim body := Lim.parserNew.bind fun _ => hm.bind fun _ =>
    hf.bind fun _ => Lim.deEnd.bind fun _ => Lim.flat fun _ _ => Rel.pure rfl
  have e : ∀ l, readDoc { o with recursionLimit := l } f s = body (s.at l) := by
    intro l
    simp only [readDoc, deNew, bind_apply, modSt_apply, body]
    rw [show ({ s with limit := l } : St) = s.at l from rfl]
    cases parserNew (s.at l) <;> rfl
  simp only [e]
  obtain ⟨k, hk⟩ := hb (s.at none) rfl
  exact ⟨k, hk⟩

end Ron
