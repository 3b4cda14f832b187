import Verif.Spec.Feed
import Verif.Lemmas.Walk
/-! The writes of the serializer do not depend on the writer, and the first failing write is the last one. -/

set_option linter.unusedSimpArgs false

namespace Ron

/-- The same result with another writer. -/
def WRes.setW {α : Type} (r : WRes α) (w : Writer) : WRes α :=
  match r with
  | .ok a s => .ok a { s with w := w }
  | .err e s => .err e { s with w := w }

/-- The result of an action whose writes are `ts`. -/
def Delivers {α : Type} (x : WRes α) (r : WRes α) (w : Writer) : Prop :=
  (w.failed = false → x = r.setW w) ∧ (w.failed = true → ∃ s : Ser, x = .err .fmt { s with w := w })

/-- The action makes writes that do not depend on the writer. -/
def Feeds {α : Type} (f : W α) : Prop :=
  ∀ s : Ser, ∃ ts r, ∀ w : Writer, w.Fresh → Delivers (f { s with w := w }) r (feed w ts)

theorem feed_failed {w : Writer} {ts us : List Text} (h : (feed w ts).failed = true) (hf : w.Fresh) :
    feed w (ts ++ us) = feed w ts := by
  induction ts generalizing w with
  | nil => simp only [feed] at h; rw [hf] at h; cases h
  | cons t ts ih =>
    simp only [List.cons_append, feed] at h ⊢
    cases hw : w.fault w.out t with
    | none => rw [hw] at h; exact ih h hf
    | some n => rfl

theorem feed_ok {w : Writer} {ts us : List Text} (h : (feed w ts).failed = false) :
    feed w (ts ++ us) = feed (feed w ts) us := by
  induction ts generalizing w with
  | nil => rfl
  | cons t ts ih =>
    simp only [List.cons_append, feed] at h ⊢
    cases hw : w.fault w.out t with
    | none => rw [hw] at h; exact ih h
    | some n => rw [hw] at h; cases h

theorem WRes.setW_ok {α : Type} (a : α) (s : Ser) (w : Writer) : (WRes.ok a s).setW w = .ok a { s with w := w } := rfl
theorem WRes.setW_err {α : Type} (e : Err) (s : Ser) (w : Writer) : (WRes.err e s : WRes α).setW w = .err e { s with w := w } := rfl

theorem Feeds.silent {α : Type} {f : W α} (h : Silent f) : Feeds f := by
  intro s
  refine ⟨[], f s, fun w hw => ⟨fun _ => ?_, fun e => ?_⟩⟩
  · have h1 := h s w s.limit
    have h2 := h s s.w s.limit
    have e2 : f s = (f s).put s.w s.limit := h2
    have e1 : f { s with w := w } = (f s).put w s.limit := h1
    rw [e1]
    conv => rhs; rw [e2]
    cases f s <;> rfl
  · simp only [feed] at e; rw [hw] at e; cases e

theorem Feeds.bind {α β : Type} {f : W α} {g : α → W β} (hf : Feeds f) (hg : ∀ a, Feeds (g a)) : Feeds (f >>= g) := by
  intro s
  obtain ⟨ts, r, h⟩ := hf s
  cases r with
  | err e s1 =>
    refine ⟨ts, .err e s1, fun w hw => ?_⟩
    obtain ⟨h1, h2⟩ := h w hw
    refine ⟨fun c => ?_, fun c => ?_⟩
    · rw [wbind_apply, h1 c]; rfl
    · obtain ⟨s2, h2⟩ := h2 c
      rw [wbind_apply, h2]; exact ⟨s2, rfl⟩
  | ok a s1 =>
    obtain ⟨us, r2, h'⟩ := hg a s1
    refine ⟨ts ++ us, r2, fun w hw => ?_⟩
    obtain ⟨h1, h2⟩ := h w hw
    cases c : (feed w ts).failed with
    | true =>
      rw [feed_failed c hw]
      obtain ⟨s2, h2⟩ := h2 c
      refine ⟨fun c' => ?_, fun _ => ⟨s2, ?_⟩⟩
      · rw [c] at c'; cases c'
      · rw [wbind_apply, h2]
    | false =>
      rw [feed_ok c]
      have := h' (feed w ts) c
      rw [wbind_apply, h1 c, WRes.setW_ok]
      exact this

theorem Feeds.get {α : Type} {g : Ser → W α} (h : ∀ s w l, g { s with w := w, limit := l } = g s) (hg : ∀ s, Feeds (g s)) :
    Feeds (wget >>= g) := by
  intro s
  obtain ⟨ts, r, h'⟩ := hg s s
  refine ⟨ts, r, fun w hw => ?_⟩
  have e : g { s with w := w } = g s := h s w s.limit
  rw [wbind_apply, wget_apply]
  show Delivers (g { s with w := w } { s with w := w }) r (feed w ts)
  rw [e]
  exact h' w hw

theorem Feeds.write (t : Text) : Feeds (Ron.write t) := by
  intro s
  refine ⟨[t], .ok () s, fun w hw => ?_⟩
  unfold Ron.write
  simp only [feed]
  cases c : w.fault w.out t with
  | none => exact ⟨fun _ => rfl, fun e => by simp only [Writer.Fresh] at hw; simp only [hw] at e; cases e⟩
  | some n => exact ⟨fun e => (by cases e), fun _ => ⟨s, rfl⟩⟩

/-- Work after the action, on success and on failure. -/
theorem Feeds.post {α : Type} {f : W α} {k : Ser → Ser} (hk : ∀ s w, k { s with w := w } = { k s with w := w }) (h : Feeds f)
    {f' : W α} (hf' : ∀ s, f' s = match f s with | .ok a s' => .ok a (k s') | .err e s' => .err e (k s')) : Feeds f' := by
  intro s
  obtain ⟨ts, r, h⟩ := h s
  refine ⟨ts, match r with | .ok a s' => .ok a (k s') | .err e s' => .err e (k s'), fun w hw => ?_⟩
  obtain ⟨h1, h2⟩ := h w hw
  refine ⟨fun c => ?_, fun c => ?_⟩
  · rw [hf', h1 c]
    cases r <;> (simp only [WRes.setW]; rw [hk])
  · obtain ⟨s2, h2⟩ := h2 c
    rw [hf', h2]
    exact ⟨k s2, by simp only; rw [hk]⟩

theorem Feeds.drop {α : Type} {f : W α} (h : Feeds f) : Feeds (dropCompound f) :=
  h.post (k := fun s => { s with limit := s.limit.map (· + 1) }) (fun _ _ => rfl) fun _ => rfl

theorem Feeds.enter : Feeds guardEnter := by
  intro s
  refine ⟨[], guardEnter s, fun w hw => ⟨fun _ => ?_, fun e => ?_⟩⟩
  · obtain ⟨w', p, e, x, y, l, i⟩ := s
    rcases l with _ | _ | n <;> rfl
  · simp only [feed] at e; rw [hw] at e; cases e

theorem Feeds.leave : Feeds guardLeave := by
  intro s
  refine ⟨[], guardLeave s, fun w hw => ⟨fun _ => rfl, fun e => ?_⟩⟩
  simp only [feed] at e; rw [hw] at e; cases e

theorem feeds_walk : Walk @Feeds where
  pure _ := .silent fun _ _ _ => rfl
  fail _ := .silent fun _ _ _ => rfl
  bind := .bind
  get h := .get fun s w l => h.get s w l
  mod h _ := .silent fun s w l => by
    obtain ⟨m, hm⟩ := withMeta_self s.pretty
    have := h s w l m
    rw [hm] at this
    rw [wmod_apply, this]
    rename_i f hf
    simp only [wmod_apply, WRes.put]
    rw [← (hf s).2.2.1]
  write := .write
  guardQ h := .bind .enter fun _ => .bind h fun _ => .bind .leave fun _ => .silent fun _ _ _ => rfl
  guardR h := .bind .enter fun _ => Feeds.drop h
  silent := .silent
  getP := .get
  drop := .drop

theorem feed_out {w : Writer} {ts : List Text} (h : (feed w ts).failed = false) : (feed w ts).out = w.out ++ ts.flatten := by
  induction ts generalizing w with
  | nil => simp [feed]
  | cons t ts ih =>
    simp only [feed] at h ⊢
    cases hw : w.fault w.out t with
    | none =>
      rw [hw] at h
      simp only
      rw [ih h]
      simp
    | some n => rw [hw] at h; cases h

theorem feed_prefix {w : Writer} (ts : List Text) : ∃ p, (feed w ts).out = w.out ++ p ∧ p <+: ts.flatten := by
  induction ts generalizing w with
  | nil => exact ⟨[], by simp [feed], by simp⟩
  | cons t ts ih =>
    simp only [feed]
    cases hw : w.fault w.out t with
    | none =>
      obtain ⟨p, h1, h2⟩ := ih (w := { w with out := w.out ++ t })
      refine ⟨t ++ p, by simp [h1], ?_⟩
      simpa using h2
    | some n => exact ⟨t.take n, rfl, (List.take_prefix n t).trans (by simp)⟩

theorem feed_quiet {w : Writer} (hq : ∀ a b, w.fault a b = none) (hw : w.Fresh) (ts : List Text) :
    (feed w ts).failed = false := by
  induction ts generalizing w with
  | nil => exact hw
  | cons t ts ih =>
    simp only [feed, hq]
    exact ih hq hw

theorem feed_fault {w : Writer} (ts : List Text) : (feed w ts).fault = w.fault := by
  induction ts generalizing w with
  | nil => rfl
  | cons t ts ih =>
    simp only [feed]
    cases w.fault w.out t with
    | none => exact ih
    | some n => rfl

/-- An action on a writer that never fails appends to the output. -/
theorem Feeds.appends {α : Type} {f : W α} (hf : Feeds f) {s s' : Ser} {a : α} (hq : s.w.fault = fun _ _ => none) (hw : s.w.Fresh)
    (h : f s = .ok a s') : (∃ t, s'.w.out = s.w.out ++ t) ∧ (s'.w.fault = fun _ _ => none) ∧ s'.w.Fresh := by
  obtain ⟨ts, r, h1⟩ := hf s
  have hok := feed_quiet (w := s.w) (fun _ _ => by rw [hq]) hw ts
  have h2 := (h1 s.w hw).1 hok
  have h3 : f s = r.setW (feed s.w ts) := h2
  rw [h] at h3
  cases r with
  | ok b u =>
    cases h3
    exact ⟨⟨_, feed_out hok⟩, (feed_fault ts).trans hq, hok⟩
  | err e u => cases h3

end Ron
