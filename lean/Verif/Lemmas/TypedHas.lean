import Verif.Lemmas.Typed
import Verif.Lemmas.TyDoc
/-! What was read can be written again. -/

set_option linter.unusedSimpArgs false
set_option linter.unusedSectionVars false

namespace Ron

variable [Env]

theorem canonAll_mem : ∀ {vs : List SVal}, CanonAll vs → ∀ v ∈ vs, v.Canon
  | [], _, v, h => by cases h
  | _ :: vs, h, v, hm => by
    simp only [CanonAll] at h
    rcases List.mem_cons.mp hm with rfl | hm
    · exact h.1
    · exact canonAll_mem h.2 v hm
theorem canonEntries_mem : ∀ {vs : List (SVal × SVal)}, CanonEntries vs → ∀ e ∈ vs, e.1.Canon ∧ e.2.Canon
  | [], _, v, h => by cases h
  | (_, _) :: vs, h, v, hm => by
    simp only [CanonEntries] at h
    rcases List.mem_cons.mp hm with rfl | hm
    · exact h.1
    · exact canonEntries_mem h.2 v hm

theorem namedAll_of : ∀ {vs : List SVal}, (∀ v ∈ vs, v.Named) → NamedAll vs
  | [], _ => by simp [NamedAll]
  | v :: vs, h => by simp only [NamedAll]; exact ⟨h v (by simp), namedAll_of fun u hu => h u (by simp [hu])⟩
theorem namedEntries_of : ∀ {vs : List (SVal × SVal)}, (∀ v ∈ vs, v.1.Named ∧ v.2.Named) → NamedEntries vs
  | [], _ => by simp [NamedEntries]
  | (a, b) :: vs, h => by simp only [NamedEntries]; exact ⟨h (a, b) (by simp), namedEntries_of fun u hu => h u (by simp [hu])⟩

/-- A type that is fit to be written, with distinct names. -/
def Ty.Good (t : Ty) : Prop := t.Distinct ∧ t.Fit

theorem Every.and {p q : Ty → Prop} {t : Ty} (h : t.Every fun t => p t ∧ q t) : t.Every p ∧ t.Every q := by
  have key : ∀ (r : Ty → Prop), (∀ t, p t ∧ q t → r t) →
      (∀ t : Ty, t.Parts (fun t => p t ∧ q t) → t.Parts r) := by
    intro r hr
    apply Ty.rec (motive_1 := fun t => t.Parts (fun t => p t ∧ q t) → t.Parts r)
      (motive_2 := fun v => v.Parts (fun t => p t ∧ q t) → v.Parts r)
      (motive_3 := fun ts => PartsAll (fun t => p t ∧ q t) ts → PartsAll r ts)
      (motive_4 := fun fs => PartsFields (fun t => p t ∧ q t) fs → PartsFields r fs)
      (motive_5 := fun vs => PartsVariants (fun t => p t ∧ q t) vs → PartsVariants r vs)
      (motive_6 := fun x => x.2.Parts (fun t => p t ∧ q t) → x.2.Parts r)
      (motive_7 := fun x => x.2.Parts (fun t => p t ∧ q t) → x.2.Parts r)
    all_goals simp only [Ty.Parts, Variant.Parts, PartsAll, PartsFields, PartsVariants]
    all_goals grind
  exact ⟨⟨h.1.1, key p (fun _ h => h.1) t h.2⟩, ⟨h.1.2, key q (fun _ h => h.2) t h.2⟩⟩

theorem all2_tys {D : Nat → Ty} {n : Nat} (ih : ∀ T v, T.Every Ty.Good → v.Canon → Typed D n T v → HasTy D n T v ∧ v.Named) :
    ∀ {Ts : List Ty} {vs : List SVal}, PartsAll Ty.Good Ts → CanonAll vs → All2 (Typed D n) Ts vs → All2 (HasTy D n) Ts vs ∧ NamedAll vs
  | [], [], _, _, _ => ⟨trivial, trivial⟩
  | [], _ :: _, _, _, h => h.elim
  | _ :: _, [], _, _, h => h.elim
  | T :: Ts, v :: vs, hT, hc, h => by
    simp only [PartsAll] at hT
    simp only [CanonAll] at hc
    obtain ⟨h1, h2⟩ := ih T v hT.1 hc.1 h.1
    obtain ⟨h3, h4⟩ := all2_tys ih hT.2 hc.2 h.2
    exact ⟨⟨h1, h3⟩, by simp only [NamedAll]; exact ⟨h2, h4⟩⟩
theorem all2_fields {D : Nat → Ty} {n : Nat} (ih : ∀ T v, T.Every Ty.Good → v.Canon → Typed D n T v → HasTy D n T v ∧ v.Named) :
    ∀ {Fs : List (Text × Ty)} {fs : List (Text × SVal)}, PartsFields Ty.Good Fs → (∀ e ∈ Fs, RawName e.1) → CanonFields fs →
    All2 (fun F f => F.1 = f.1 ∧ Typed D n F.2 f.2) Fs fs → All2 (fun F f => F.1 = f.1 ∧ HasTy D n F.2 f.2) Fs fs ∧ NamedFields fs
  | [], [], _, _, _, _ => ⟨trivial, trivial⟩
  | [], _ :: _, _, _, _, h => h.elim
  | _ :: _, [], _, _, _, h => h.elim
  | (a, T) :: Ts, (b, v) :: vs, hT, hr, hc, h => by
    simp only [PartsFields] at hT
    simp only [CanonFields] at hc
    obtain ⟨r1, r2⟩ := List.forall_mem_cons.mp hr
    obtain ⟨⟨e, h0⟩, h'⟩ := h
    dsimp only at e h0 r1
    subst e
    obtain ⟨h1, h2⟩ := ih T v hT.1 hc.1 h0
    obtain ⟨h3, h4⟩ := all2_fields ih hT.2 r2 hc.2 h'
    exact ⟨⟨⟨rfl, h1⟩, h3⟩, by simp only [NamedFields]; exact ⟨⟨r1, h2⟩, h4⟩⟩

/-- Data of a good type is data that can be written and read back. -/
theorem Typed.hasTy {D : Nat → Ty} (hD : ∀ i, (D i).Every Ty.Good) : ∀ (n : Nat) (T : Ty) (v : SVal), T.Every Ty.Good → v.Canon → Typed D n T v →
    HasTy D n T v ∧ v.Named := by
  intro n
  induction n with
  | zero => intro T v _ _ h; exact h.elim
  | succ n ih =>
    intro T v ⟨hg, hp⟩ hc h
    obtain ⟨hd, hf⟩ := hg
    cases T with
    | bool => obtain ⟨b, rfl⟩ := h; exact ⟨⟨b, rfl⟩, by simp [SVal.Named]⟩
    | int t => obtain ⟨i, rfl, hr⟩ := h; exact ⟨⟨i, rfl, hf, hr⟩, by simp [SVal.Named]⟩
    | f32 => obtain ⟨b, rfl⟩ := h; exact ⟨⟨b, rfl, by simpa [SVal.Canon, Number.canon] using hc⟩, by simp [SVal.Named]⟩
    | f64 => obtain ⟨b, rfl⟩ := h; exact ⟨⟨b, rfl, by simpa [SVal.Canon, Number.canon] using hc⟩, by simp [SVal.Named]⟩
    | char => obtain ⟨b, rfl⟩ := h; exact ⟨⟨b, rfl⟩, by simp [SVal.Named]⟩
    | str => obtain ⟨b, rfl⟩ := h; exact ⟨⟨b, rfl⟩, by simp [SVal.Named]⟩
    | bytes => obtain ⟨b, rfl⟩ := h; exact ⟨⟨b, rfl⟩, by simp [SVal.Named]⟩
    | unit => cases h; exact ⟨rfl, by simp [SVal.Named]⟩
    | unitStruct _ => cases h; exact ⟨rfl, by simp only [SVal.Named]; exact hf⟩
    | newtype name t =>
      obtain ⟨u, rfl, h⟩ := h
      simp only [Ty.Parts] at hp
      simp only [SVal.Canon] at hc
      obtain ⟨h1, h2⟩ := ih t u hp hc h
      exact ⟨⟨u, rfl, h1⟩, by simp only [SVal.Named]; exact ⟨hf, h2⟩⟩
    | option t =>
      rcases h with rfl | ⟨u, rfl, h⟩
      · exact ⟨.inl rfl, by simp [SVal.Named]⟩
      simp only [Ty.Parts] at hp
      simp only [SVal.Canon] at hc
      obtain ⟨h1, h2⟩ := ih t u hp hc h
      exact ⟨.inr ⟨u, rfl, h1⟩, by simp only [SVal.Named]; exact h2⟩
    | seq t =>
      obtain ⟨vs, rfl, h⟩ := h
      simp only [Ty.Parts] at hp
      simp only [SVal.Canon] at hc
      have hh : ∀ u ∈ vs, HasTy D n t u ∧ u.Named := fun u hu => ih t u hp (canonAll_mem hc u hu) (h u hu)
      exact ⟨⟨vs, rfl, fun u hu => (hh u hu).1⟩, by simp only [SVal.Named]; exact namedAll_of fun u hu => (hh u hu).2⟩
    | tuple ts =>
      obtain ⟨vs, rfl, h⟩ := h
      simp only [Ty.Parts] at hp
      simp only [SVal.Canon] at hc
      obtain ⟨h1, h2⟩ := all2_tys ih hp hc h
      exact ⟨⟨vs, rfl, h1⟩, by simp only [SVal.Named]; exact h2⟩
    | tupleStruct name ts =>
      obtain ⟨vs, rfl, h⟩ := h
      simp only [Ty.Parts] at hp
      simp only [SVal.Canon] at hc
      obtain ⟨h1, h2⟩ := all2_tys ih hp hc h
      exact ⟨⟨vs, rfl, h1⟩, by simp only [SVal.Named]; exact ⟨hf, h2⟩⟩
    | map k w =>
      obtain ⟨kvs, rfl, h⟩ := h
      simp only [Ty.Parts] at hp
      simp only [SVal.Canon] at hc
      have hh : ∀ e ∈ kvs, (HasTy D n k e.1 ∧ e.1.Named) ∧ (HasTy D n w e.2 ∧ e.2.Named) := fun e he =>
        ⟨ih k _ hp.1 (canonEntries_mem hc e he).1 (h e he).1, ih w _ hp.2 (canonEntries_mem hc e he).2 (h e he).2⟩
      exact ⟨⟨kvs, rfl, fun e he => ⟨(hh e he).1.1, (hh e he).2.1⟩⟩, by
        simp only [SVal.Named]; exact namedEntries_of fun e he => ⟨(hh e he).1.2, (hh e he).2.2⟩⟩
    | struct name deny fields =>
      obtain ⟨fs, rfl, h⟩ := h
      simp only [Ty.Parts] at hp
      simp only [SVal.Canon] at hc
      obtain ⟨h1, h2⟩ := all2_fields ih hp hf.2 hc h
      exact ⟨⟨fs, rfl, hd, h1⟩, by simp only [SVal.Named]; exact ⟨hf.1, h2⟩⟩
    | enum name variants =>
      obtain ⟨id, k, hm, h⟩ := h
      simp only [Ty.Parts] at hp
      have hp := PartsVariants_mem hp _ hm
      have hr := hf.2 _ hm
      have hds := hd.2 _ hm
      dsimp only at hp hr hds
      cases k with
      | unit => cases h; exact ⟨⟨id, .unit, hm, hd.1, rfl⟩, by simp only [SVal.Named]; exact ⟨hf.1, hr.1⟩⟩
      | newtype t =>
        obtain ⟨u, rfl, h⟩ := h
        simp only [Variant.Parts] at hp
        simp only [SVal.Canon] at hc
        obtain ⟨h1, h2⟩ := ih t u hp hc h
        exact ⟨⟨id, .newtype t, hm, hd.1, u, rfl, h1⟩, by simp only [SVal.Named]; exact ⟨hf.1, hr.1, h2⟩⟩
      | tuple ts =>
        obtain ⟨vs, rfl, h⟩ := h
        simp only [Variant.Parts] at hp
        simp only [SVal.Canon] at hc
        obtain ⟨h1, h2⟩ := all2_tys ih hp hc h
        exact ⟨⟨id, .tuple ts, hm, hd.1, vs, rfl, h1⟩, by simp only [SVal.Named]; exact ⟨hf.1, hr.1, h2⟩⟩
      | struct deny fields =>
        obtain ⟨fs, rfl, h⟩ := h
        simp only [Variant.Parts] at hp
        simp only [SVal.Canon] at hc
        obtain ⟨h1, h2⟩ := all2_fields ih hp (hr.2 _ _ rfl) hc h
        exact ⟨⟨id, .struct deny fields, hm, hd.1, fs, rfl, hds _ _ rfl, h1⟩, by simp only [SVal.Named]; exact ⟨hf.1, hr.1, h2⟩⟩
    | value => exact hf.elim
    | raw => exact hf.elim
    | ref i => exact ih _ _ (hD i) hc h

/-- What a whole document gives. -/
theorem fromStr_y {α : Type} {o : Options} {f : P α} {Q : α → Prop} (h : Y o.recursionLimit f Q) {t : Text} {a : α} (e : fromStr o f t = .ok a) : Q a := by
  unfold fromStr at e
  cases hr : readDoc o f (St.init t) with
  | err x s => rw [hr] at e; cases e
  | ok b s =>
    rw [hr] at e
    cases e
    unfold readDoc deNew at hr
    obtain ⟨_, s1, h1, hr⟩ := bind_ok hr
    obtain ⟨_, s0, h0, h1⟩ := bind_ok h1
    cases h0
    obtain ⟨_, s2, h2, h1⟩ := bind_ok h1
    cases h1
    obtain ⟨b, s3, h3, hr⟩ := bind_ok hr
    obtain ⟨_, s4, h4, hr⟩ := bind_ok hr
    cases hr
    have k : KeepLim parserNew := by
      intro s a s' e
      unfold parserNew at e
      obtain ⟨_, s1, e1, e⟩ := bind_ok e
      obtain ⟨_, s2, e2, e⟩ := bind_ok e
      cases e2
      have k1 : KeepLim skipWs := by repeat dw_step
      exact (DW.attributes (Φ := @KeepLim) _ _ _ _ e).trans (k1 _ _ _ e1)
    exact (h _ _ _ (by exact k _ _ _ h2) h3).2

end Ron
