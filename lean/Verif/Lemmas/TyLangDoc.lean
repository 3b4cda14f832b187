import Verif.Lemmas.TyLangSound
import Verif.Props.C23
/-!
# Documents of the language of a type
-/

namespace Ron

variable [Env]

/-- What is read as a document with a limit. -/
theorem fromStr_typed {o : Options} {m : Nat} (hm : o.recursionLimit = some m) {D : Nat → Ty} (hD : ∀ i, (D i).Every Ty.Described) {f : Nat} {T : Ty}
    (hT : T.Every Ty.Described) {t : Text} {v : SVal} (h : fromStr o (deTy D f T) t = .ok v) :
    ∃ l hdr e r, t = l ++ (hdr ++ r) ∧ Layout l ∧ Attrs hdr e ∧ (r ≠ [] ∧ NoLayoutStart r ∧ startsWith r ['#'] = false) ∧ ((e.union o.defaultExtensions).unwrapVariantNewtypes = false →
      ∃ w u, r = w ++ u ∧ TyLang D (e.union o.defaultExtensions) f T m w v ∧ NoLayoutStart r ∧ Trail u) := by
  unfold fromStr readDoc at h
  have hnew := deNew_out o t
  generalize hd : deNew o (St.init t) = res at hnew
  rw [bind_apply, hd] at h
  cases res with
  | err e s => cases h
  | ok _ s =>
    simp only at h hnew
    obtain ⟨i1, i2, i3, i4⟩ := hnew
    cases hv : deTy D f T s with
    | err e s => rw [bind_apply, hv] at h; cases h
    | ok v' s2 =>
      rw [bind_apply, hv] at h
      simp only at h
      cases he : deEnd s2 with
      | err e s => rw [bind_apply, he] at h; cases h
      | ok _ s3 =>
        rw [bind_apply, he] at h
        cases h
        unfold deEnd at he
        replace he := bind_ok he; obtain ⟨_, s4, h4, he⟩ := he
        rw [getSt_bind] at he
        have r4 : s4.rest = [] := by
          rcases ite_inv he with ⟨h, -⟩ | ⟨-, h⟩
          · exact List.isEmpty_iff.mp h
          · cases h
        unfold deNew at hd
        rw [bind_apply, modSt_apply] at hd
        simp only at hd
        replace hd := bind_ok hd; obtain ⟨_, s0, h0, hd⟩ := hd
        rw [modSt_apply] at hd
        cases hd
        obtain ⟨l, hdr, u, e, g1, g2, g3, g4, g5, -, g6⟩ := parserNew_sound h0
        simp only [St.init] at g1 g5
        have ge : s0.exts.union o.defaultExtensions = e.union o.defaultExtensions := by
          rw [g5, show Exts.empty.union e = e by cases e; simp [Exts.union, Exts.empty]]
        have hspot : Spot (e.union o.defaultExtensions) (some m) { s0 with exts := s0.exts.union o.defaultExtensions } :=
          hm ▸ ge ▸ (spot_new h0).1
        have hne : s0.rest ≠ [] := by
          have := (deTy_Fd D f T).eat _ i1 i4
          rw [hv] at this
          have := this.lt rfl
          intro e
          simp only [e] at this
          simp at this
        have hu : u = s0.rest ∧ NoLayoutStart u := by
          rcases g4 with h | ⟨-, h⟩
          · exact h
          · exact absurd h hne
        refine ⟨l, hdr, e, u, g1, g2, g3, ⟨hu.1 ▸ hne, hu.2, hu.1 ▸ g6⟩, fun hcl => ?_⟩
        obtain ⟨c2, x2, hs⟩ := deTy_snd hcl hD f T hT m _ _ _ hspot (show NoLayoutStart s0.rest from hu.1 ▸ hu.2) hv
        have hends : Ends s2.rest := ends_of_end h4 r4
        obtain ⟨w, u', k1, k2, l2, w', k3, rfl, k4⟩ := hs hends
        have hl2 : l2 = [] := by
          cases l2 with
          | nil => rfl
          | cons c l2 =>
            have hr := hu.2 c (l2 ++ w' ++ u') (by rw [hu.1]; simpa using k1)
            rcases k3.head with h | h
            · exact absurd h hr.1
            · exact absurd h hr.2
        subst hl2
        exact ⟨w', u', by rw [hu.1]; exact k1, k4, hu.2, behind_end k2 h4 r4⟩

/-- What is read as a document. -/
theorem fromStr_typed_any {o : Options} {D : Nat → Ty} (hD : ∀ i, (D i).Every Ty.Described) {f : Nat} {T : Ty}
    (hT : T.Every Ty.Described) {t : Text} {v : SVal} (h : fromStr o (deTy D f T) t = .ok v) :
    ∃ l hdr e r, t = l ++ (hdr ++ r) ∧ Layout l ∧ Attrs hdr e ∧ (r ≠ [] ∧ NoLayoutStart r ∧ startsWith r ['#'] = false) ∧ ((e.union o.defaultExtensions).unwrapVariantNewtypes = false →
      ∃ n w u, r = w ++ u ∧ TyLang D (e.union o.defaultExtensions) f T n w v ∧ (∀ m, o.recursionLimit = some m → n ≤ m) ∧ NoLayoutStart r ∧
        Trail u) := by
  cases hl : o.recursionLimit with
  | some m =>
    obtain ⟨l, hdr, e, r, h1, h2, h3, h0, h4⟩ := fromStr_typed hl hD hT h
    refine ⟨l, hdr, e, r, h1, h2, h3, h0, fun hc => ?_⟩
    obtain ⟨w, u, k1, k2, k3, k4⟩ := h4 hc
    exact ⟨m, w, u, k1, k2, fun m' hm' => by cases hm'; exact Nat.le_refl _, k3, k4⟩
  | none =>
    obtain ⟨k, hk⟩ := fromStr_lim (Lim.deTy (D := D) f T) o t
    have ho : o.withoutRecursionLimit = o := by
      unfold Options.withoutRecursionLimit; cases o; simp only at hl; subst hl; rfl
    have := (hk k).1 (Nat.le_refl _)
    rw [ho, h] at this
    obtain ⟨l, hdr, e, r, h1, h2, h3, h0, h4⟩ := fromStr_typed (o := o.withRecursionLimit k) rfl hD hT this
    refine ⟨l, hdr, e, r, h1, h2, h3, h0, fun hc => ?_⟩
    obtain ⟨w, u, k1, k2, k3, k4⟩ := h4 hc
    exact ⟨k, w, u, k1, k2, fun _ h => (nomatch h), k3, k4⟩

end Ron
