import Verif.Lemmas.LangSound
import Verif.Lemmas.Doc
import Verif.Lemmas.SafeDoc
import Verif.Lemmas.DocTrack
/-!
# Documents of the language
-/

namespace Ron

variable [Env]

theorem langX_reads_value {x : Exts} (hx : x.unwrapVariantNewtypes = false) {n : Nat} {w : Text} {V : Value} (h : LangX x.implicitSome n w V) :
    Reads x n deValue w V := by
  have h' : ∃ m, m ≤ n ∧ m ≤ w.length ∧ LangX x.implicitSome m w V := by
    by_cases hn : n ≤ w.length
    · exact ⟨n, Nat.le_refl _, hn, h⟩
    · exact ⟨w.length, by omega, Nat.le_refl _, gramX_length h⟩
  obtain ⟨m, hm, hl, hd⟩ := h'
  refine Reads.mono ?_ hm
  refine ⟨(langX_reads hx _ _ (Nat.lt_succ_self m) _ _ hd).1.1, fun d l q hp hdr hla hq => ?_⟩
  have := (langX_reads hx _ (2 * d.rest.length + 2) (by rw [hdr]; simp; omega) _ _ hd).1.2 d l q hp hdr hla hq
  obtain ⟨s', l', h1, h2⟩ := this
  refine ⟨s', l', ?_, h2⟩
  unfold deValue
  simp only [bind_apply, getSt_apply, h1]

theorem lang_reads_value {x : Exts} (hx : x.unwrapVariantNewtypes = false) {n : Nat} {w : Text} {V : Value} (h : Lang n w V) :
    Reads x n deValue w V := langX_reads_value hx (langX_of h)

/-- What is read as a `Value` is a text of the language. -/
theorem deValue_snd {x : Exts} (hx : x.unwrapVariantNewtypes = false) {L : Option Nat} {s s' : St} {v : Value} (hc : Spot x L s)
    (hl : NoLayoutStart s.rest) (h : deValue s = .ok v s') :
    Spot x L s' ∧ s'.rest <:+ s.rest ∧ (Ends s'.rest → ∃ n t u, s.rest = t ++ u ∧ Behind x.implicitSome t u s' ∧
      LangX x.implicitSome n t v ∧ ∀ m, L = some m → n ≤ m) := by
  unfold deValue at h
  rw [getSt_bind] at h
  obtain ⟨h1, h2, h3⟩ := deAny_snd hx _ L s v s' hc hl h
  refine ⟨h1, h2, fun he => ?_⟩
  obtain ⟨t, u, g1, g2, g3⟩ := h3 he
  exact ⟨_, t, u, g1, g2, g3, fun m hm => by rw [hm]; exact Nat.le_refl _⟩

/-- Layout skipped behind a value is recorded to begin right behind its text. -/
theorem Behind.after {i : Bool} {t u : Text} {s s' : St} (h : Behind i t u s) (hw : skipWs s = .ok () s') :
    s'.preWs = u ∧ ((∃ l k, Layout l ∧ u = l ++ s'.rest ∧ s'.lastWs = some k) ∨
      (s'.rest = [] ∧ s'.lastWs = none ∧ ∃ l o, Layout l ∧ OpenLine o ∧ u = l ++ o)) := by
  obtain ⟨p1, p2⟩ := skipWs_track hw
  rcases h with ⟨rfl, hm⟩ | ⟨-, h1, ⟨l, k, h2, h3, h4, h5⟩ | ⟨h2, h3, l, o, h4, h5, h6⟩⟩
  · refine ⟨p1.trans hm.newPreWs, ?_⟩
    rcases p2 with ⟨q1, q2, q3⟩ | ⟨-, q1, q2, l, o, q3, q4, q5⟩ | ⟨-, q1, l, q2, q3, -⟩
    · obtain ⟨k, k1, -⟩ := hm
      exact .inl ⟨[], k, .nil, by rw [q1, q2]; rfl, q3.trans k1⟩
    · exact .inr ⟨q1, q2, l, o, q4, q5, q3⟩
    · exact .inl ⟨l, _, q3, q2, q1⟩
  · have hn : s.newPreWs = u := by
      unfold St.newPreWs
      rw [h4, h1]
      simp only [show ¬ s.rest.length + k < u.length by omega, ↓reduceIte]
    refine ⟨p1.trans hn, ?_⟩
    rcases p2 with ⟨q1, q2, q3⟩ | ⟨-, q1, q2, l', o, q3, q4, q5⟩ | ⟨-, q1, l', q2, q3, -⟩
    · exact .inl ⟨l, k, h2, by rw [h3, q1, q2], q3.trans h4⟩
    · exact .inr ⟨q1, q2, l ++ l', o, h2.append q4, q5, by rw [h3, q3]; simp⟩
    · exact .inl ⟨l ++ l', _, h2.append q3, by rw [h3, q2]; simp, q1⟩
  · have hn : s.newPreWs = u := by
      unfold St.newPreWs
      rw [h3, h1]
    refine ⟨p1.trans hn, ?_⟩
    rcases p2 with ⟨q1, q2, q3⟩ | ⟨q1, -⟩ | ⟨q1, -⟩
    · exact .inr ⟨q2, q3.trans h3, l, o, h4, h5, h6⟩
    · exact absurd h2 q1
    · exact absurd h2 q1

/-- Behind the end of the input nothing but layout was skipped. -/
theorem behind_end {i : Bool} {t u : Text} {s s' : St} (h : Behind i t u s) (hw : skipWs s = .ok () s') (he : s'.rest = []) : Trail u := by
  obtain ⟨-, ⟨l, k, h1, h2, -⟩ | ⟨-, -, h⟩⟩ := h.after hw
  · rw [h2, he, List.append_nil]
    exact .inl h1
  · exact .inr h

omit [Env] in
/-- Where nothing is left behind layout, values may end. -/
theorem ends_of_end {s s' : St} (h4 : skipWs s = .ok () s') (r4 : s'.rest = []) : Ends s.rest := by
  obtain ⟨-, ⟨l', m1, m2, -⟩ | ⟨-, -, l', o', m2, m3, m4⟩⟩ := skipWs_inv h4
  · rw [m1, r4]
    exact ends_follow m2 (.inl rfl)
  · rw [m2]
    obtain ⟨b, rfl, -⟩ := m4
    cases l' with
    | nil => exact .inr ⟨'/', _, rfl, by decide⟩
    | cons c l' =>
      refine .inr ⟨c, _, rfl, ?_⟩
      rcases m3.head with h | rfl
      · exact List.mem_append_left _ h
      · decide

/-- The state before the value of a document. -/
theorem spot_new {o : Options} {t : Text} {s0 : St} (h0 : parserNew { St.init t with limit := o.recursionLimit } = .ok () s0) :
    Spot (s0.exts.union o.defaultExtensions) o.recursionLimit { s0 with exts := s0.exts.union o.defaultExtensions } ∧
      (s0.rest ≠ [] → WsDone s0) := by
  have hd : deNew o (St.init t) = .ok () { s0 with exts := s0.exts.union o.defaultExtensions } := by
    unfold deNew
    simp only [bind_apply, modSt_apply, h0]
  have hnew := deNew_out o t
  rw [hd] at hnew
  obtain ⟨i1, i2, i3, i4⟩ := hnew
  have hw : s0.rest ≠ [] → WsDone s0 := fun hne => parserNew_done (s := { St.init t with limit := o.recursionLimit })
    ⟨List.suffix_refl _, List.suffix_refl _, List.suffix_refl _⟩ ⟨[], .nil, rfl, rfl⟩ h0 hne
  exact ⟨⟨i1, fun hne => (hw hne).tracked hne, i4, rfl, i3⟩, hw⟩

/-- What is read as a document. -/
theorem fromStr_sound {o : Options} {t : Text} {v : Value} (h : fromStr o deValue t = .ok v) :
    ∃ l hdr e r, t = l ++ (hdr ++ r) ∧ Layout l ∧ Attrs hdr e ∧ ((e.union o.defaultExtensions).unwrapVariantNewtypes = false →
      ∃ n w u, r = w ++ u ∧ LangX (e.union o.defaultExtensions).implicitSome n w v ∧ (∀ m, o.recursionLimit = some m → n ≤ m) ∧ Trail u) := by
  unfold fromStr readDoc at h
  have hnew := deNew_out o t
  generalize hd : deNew o (St.init t) = res at hnew
  rw [bind_apply, hd] at h
  cases res with
  | err e s => cases h
  | ok _ s =>
    simp only at h hnew
    obtain ⟨i1, i2, i3, i4⟩ := hnew
    cases hv : deValue s with
    | err e s => rw [bind_apply, hv] at h; cases h
    | ok v' s2 =>
      rw [bind_apply, hv] at h
      simp only at h
      cases he : deEnd s2 with
      | err e s => rw [bind_apply, he] at h; cases h
      | ok _ s3 =>
        rw [bind_apply, he] at h
        cases h
        unfold deEnd at he
        replace he := bind_ok he; obtain ⟨_, s4, h4, he⟩ := he
        rw [getSt_bind] at he
        have r4 : s4.rest = [] := by
          rcases ite_inv he with ⟨h, -⟩ | ⟨-, h⟩
          · exact List.isEmpty_iff.mp h
          · cases h
        unfold deNew at hd
        rw [bind_apply, modSt_apply] at hd
        simp only at hd
        replace hd := bind_ok hd; obtain ⟨_, s0, h0, hd⟩ := hd
        rw [modSt_apply] at hd
        cases hd
        obtain ⟨l, hdr, u, e, g1, g2, g3, g4, g5, -, -⟩ := parserNew_sound h0
        simp only [St.init] at g1 g5
        have ge : s0.exts.union o.defaultExtensions = e.union o.defaultExtensions := by
          rw [g5, show Exts.empty.union e = e by cases e; simp [Exts.union, Exts.empty]]
        have hspot : Spot (e.union o.defaultExtensions) o.recursionLimit { s0 with exts := s0.exts.union o.defaultExtensions } :=
          ge ▸ (spot_new h0).1
        have hne : s0.rest ≠ [] := by
          have := deValue_Fd.eat _ i1 i4
          rw [hv] at this
          have := this.lt rfl
          intro e
          simp only [e] at this
          simp at this
        obtain ⟨hu, hnl⟩ : u = s0.rest ∧ NoLayoutStart s0.rest := by
          rcases g4 with ⟨h, h'⟩ | ⟨-, h⟩
          · exact ⟨h, h ▸ h'⟩
          · exact absurd h hne
        refine ⟨l, hdr, e, u, g1, g2, g3, fun hcl => ?_⟩
        obtain ⟨c2, x2, hs⟩ := deValue_snd hcl hspot hnl hv
        have hends : Ends s2.rest := ends_of_end h4 r4
        obtain ⟨n, w, u', k1, k2, k3, k4⟩ := hs hends
        exact ⟨n, w, u', by rw [hu]; exact k1, k3, k4, behind_end k2 h4 r4⟩

end Ron
