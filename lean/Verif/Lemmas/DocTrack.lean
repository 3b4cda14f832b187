import Verif.Lemmas.WsTrack
import Verif.Lemmas.SafeDoc
import Verif.Lemmas.Attr
/-!
# Where the layout before the value of a document began
-/

namespace Ron

/-- Layout has just been skipped: it is what the record says. -/
def WsDone (s : St) : Prop := ∃ l, Layout l ∧ s.preWs = l ++ s.rest ∧ s.lastWs = some l.length

theorem WsDone.tracked {s : St} (h : WsDone s) : Tracked s := fun _ => by
  obtain ⟨l, -, h2, h3⟩ := h
  exact ⟨_, h3, by rw [h2, List.length_append]; omega⟩

theorem WsDone.newPreWs {s : St} (h : WsDone s) : s.newPreWs = s.preWs := by
  obtain ⟨l, -, h2, h3⟩ := h
  unfold St.newPreWs
  rw [h3, h2, List.length_append]
  simp only [show ¬ s.rest.length + l.length < l.length + s.rest.length by omega, ↓reduceIte]

theorem skipWs_done {s s' : St} (hs : Moved s ∨ WsDone s) (h : skipWs s = .ok () s') (hne : s'.rest ≠ []) : WsDone s' := by
  obtain ⟨g1, ⟨-, g2, -⟩ | ⟨-, g2, -⟩ | ⟨-, g2, l, g3, g4, -⟩⟩ := skipWs_track h
  · exact absurd g2 hne
  · exact absurd g2 hne
  rcases hs with hs | hs
  · rw [hs.newPreWs] at g1
    refine ⟨l, g4, g1.trans g3, ?_⟩
    rw [g2, g1, g3, List.length_append]
    simp
  · rw [hs.newPreWs] at g1
    obtain ⟨l0, h1, h2, h3⟩ := hs
    refine ⟨l0 ++ l, h1.append g4, by rw [g1, h2, g3]; simp, ?_⟩
    rw [g2, g1, h2, g3]
    simp only [List.length_append, Option.some.injEq]
    omega

/-- A program that keeps to the text and to the record of the last layout. -/
def Tr {α : Type} (f : P α) : Prop := ∀ s s' a, s.Inside → Tracked s → f s = .ok a s' → s'.Inside ∧ Tracked s' ∧ s'.rest <:+ s.rest

theorem Sf.toTr {α : Type} {f : P α} (h : Sf f) : Tr f := fun _ _ _ hi ht e =>
  ⟨(h.safe.from hi e).inside, h.tr hi ht e, (h.safe.from hi e).rest⟩

theorem Tr.bind {α β : Type} {f : P α} {g : α → P β} (hf : Tr f) (hg : ∀ a, Tr (g a)) : Tr (f >>= g) := fun s s' a hi ht h => by
  obtain ⟨b, s1, h1, h2⟩ := bind_ok h
  obtain ⟨i1, t1, x1⟩ := hf _ _ _ hi ht h1
  obtain ⟨i2, t2, x2⟩ := hg _ _ _ _ i1 t1 h2
  exact ⟨i2, t2, x2.trans x1⟩

theorem Tr.pure {α : Type} (a : α) : Tr (Pure.pure a : P α) := (Sf.pure a).toTr
theorem Tr.fail {α : Type} (e : Err) : Tr (Ron.fail e : P α) := fun s s' a _ _ h => by cases h
theorem Tr.ite {α : Type} {c : Prop} [Decidable c] {f g : P α} (hf : Tr f) (hg : Tr g) : Tr (if c then f else g) := by
  split <;> assumption
theorem Tr.getSt : Tr Ron.getSt := fun s s' a hi ht h => by cases h; exact ⟨hi, ht, List.suffix_refl _⟩

theorem consumeAll_tr (ts : List Text) : ∀ acc, Tr (consumeAll ts acc) := by
  induction ts with
  | nil => intro acc; exact Tr.pure _
  | cons t ts ih =>
    intro acc
    unfold Ron.consumeAll
    exact (Sf.consumeStr t).toTr.bind fun _ => .ite (Sf.skipWs.toTr.bind fun _ => ih _) (ih _)

theorem consumeAll_acc (ts : List Text) : ∀ {s s' : St}, consumeAll ts false s = .ok true s' → False := by
  induction ts with
  | nil => intro s s' h; cases h
  | cons t ts ih =>
    intro s s' h
    unfold Ron.consumeAll at h
    obtain ⟨b, s1, -, h⟩ := bind_ok h
    rcases ite_inv h with ⟨-, h⟩ | ⟨-, h⟩
    · obtain ⟨_, s2, -, h⟩ := bind_ok h
      exact ih h
    · exact ih h

/-- After the last of the texts, layout is skipped. -/
theorem consumeAll_done (ts : List Text) (hn : ts ≠ []) (ht : ∀ t ∈ ts, t ≠ []) : ∀ {acc : Bool} {s s' : St}, s.Inside → Tracked s →
    consumeAll ts acc s = .ok true s' → s'.rest ≠ [] → WsDone s' := by
  induction ts with
  | nil => exact absurd rfl hn
  | cons t ts ih =>
    intro acc s s' hi htr h hne
    unfold Ron.consumeAll at h
    obtain ⟨b, s1, h1, h⟩ := bind_ok h
    obtain ⟨i1, t1, -⟩ := (Sf.consumeStr t).toTr _ _ _ hi htr h1
    rcases ite_inv h with ⟨hb, h⟩ | ⟨-, h⟩
    · obtain ⟨_, s2, h2, h⟩ := bind_ok h
      obtain ⟨i2, t2, -⟩ := Sf.skipWs.toTr _ _ _ i1 t1 h2
      cases ts with
      | nil =>
        cases h
        refine skipWs_done (.inl ?_) h2 hne
        refine Kw.moved (fun _ _ => Kw.consumeStr t) htr h1 ?_
        subst hb
        rcases consumeStr_inv h1 with ⟨-, hr, -⟩ | ⟨h, -⟩
        · rw [hr, List.length_append]
          have := List.length_pos_iff.mpr (ht t (by simp))
          omega
        · cases h
      | cons t' ts => exact ih (by simp) (fun u hu => ht u (by simp [hu])) i2 t2 h hne
    · exact (consumeAll_acc _ h).elim

variable [Env]

theorem extensionList_tr (f : Nat) : ∀ acc, Tr (extensionList f acc) := by
  induction f with
  | zero => intro acc; exact Tr.fail _
  | succ f ih =>
    intro acc
    unfold extensionList
    refine Sf.identifier.toTr.bind fun id => ?_
    split
    · exact Tr.fail _
    · refine Sf.comma.toTr.bind fun c => Tr.getSt.bind fun s => ?_
      exact .ite (Tr.fail _) (.ite (Tr.pure _) (ih _))

theorem docAttribute_done {s s' : St} {r : ParsedAttribute} (hi : s.Inside) (ht : Tracked s) (h : docAttribute s = .ok r s') :
    s'.Inside ∧ s'.rest <:+ s.rest ∧ Tracked s' ∧ (s'.rest ≠ [] → (r = .none ∧ s' = s) ∨ (r ≠ .none ∧ (Moved s' ∨ WsDone s'))) := by
  unfold docAttribute at h
  obtain ⟨b, s0, h0, h⟩ := bind_ok h
  cases h0
  rcases ite_inv h with ⟨-, h⟩ | ⟨-, h⟩
  · cases h
    exact ⟨hi, List.suffix_refl _, ht, fun _ => .inl ⟨rfl, rfl⟩⟩
  obtain ⟨b, s1, h1, h⟩ := bind_ok h
  obtain ⟨i1, t1, x1⟩ := consumeAll_tr _ _ _ _ _ hi ht h1
  rcases ite_inv h with ⟨-, h⟩ | ⟨-, h⟩
  · cases h
  obtain ⟨_, s2, h2, h⟩ := bind_ok h
  obtain ⟨i2, t2, x2⟩ := Sf.skipWs.toTr _ _ _ i1 t1 h2
  obtain ⟨b, s3, h3, h⟩ := bind_ok h
  obtain ⟨i3, t3, x3⟩ := (Sf.consumeIdent _).toTr _ _ _ i2 t2 h3
  rcases ite_inv h with ⟨-, h⟩ | ⟨-, h⟩
  · obtain ⟨_, s4, h4, h⟩ := bind_ok h
    obtain ⟨i4, t4, x4⟩ := Sf.skipWs.toTr _ _ _ i3 t3 h4
    obtain ⟨b, s5, h5, h⟩ := bind_ok h
    obtain ⟨i5, t5, x5⟩ := (Sf.consumeStr _).toTr _ _ _ i4 t4 h5
    rcases ite_inv h with ⟨-, h⟩ | ⟨-, h⟩
    · cases h
    obtain ⟨_, s6, h6, h⟩ := bind_ok h
    obtain ⟨i6, t6, x6⟩ := Sf.skipWs.toTr _ _ _ i5 t5 h6
    rw [getSt_bind] at h
    obtain ⟨e, s7, h7, h⟩ := bind_ok h
    obtain ⟨i7, t7, x7⟩ := extensionList_tr _ _ _ _ _ i6 t6 h7
    obtain ⟨_, s8, h8, h⟩ := bind_ok h
    obtain ⟨i8, t8, x8⟩ := Sf.skipWs.toTr _ _ _ i7 t7 h8
    obtain ⟨b, s9, h9, h⟩ := bind_ok h
    obtain ⟨i9, t9, x9⟩ := consumeAll_tr _ _ _ _ _ i8 t8 h9
    rcases ite_inv h with ⟨hb, h⟩ | ⟨-, h⟩
    · cases h
      subst hb
      exact ⟨i9, x9.trans (x8.trans (x7.trans (x6.trans (x5.trans (x4.trans (x3.trans (x2.trans x1))))))), t9,
        fun hne => .inr ⟨by simp, .inr (consumeAll_done _ (by simp) (by simp) i8 t8 h9 hne)⟩⟩
    · cases h
  · obtain ⟨ty, s4, h4, h⟩ := bind_ok h
    obtain ⟨i4, t4, x4⟩ := (Sf.consumeIdent _).toTr _ _ _ i3 t3 h4
    obtain ⟨b, s5, h5, h⟩ := bind_ok h
    obtain ⟨i5, t5, x5⟩ := (Tr.ite (Tr.pure _) (Sf.consumeIdent _).toTr) _ _ _ i4 t4 h5
    rcases ite_inv h with ⟨-, h⟩ | ⟨-, h⟩
    · obtain ⟨_, s6, h6, h⟩ := bind_ok h
      obtain ⟨i6, t6, x6⟩ := Sf.skipWs.toTr _ _ _ i5 t5 h6
      obtain ⟨b, s7, h7, h⟩ := bind_ok h
      obtain ⟨i7, t7, x7⟩ := (Sf.consumeStr _).toTr _ _ _ i6 t6 h7
      rcases ite_inv h with ⟨-, h⟩ | ⟨-, h⟩
      · cases h
      obtain ⟨_, s8, h8, h⟩ := bind_ok h
      obtain ⟨i8, t8, x8⟩ := Sf.skipWs.toTr _ _ _ i7 t7 h8
      obtain ⟨_, s9, h9, h⟩ := bind_ok h
      obtain ⟨i9, t9, x9⟩ := Sf.string.toTr _ _ _ i8 t8 h9
      obtain ⟨_, s10, h10, h⟩ := bind_ok h
      obtain ⟨i10, t10, x10⟩ := Sf.skipWs.toTr _ _ _ i9 t9 h10
      obtain ⟨b, s11, h11, h⟩ := bind_ok h
      obtain ⟨i11, t11, x11⟩ := (Sf.consumeStr _).toTr _ _ _ i10 t10 h11
      rcases ite_inv h with ⟨hb, h⟩ | ⟨-, h⟩
      · cases h
        subst hb
        refine ⟨i11, x11.trans (x10.trans (x9.trans (x8.trans (x7.trans (x6.trans (x5.trans (x4.trans (x3.trans (x2.trans x1))))))))), t11,
          fun hne => .inr ⟨by simp, .inl (Kw.moved (fun _ _ => Kw.consumeStr _) t10 h11 ?_)⟩⟩
        rcases consumeStr_inv h11 with ⟨-, hr, -⟩ | ⟨h, -⟩
        · rw [hr, List.length_append]; simp
        · cases h
      · cases h
    · cases h

theorem attributes_done (f : Nat) : ∀ {s s' : St}, s.Inside → Tracked s → (s.rest ≠ [] → WsDone s) → attributes f s = .ok () s' →
    s'.rest <:+ s.rest ∧ (s'.rest ≠ [] → WsDone s') := by
  induction f with
  | zero => intro s s' _ _ _ h; cases h
  | succ f ih =>
    intro s s' hi ht hw h
    unfold attributes at h
    obtain ⟨r, s1, h1, h⟩ := bind_ok h
    obtain ⟨i1, x1, t1, d1⟩ := docAttribute_done hi ht h1
    have step : ∀ {s2 s3 : St}, s2.Inside → Tracked s2 → s2.rest = s1.rest → (s2.rest ≠ [] → Moved s2 ∨ WsDone s2) →
        skipWs s2 = .ok () s3 → attributes f s3 = .ok () s' → s'.rest <:+ s.rest ∧ (s'.rest ≠ [] → WsDone s') := by
      intro s2 s3 i2 t2 e2 d2 h2 h
      obtain ⟨i3, t3, x3⟩ := Sf.skipWs.toTr _ _ _ i2 t2 h2
      obtain ⟨x4, d4⟩ := ih i3 t3 (fun hne => skipWs_done (d2 (suffix_ne x3 hne)) h2 hne) h
      rw [e2] at x3
      exact ⟨x4.trans (x3.trans x1), d4⟩
    cases r with
    | none =>
      cases h
      refine ⟨x1, fun hne => ?_⟩
      rcases d1 hne with ⟨-, rfl⟩ | ⟨h, -⟩
      · exact hw hne
      · exact absurd rfl h
    | extensions e =>
      obtain ⟨_, s2, h2, h⟩ := bind_ok h
      rw [modSt_apply] at h2
      cases h2
      obtain ⟨_, s3, h3, h⟩ := bind_ok h
      refine step (s2 := { s1 with exts := s1.exts.union e }) ⟨i1.rest, i1.prev, i1.preWs⟩ t1 rfl (fun hne => ?_) h3 h
      rcases d1 hne with ⟨h, -⟩ | ⟨-, h⟩
      · cases h
      · exact h
    | ignored =>
      obtain ⟨_, s3, h3, h⟩ := bind_ok h
      refine step i1 t1 rfl (fun hne => ?_) h3 h
      rcases d1 hne with ⟨h, -⟩ | ⟨-, h⟩
      · cases h
      · exact h

/-- Before the value of a document: the layout since the header, or since the beginning, is recorded. -/
theorem parserNew_done {s s' : St} (hi : s.Inside) (hs : WsDone s) (h : parserNew s = .ok () s') (hne : s'.rest ≠ []) : WsDone s' := by
  unfold parserNew at h
  obtain ⟨_, s1, h1, h⟩ := bind_ok h
  rw [getSt_bind] at h
  obtain ⟨i1, t1, x1⟩ := Sf.skipWs.toTr _ _ _ hi hs.tracked h1
  exact (attributes_done _ i1 t1 (fun hn => skipWs_done (.inr hs) h1 hn) h).2 hne

end Ron
