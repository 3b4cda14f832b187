import Verif.Lemmas.LangDoc
import Verif.Model.Raw
/-!
# Raw values
-/

namespace Ron

variable [Env]

/-- What `from_ron` and `trim` do first: one value is read, from the state `s0` before the layout in front of it; layout was skipped in
front of it (`s1`), it was read (`s2`) and layout was skipped behind it (`s4`). -/
structure RawRun (t : Text) (v : Value) (s0 s1 s2 s4 : St) : Prop where
  new : deNew {} (St.init t) = .ok () s0
  before : skipWs s0 = .ok () s1
  value : deValue s1 = .ok v s2
  behind : skipWs s2 = .ok () s4

/-- Where the parts are. -/
theorem RawRun.parts {t : Text} {v : Value} {s0 s1 s2 s4 : St} (h : RawRun t v s0 s1 s2 s4) (he : s0.exts = .empty) (hend : s4.rest = []) :
    ∃ l hdr w u n, t = l ++ (hdr ++ (w ++ u)) ∧ Layout l ∧ Attrs hdr .empty ∧ Lang n w v ∧ n ≤ 128 ∧
      s1.rest = w ++ u ∧ Behind false w u s2 ∧ Spot .empty (some 128) s1 ∧ WsDone s1 := by
  obtain ⟨hd, hb, hv, hbe⟩ := h
  unfold deNew at hd
  rw [bind_apply, modSt_apply] at hd
  simp only at hd
  replace hd := bind_ok hd; obtain ⟨_, p0, h0, hd⟩ := hd
  rw [modSt_apply] at hd
  cases hd
  obtain ⟨l, hdr, u, e, g1, g2, g3, g4, g5, -, -⟩ := parserNew_sound h0
  simp only [St.init] at g1 g5
  have ge : p0.exts.union {} = e := by
    rw [g5]
    cases e
    simp [Exts.union, Exts.empty]
  obtain ⟨sp, wd⟩ := spot_new (o := {}) h0
  simp only at he sp
  rw [he] at ge sp hb
  subst ge
  obtain ⟨c1, x1⟩ := Sf.skipWs.spot sp hb
  have hne1 : s1.rest ≠ [] := by
    have := deValue_Fd.eat _ c1.inside c1.nv
    rw [hv] at this
    have := this.lt rfl
    intro e
    simp only [e] at this
    simp at this
  have hne : p0.rest ≠ [] := suffix_ne x1 hne1
  obtain ⟨rfl, hnl⟩ : u = p0.rest ∧ NoLayoutStart p0.rest := by
    rcases g4 with ⟨h, h'⟩ | ⟨-, h⟩
    · exact ⟨h, h ▸ h'⟩
    · exact absurd h hne
  have r1 : s1.rest = p0.rest := by
    obtain ⟨-, l', m1, m2, -⟩ := skipWs_inv_ne hb hne1
    have m1 : p0.rest = l' ++ s1.rest := m1
    rw [m1] at hnl
    have : l' = [] := Stuck.nil_of_layout (.inl hnl) m2
    rw [m1, this]
    rfl
  have wd1 : WsDone s1 := skipWs_done (s := { p0 with exts := .empty }) (.inr (wd hne)) hb hne1
  obtain ⟨c2, x2, hs⟩ := deValue_snd rfl c1 (skipWs_noLayout hb) hv
  obtain ⟨n, w, u', k1, k2, k3, k4⟩ := hs (ends_of_end hbe hend)
  exact ⟨l, hdr, w, u', n, by rw [g1, ← r1, k1], g2, g3, langX_plain.mp k3, k4 128 rfl, k1, k2, c1, wd1⟩

theorem deIgnored_inv {s s' : St} {a : Unit} (h : deIgnored s = .ok a s') : ∃ v, deValue s = .ok v s' := by
  unfold deIgnored at h
  obtain ⟨v, s1, h1, h⟩ := bind_ok h
  cases h
  exact ⟨v, h1⟩

/-- What is accepted. -/
theorem rawFromRon_inv {t t' : Text} (h : rawFromRon t = .ok t') :
    t' = t ∧ ∃ v s0 s1 s2 s4, RawRun t v s0 s1 s2 s4 ∧ s0.exts = .empty ∧ s4.rest = [] ∧ s4.lastWs ≠ none := by
  unfold rawFromRon at h
  generalize hr : rawProg (St.init t) = r at h
  cases r with
  | err e s => cases h
  | ok _ s' =>
    cases h
    refine ⟨rfl, ?_⟩
    unfold rawProg at hr
    obtain ⟨_, s0, h0, hr⟩ := bind_ok hr
    rw [getSt_bind] at hr
    rcases ite_inv hr with ⟨-, hr⟩ | ⟨he, hr⟩
    · cases hr
    obtain ⟨ron, s5, h5, hr⟩ := bind_ok hr
    unfold deRaw at h5
    rw [getSt_bind] at h5
    obtain ⟨_, s1, h1, h5⟩ := bind_ok h5
    obtain ⟨_, s2, h2, h5⟩ := bind_ok h5
    obtain ⟨_, s4, h4, h5⟩ := bind_ok h5
    obtain ⟨v, hv⟩ := deIgnored_inv h2
    replace h5 := bind_ok h5; obtain ⟨b, s4', hb, h5⟩ := h5
    cases hb
    rcases ite_inv h5 with ⟨-, h5⟩ | ⟨hun, h5⟩
    · cases h5
    rw [getSt_bind] at h5
    have hs5 : s5 = s4 := by
      generalize fromStr {} deIgnored _ = res at h5
      cases res with
      | ok _ => cases h5; rfl
      | error _ => cases h5
    subst hs5
    have hend : s5.rest = [] := by
      unfold deEnd at hr
      obtain ⟨_, s6, h6, hr⟩ := bind_ok hr
      rw [getSt_bind] at hr
      have r6 : s6.rest = [] := by
        rcases ite_inv hr with ⟨h, -⟩ | ⟨-, h⟩
        · exact List.isEmpty_iff.mp h
        · cases h
      obtain ⟨-, ⟨g2, g3, -⟩ | ⟨-, g3, -⟩ | ⟨-, -, l, -, -, g3⟩⟩ := skipWs_track h4
      · exact g3
      · exact g3
      · obtain ⟨-, ⟨l', m1, m2, -⟩ | ⟨-, -, l', o', m2, m3, b, rfl, -⟩⟩ := skipWs_inv h6
        · rw [m1, r6] at g3
          rw [m1, r6, Stuck.nil_of_layout (.inl g3) m2]
          rfl
        · exfalso
          rw [m2] at g3
          rw [Stuck.nil_of_layout (.inl g3) m3] at g3
          exact (g3 '/' _ rfl).2 rfl
    refine ⟨v, s0, s1, s2, s5, ⟨h0, h1, hv, h4⟩, by simpa using he, hend, fun hl => hun ?_⟩
    simp [hend, hl]

/-- The run that was accepted is the one of `trim`. -/
theorem RawRun.trim {t : Text} {v : Value} {s0 s1 s2 s4 : St} (h : RawRun t v s0 s1 s2 s4) :
    trimRange t = .ok (t.length - s1.rest.length, t.length - s4.preWs.length) := by
  obtain ⟨hd, hb, hv, hbe⟩ := h
  unfold trimRange trimRangeInner deIgnored
  simp only [bind_apply, hd, hb, getSt_apply, hv, pure_apply, hbe]

/-- An accepted text: its parts, and what `trim` gives. -/
theorem raw_parts {t t' : Text} (h : rawFromRon t = .ok t') :
    ∃ l hdr w u n v, t = l ++ (hdr ++ (w ++ u)) ∧ Layout l ∧ Attrs hdr .empty ∧ Lang n w v ∧ n ≤ 128 ∧ Layout u ∧
      trimRange t = .ok ((l ++ hdr).length, (l ++ hdr ++ w).length) := by
  obtain ⟨-, v, s0, s1, s2, s4, hr, he, hend, hl⟩ := rawFromRon_inv h
  obtain ⟨l, hdr, w, u, n, h1, h2, h3, h4, h5, h6, h7, h8, h9⟩ := hr.parts he hend
  obtain ⟨k1, ⟨l', k, k2, k3, -⟩ | ⟨-, k2, -⟩⟩ := h7.after hr.behind
  · rw [hend, List.append_nil] at k3
    subst k3
    refine ⟨l, hdr, w, u, n, v, h1, h2, h3, h4, h5, k2, ?_⟩
    rw [hr.trim, h6, k1, h1]
    simp only [List.length_append, Except.ok.injEq, Prod.mk.injEq]
    omega
  · exact absurd k2 hl

/-! ### What is accepted -/

theorem gram_unit {m : Nat} {w : Text} (h : Lang m w .unit) : Tok w .unit := by
  match m, h with
  | 0, h => exact h
  | 1, h => cases h with | scalar h => exact h
  | m + 2, h => cases h with | scalar h => exact h

theorem openLine_follow {u : Text} (h : OpenLine u) : IdentFollow u := by
  obtain ⟨b, rfl, -⟩ := h
  exact follow_cons (by decide) (by decide) (by decide) (by decide) (by decide)

/-- Every document that enables no extension is accepted. -/
theorem raw_accepts {l hdr w l' : Text} {n : Nat} {v : Value} (hl : Layout l) (hh : Attrs hdr .empty) (hw : Lang n w v) (hn : n ≤ 128)
    (hl' : Layout l') : rawFromRon (l ++ (hdr ++ (w ++ l'))) = .ok (l ++ (hdr ++ (w ++ l'))) := by
  have hr := lang_reads_value (x := .empty) rfl hw
  obtain ⟨p0, h0, r0, e0, -, n0, -, m0⟩ := parserNew_ok hl hh (hr.1.noLayout l') (hr.1.noHash l')
    { St.init (l ++ (hdr ++ (w ++ l'))) with limit := some 128 } (by simp [St.init])
  obtain ⟨sp, wd⟩ := spot_new (o := {}) (t := l ++ (hdr ++ (w ++ l'))) h0
  have hx : p0.exts.union {} = .empty := by rw [e0]; rfl
  have hnew : deNew {} (St.init (l ++ (hdr ++ (w ++ l')))) = .ok () { p0 with exts := .empty } := by
    unfold deNew
    simp only [bind_apply, modSt_apply]
    rw [show ({ St.init (l ++ (hdr ++ (w ++ l'))) with limit := ({} : Options).recursionLimit } : St) =
      { St.init (l ++ (hdr ++ (w ++ l'))) with limit := some 128 } from rfl, h0]
    simp only
    rw [hx]
  rw [hx] at sp
  generalize hs0 : ({ p0 with exts := .empty } : St) = s0 at sp hnew
  have r0' : s0.rest = w ++ l' := by rw [← hs0]; exact r0
  have wd0 : WsDone s0 := by
    rw [← hs0]
    exact wd (by rw [r0]; simp [hr.1.ne])
  obtain ⟨s1, h1, r1, -⟩ := skipWs_ok (l := []) (by rw [r0']; rfl) .nil (hr.1.noLayout l')
  obtain ⟨c1, -⟩ := Sf.skipWs.spot sp h1
  obtain ⟨s2, l2, h2, r2, k2, -⟩ := hr.2 s1 l' [] ⟨c1.nv, c1.exts, fun m hm => by
    have := c1.limit.symm.trans hm
    cases this
    exact hn⟩ (by simpa using r1) hl' (.inl rfl)
  obtain ⟨s4, h4, r4, -⟩ := skipWs_ok r2 k2 (fun c r e => by cases e)
  have run : RawRun (l ++ (hdr ++ (w ++ l'))) v s0 s1 s2 s4 := ⟨hnew, h1, h2, h4⟩
  have hx0 : s0.exts = .empty := by rw [← hs0]
  obtain ⟨la, ha, w', u', n', q1, q2, q3, q4, q5, q6, q7, q8, q9⟩ := run.parts hx0 r4
  have hlast : s4.lastWs ≠ none := by
    intro hnone
    obtain ⟨q0, ⟨_, _, _, _, h⟩ | ⟨-, -, l3, o3, hl3, ho3, hu3⟩⟩ := q7.after h4
    · rw [hnone] at h; cases h
    have e1 : w ++ l' = w' ++ u' := by rw [← r1, q6]
    -- the comment is not behind something that is not a name
    have hname : s2.lastWs = none ∧ ∃ nm, NameTok nm w' := by
      obtain ⟨-, ⟨-, -, h⟩ | ⟨-, -, -, l5, o5, e5, hl5, ho5⟩ | ⟨-, h, -⟩⟩ := skipWs_track h4
      · refine ⟨h.symm.trans hnone, ?_⟩
        rcases q7 with ⟨-, k, hk, -⟩ | ⟨h, -⟩
        · rw [← h, hnone] at hk; cases hk
        · exact h.resolve_left (by simp)
      · rw [List.append_nil] at r2
        rw [r2] at e5
        obtain ⟨-, e⟩ := layout_unique (u := []) k2 hl5 (.inl fun c r e => by cases e) (.inr (.inl ho5)) (by simpa using e5)
        obtain ⟨b, rfl, -⟩ := ho5
        cases e
      · rw [hnone] at h; cases h
    obtain ⟨hs2, nm, hnm⟩ := hname
    have hv : v = .unit := by
      have a := (lang_reads_value (x := .empty) rfl q4).2 { St.init w' with limit := none } [] []
        ⟨rfl, rfl, fun m hm => by cases hm⟩ (by simp [St.init]) .nil (.inl rfl)
      have b := (lang_reads_value (x := .empty) rfl (show Lang 0 w' .unit from Tok.name hnm)).2 { St.init w' with limit := none } [] []
        ⟨rfl, rfl, fun m hm => by cases hm⟩ (by simp [St.init]) .nil (.inl rfl)
      obtain ⟨_, _, a, -⟩ := a
      obtain ⟨_, _, b, -⟩ := b
      rw [a] at b
      cases b
      rfl
    subst hv
    have hu' : IdentFollow u' := by rw [hu3]; exact layout_follow hl3 (openLine_follow ho3)
    have hcl : IdentFollow l' := by simpa using follow_ident hl' (q := []) (.inl rfl)
    cases gram_unit hw with
    | unit =>
      obtain ⟨c, x, rfl, hc⟩ := hnm.noParen
      simp only [List.cons_append, List.cons.injEq] at e1
      exact hc e1.1.symm
    | num hh hv =>
      have hd : deValue s1 = numeric s1 := by
        unfold deValue
        rw [bind_apply, getSt_apply]
        show anyBody _ s1 = _
        rw [anyBody_plain c1.nv, anyPlain_numeric (by rw [r1]; exact numHead_append hh (by simpa using ends_follow hl' (q := []) (.inl rfl)))]
      have := Kw.numeric (p := s1.preWs) (k := s1.lastWs) s1 rfl rfl
      rw [← hd, h2] at this
      obtain ⟨k, hk, -⟩ := c1.tracked (by rw [r1]; simp [hr.1.ne])
      have := this.2.trans hk
      rw [show (Res.ok Value.unit s2).st.lastWs = s2.lastWs from rfl, hs2] at this
      cases this
    | name hnm' =>
      obtain ⟨a1, b1, b2, -⟩ := hnm'.skips (d := St.init (w ++ l')) hcl rfl
      obtain ⟨a2, d1, d2, -⟩ := hnm.skips (d := St.init (w ++ l')) hu' (by simp only [St.init]; exact e1)
      rw [b1] at d1
      cases d1
      have : l' = u' := b2.symm.trans d2
      subst this
      obtain ⟨-, e⟩ := layout_unique (u := []) hl' hl3 (.inl fun c r e => by cases e) (.inr (.inl ho3)) (by simpa using hu3)
      obtain ⟨b, rfl, -⟩ := ho3
      cases e
  -- the text that is checked again
  obtain ⟨l5, w1, w2, w3⟩ := wd0
  have hchk : fromStr {} deIgnored s0.preWs = .ok () := by
    have : Reads .empty n deIgnored w () := by
      refine ⟨hr.1, fun d l q hp hd hl hq => ?_⟩
      obtain ⟨s', l'', e1, e2⟩ := hr.2 d l q hp hd hl hq
      refine ⟨s', l'', ?_, e2⟩
      unfold deIgnored
      rw [bind_apply, e1]
      rfl
    rw [w2, r0']
    exact doc_reads (hdr := []) (e := .empty) this w1 .nil rfl (fun m hm => by cases hm; exact hn) hl'
  have hraw : deRaw s0 = .ok s0.preWs s4 := by
    have ht : s0.preWs.take (s0.preWs.length - s4.rest.length) = s0.preWs := by rw [r4]; simp
    unfold deRaw deIgnored
    simp only [bind_apply, getSt_apply, h1, h2, pure_apply, h4, hasUnclosedLineComment, r4]
    cases hk : s4.lastWs with
    | none => exact absurd hk hlast
    | some k =>
      simp only [Option.isNone_some, Bool.and_false, Bool.false_eq_true, ↓reduceIte, bind_apply, getSt_apply, r4, List.length_nil,
        Nat.sub_zero, List.take_length]
      have hchk := hchk
      unfold deIgnored at hchk
      rw [hchk]
      rfl
  have hend : ∃ s5, deEnd s4 = .ok () s5 := by
    obtain ⟨s5, h5, r5, -⟩ := skipWs_ok (s := s4) (l := []) (r := []) (by rw [r4]; rfl) .nil (fun c r e => by cases e)
    refine ⟨s5, ?_⟩
    unfold deEnd
    simp only [bind_apply, h5, getSt_apply, r5, List.isEmpty_nil, ↓reduceIte, pure_apply]
  obtain ⟨s5, h5⟩ := hend
  unfold rawFromRon rawProg
  simp only [bind_apply, hnew, getSt_apply, hx0, ne_eq, not_true_eq_false, ↓reduceIte, hraw, h5, spanned]

/-! ### How texts end -/

omit [Env] in
theorem blockTail_last {n : Nat} {b : Text} (h : BlockTail n b) (hn : n ≠ 0) : ∃ u, b = u ++ ['/'] := by
  induction h with
  | done => exact absurd rfl hn
  | opens _ ih =>
    obtain ⟨u, rfl⟩ := ih (by omega)
    exact ⟨'/' :: '*' :: u, rfl⟩
  | @closes n b h ih =>
    cases n with
    | zero => cases h; exact ⟨['*'], rfl⟩
    | succ n =>
      obtain ⟨u, rfl⟩ := ih (by omega)
      exact ⟨'*' :: '/' :: u, rfl⟩
  | @other n c b _ _ _ ih =>
    obtain ⟨u, rfl⟩ := ih (by omega)
    exact ⟨c :: u, rfl⟩

omit [Env] in
/-- Layout ends with white space or with the end of a comment. -/
theorem layout_last {l : Text} (h : Layout l) (hn : l ≠ []) : ∃ u c, l = u ++ [c] ∧ (c ∈ ronWhitespace ∨ c = '/') := by
  induction h with
  | nil => exact absurd rfl hn
  | @ws c l hc h ih =>
    cases l with
    | nil => exact ⟨[], c, rfl, .inl hc⟩
    | cons d l =>
      obtain ⟨u, c', e, hc'⟩ := ih (by simp)
      exact ⟨c :: u, c', by rw [e]; rfl, hc'⟩
  | @line b l hb h ih =>
    cases l with
    | nil => exact ⟨'/' :: '/' :: b, '\n', rfl, .inl (by decide)⟩
    | cons d l =>
      obtain ⟨u, c', e, hc'⟩ := ih (by simp)
      exact ⟨'/' :: '/' :: (b ++ '\n' :: u), c', by rw [e]; simp, hc'⟩
  | @block b l hb h ih =>
    cases l with
    | nil =>
      obtain ⟨u, rfl⟩ := blockTail_last hb (by omega)
      exact ⟨'/' :: '*' :: u, '/', by simp, .inr rfl⟩
    | cons d l =>
      obtain ⟨u, c', e, hc'⟩ := ih (by simp)
      exact ⟨'/' :: '*' :: (b ++ u), c', by rw [e]; simp, hc'⟩

/-- The text does not end like layout. -/
def Solid (w : Text) : Prop := ∃ u c, w = u ++ [c] ∧ c ∉ ronWhitespace ∧ c ≠ '/'

omit [Env] in
theorem Solid.pre {w : Text} (h : Solid w) (p : Text) : Solid (p ++ w) := by
  obtain ⟨u, c, rfl, hc⟩ := h
  exact ⟨p ++ u, c, by simp, hc⟩

omit [Env] in
theorem Solid.cons {w : Text} (h : Solid w) (c : Char) : Solid (c :: w) := h.pre [c]

omit [Env] in
theorem Solid.one {c : Char} (h : c ∉ ronWhitespace ∧ c ≠ '/') : Solid [c] := ⟨[], c, rfl, h⟩

omit [Env] in
theorem Solid.noLayout {w u : Text} (h : Solid (w ++ u)) (hu : Layout u) : u = [] := by
  refine Classical.byContradiction fun hn => ?_
  obtain ⟨a, c, rfl, hc⟩ := layout_last hu hn
  obtain ⟨b, d, e, hd⟩ := h
  rw [← List.append_assoc] at e
  obtain ⟨-, e⟩ := List.append_inj' e rfl
  cases e
  rcases hc with h | h
  · exact hd.1 h
  · exact hd.2 h

omit [Env] in
theorem Delim.solid {o c : Char} {ts : List Text} {w : Text} (h : Delim o c ts w) (hc : c ∉ ronWhitespace ∧ c ≠ '/') : Solid w := by
  cases h with
  | nil _ => exact ((Solid.one hc).pre _).cons _
  | items _ _ _ => exact ((((Solid.one hc).pre _).pre _).pre _).cons _

omit [Env] in
theorem rawClose_solid (n : Nat) : Solid (rawClose n) := by
  unfold rawClose
  cases n with
  | zero => exact Solid.one (by decide)
  | succ n =>
    rw [List.replicate_succ']
    exact ((Solid.one (by decide)).pre _).cons _

theorem rawName_solid {n : Text} (h : RawName n) : Solid n := by
  refine ⟨n.dropLast, n.getLast h.1, (List.dropLast_concat_getLast h.1).symm, ?_⟩
  have hc := h.2 _ (List.getLast_mem h.1)
  generalize n.getLast h.1 = c at hc
  constructor
  · intro hw
    have h1 := Env.xidCont_ws c ((isWs_iff c).mpr hw)
    simp only [isIdentRaw, h1, Bool.or_false] at hc
    revert hw hc
    simp only [ronWhitespace]
    intro hw hc
    simp only [Bool.or_eq_true, beq_iff_eq] at hc
    rcases hc with (rfl | rfl) | rfl <;> revert hw <;> decide
  · rintro rfl
    rw [isIdentRaw_ascii (by decide)] at hc
    revert hc
    decide

/-- Values do not end like layout; of numbers and ranges nothing is claimed here. -/
theorem lang_solid {n : Nat} {w : Text} {v : Value} (h : Lang n w v) :
    Solid w ∨ (NumHead w ∧ ∃ s, deValue (St.init w) = .ok v s ∧ s.rest = []) := by
  have tok : ∀ {w v}, Tok w v → Solid w ∨ (NumHead w ∧ ∃ s, deValue (St.init w) = .ok v s ∧ s.rest = []) := by
    intro w v h
    cases h with
    | true => exact .inl ⟨c!"tru", 'e', rfl, by decide, by decide⟩
    | false => exact .inl ⟨c!"fals", 'e', rfl, by decide, by decide⟩
    | none => exact .inl ⟨c!"Non", 'e', rfl, by decide, by decide⟩
    | unit => exact .inl ⟨c!"(", ')', rfl, by decide, by decide⟩
    | num h1 h2 => exact .inr ⟨h1, (numText_read h1).mp h2⟩
    | char h =>
      left
      cases h with
      | plain _ => exact ⟨[_, _], '\'', rfl, by decide, by decide⟩
      | esc _ => exact (((Solid.one (by decide)).pre _).cons _).cons _
    | str h =>
      left
      cases h with
      | esc _ => exact ((Solid.one (by decide)).pre _).cons _
      | raw _ => exact ((((rawClose_solid _).pre _).cons _).pre _).cons _
    | bytes h =>
      left
      cases h with
      | esc _ => exact (((Solid.one (by decide)).pre _).cons _).cons _
      | raw _ => exact (((((rawClose_solid _).pre _).cons _).pre _).cons _).cons _
    | name h =>
      left
      rcases h with ⟨h, rfl | ⟨rfl, -⟩⟩
      · exact ((rawName_solid h).cons _).cons _
      · exact rawName_solid h
  have lvl : ∀ {D E w v}, Level Tok D E w v → Solid w ∨ (NumHead w ∧ ∃ s, deValue (St.init w) = .ok v s ∧ s.rest = []) := by
    intro D E w v h
    cases h with
    | scalar h => exact tok h
    | some _ _ _ _ => exact .inl ((((((Solid.one (by decide)).pre _).pre _).pre _).cons _).pre _ |>.pre _)
    | seq _ h => exact .inl (h.solid (by decide))
    | map _ h => exact .inl (h.solid (by decide))
    | tuple _ _ h _ => exact .inl ((h.solid (by decide)).pre _)
    | struct _ _ _ h => exact .inl ((h.solid (by decide)).pre _)
  match n, h with
  | 0, h => exact tok h
  | 1, h => exact lvl h
  | n + 2, h => exact lvl h

theorem attrs_hash {hdr : Text} {e : Exts} (h : Attrs hdr e) : hdr = [] ∨ ∃ x, hdr = '#' :: x := by
  cases h with
  | nil => exact .inl rfl
  | @cons a t e e' ha ht =>
    right
    cases ha with
    | enable h => cases h; exact ⟨_, rfl⟩
    | info h => cases h; exact ⟨_, rfl⟩

/-- Nothing is trimmed from a value without layout around it. -/
theorem raw_trim_lang {n : Nat} {w : Text} {v : Value} (h : Lang n w v) (hn : n ≤ 128) : trimRange w = .ok (0, w.length) := by
  have hr := lang_reads_value (x := .empty) rfl h
  have hacc := raw_accepts (l := []) (hdr := []) (l' := []) .nil .nil h hn .nil
  rw [List.nil_append, List.nil_append, List.append_nil] at hacc
  obtain ⟨-, v', s0, s1, s2, s4, run, he, hend, hl⟩ := rawFromRon_inv hacc
  obtain ⟨l, hdr, w', u, n', h1, h2, h3, h4, h5, h6, h7, h8, h9⟩ := run.parts he hend
  have hsplit : l = [] ∧ hdr = [] ∧ w = w' ++ u := by
    have hnl := hr.1.noLayout []
    rw [List.append_nil] at hnl
    have hl : l = [] := by
      rw [h1] at hnl
      exact Stuck.nil_of_layout (.inl hnl) h2
    subst hl
    rw [List.nil_append] at h1
    have hh : hdr = [] := by
      rcases attrs_hash h3 with h | ⟨x, rfl⟩
      · exact h
      · exfalso
        have := hr.1.noHash []
        rw [List.append_nil, h1] at this
        simp at this
    subst hh
    exact ⟨rfl, rfl, by simpa using h1⟩
  obtain ⟨rfl, rfl, hw⟩ := hsplit
  obtain ⟨k1, ⟨l', k, k2, k3, -⟩ | ⟨-, k2, -⟩⟩ := h7.after run.behind
  · rw [hend, List.append_nil] at k3
    subst k3
    have hu : u = [] := by
      rcases lang_solid h with hs | ⟨hh, s, hv, hs⟩
      · rw [hw] at hs
        exact hs.noLayout k2
      · have h6' : s1.rest = w := by rw [h6, hw]
        have hd : deValue s1 = numeric s1 := by
          unfold deValue
          rw [bind_apply, getSt_apply]
          show anyBody _ s1 = _
          rw [anyBody_plain h8.nv, anyPlain_numeric (by rw [h6']; exact hh)]
        rw [deValue_numeric hh] at hv
        obtain ⟨s2', m1, m2⟩ := numeric_ext (s := s1) (s' := St.init w) (l := []) (.inl rfl) ⟨by rw [h6']; simp [St.init]⟩ v s hv
        have hval := run.value
        rw [hd, m1] at hval
        cases hval
        have r2 : s2.rest = [] := by rw [m2.rest, hs]; rfl
        have hkw := Kw.numeric (p := s1.preWs) (k := s1.lastWs) s1 rfl rfl
        rw [m1] at hkw
        obtain ⟨q1, q2⟩ := hkw
        have q1 : s2.preWs = s1.preWs := q1
        have q2 : s2.lastWs = s1.lastWs := q2
        rcases h7 with ⟨e, -⟩ | ⟨-, e1, ⟨l3, k3, -, e2, e3, e4⟩ | ⟨-, e2, -⟩⟩
        · rw [e, r2]
        · obtain ⟨l4, f1, f2, f3⟩ := h9
          rw [q1, f2, h6', hw] at e1
          have := congrArg List.length e1
          have hw' : w'.length ≠ 0 := by
            intro e
            have : w' = [] := List.length_eq_zero_iff.mp e
            exact (lang_reads_value (x := .empty) rfl h4).1.ne this
          simp only [List.length_append] at this
          omega
        · obtain ⟨k, hk, -⟩ := h9.tracked (by rw [h6']; exact hr.1.ne)
          rw [q2, hk] at e2
          cases e2
    subst hu
    rw [run.trim, h6, k1, hw]
    simp
  · exact absurd k2 hl

end Ron
