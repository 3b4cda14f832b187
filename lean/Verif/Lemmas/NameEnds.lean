import Verif.Spec.BadTy
import Verif.Lemmas.KeyRead
import Verif.Lemmas.Attr
/-!
Where names end: reading names, and what is no name.
-/

set_option linter.unusedSimpArgs false

namespace Ron

variable [Env]

omit [Env] in
theorem quoted_iff {u : Text} : startsStringLike u = true ↔ Quoted u := by
  simp only [startsStringLike, Bool.or_eq_true, startsWith_iff, Quoted, List.mem_cons, List.not_mem_nil, or_false, exists_eq_or_imp, exists_eq_left, or_assoc]

omit [Env] in
theorem notQuoted {u : Text} (h : ¬ Quoted u) : startsStringLike u = false := by
  cases hs : startsStringLike u with
  | false => rfl
  | true => exact absurd (quoted_iff.mp hs) h

theorem NameEnds.xid {tok z : Text} (h : NameEnds tok z) : NoIdentStart z := by
  intro c r e
  cases hx : Env.xidCont c with
  | false => rfl
  | true =>
    have := h.1 c r e
    rw [identRaw_of_xid hx] at this
    cases this

/-- No name that ends looks like a raw identifier. -/
theorem NameEnds.notRaw {name z : Text} (h : NameEnds name z) (hr : RawName name) : startsWith (name ++ z) c!"r#" = false := by
  obtain ⟨hne, hr⟩ := hr
  apply Bool.eq_false_iff.mpr
  intro hs
  obtain ⟨u, hu⟩ := (startsWith_iff _ _).mp hs
  match name, hne with
  | [c], _ =>
    simp only [List.cons_append, List.nil_append, List.cons.injEq] at hu
    obtain ⟨rfl, rfl⟩ := hu
    exact h.2.2 rfl rfl
  | c :: d :: n, _ =>
    simp only [List.cons_append, List.nil_append, List.cons.injEq] at hu
    obtain ⟨rfl, rfl, -⟩ := hu
    exact (raw_ne (hr '#' (by simp))).2.2 rfl

theorem NameEnds.of_follow {id tok z : Text} (ht : KeyTok id tok) (h : IdentFollow z) : NameEnds tok z := by
  refine ⟨fun c r e => (h c r e).1, fun hq => ?_, fun _ hz => ?_⟩
  · have := quoted_iff.mpr hq
    obtain ⟨hn, rfl | ⟨rfl, hp⟩⟩ := ht
    · rw [List.cons_append, List.cons_append, notString_raw hn] at this
      cases this
    · rw [notString hn.2 h hn.1] at this
      cases this
  · cases z with
    | nil => cases hz
    | cons c z => cases hz; exact (h _ _ rfl).2.2.2 rfl

theorem nameEnds_cons {a c : Char} {w r : Text} (h1 : a ≠ 'b') (h2 : a ≠ 'r') (hc : isIdentRaw c = false) : NameEnds (a :: w) (c :: r) := by
  refine ⟨fun _ _ e => by cases e; exact hc, ?_, fun e => by cases e; exact absurd rfl h2⟩
  rintro ⟨p, hp, r', e⟩
  simp only [List.mem_cons, List.not_mem_nil, or_false] at hp
  rcases hp with rfl | rfl | rfl | rfl | rfl | rfl | rfl <;> (injection e with e _; first | exact h1 e | exact h2 e)

theorem identifier_plainAt {name r : Text} {d : St} (h : PlainName name) (hr : NameEnds name r) (hd : d.rest = name ++ r) :
    identifier d = .ok name { d with prev := d.rest, rest := r } := by
  have hx := h.xid
  have hraw := h.raw
  have hR := hr.notRaw hraw
  have hQ := notQuoted hr.2.1
  obtain ⟨c, cs, rfl, hc, hcs⟩ := h
  have w1 : whileLen Env.xidCont (c :: cs ++ r) = (c :: cs).length := by
    rw [whileLen_append _ _ _ hx, hr.xid.whileLen]; rfl
  have w1' : whileLen Env.xidCont (cs ++ r) = cs.length := by
    rw [whileLen_append _ _ _ hcs, hr.xid.whileLen]; rfl
  have w2 : whileLen isIdentRaw (c :: cs ++ r) = (c :: cs).length := by
    rw [whileLen_append _ _ _ hraw.2, whileLen_stop _ _ fun d r' e => hr.1 d r' e]; rfl
  have p : peekCharOrEof d = .ok c d := by unfold peekCharOrEof; rw [hd]; rfl
  unfold identifier
  simp only [bind_apply, p, getSt_apply, ite_P, hc, Bool.not_true, Bool.false_eq_true, ↓reduceIte]
  rw [hd, hQ, hR, w1, w2]
  simp only [Bool.false_eq_true, ↓reduceIte, List.cons_append, List.drop_succ_cons, List.drop_zero, w1']
  have : (if (c == 'r') = true then (c :: cs).length else 1 + cs.length) = (c :: cs).length := by
    split <;> simp; omega
  rw [this]
  simp only [Nat.lt_irrefl, gt_iff_lt, ↓reduceIte, bind_apply, advance_apply, pure_apply, hd]
  simp

theorem identifier_rawAt {name r : Text} {d : St} (h : RawName name) (hr : ∀ c r', r = c :: r' → isIdentRaw c = false) (hd : d.rest = 'r' :: '#' :: (name ++ r)) :
    ∃ p, identifier d = .ok name { d with prev := p, rest := r } := by
  have hs := notString_raw (r := r) h
  obtain ⟨hne, h⟩ := h
  obtain ⟨c0, n0, rfl⟩ : ∃ c n, name = c :: n := by cases name <;> simp_all
  have w2 : whileLen isIdentRaw (c0 :: n0 ++ r) = (c0 :: n0).length := by
    rw [whileLen_append _ _ _ h, whileLen_stop _ _ hr]; rfl
  have p : peekCharOrEof d = .ok 'r' d := by unfold peekCharOrEof; rw [hd]
  have hf : isIdentFirst 'r' = true := by simp [isIdentFirst, xid_ascii_lower (c := 'r') (by decide)]
  have hc0 := h c0 (by simp)
  refine ⟨c0 :: n0 ++ r, ?_⟩
  unfold identifier
  simp only [bind_apply, p, getSt_apply, ite_P, hf, Bool.not_true, Bool.false_eq_true, ↓reduceIte]
  rw [hd, hs]
  simp only [Bool.false_eq_true, ↓reduceIte, startsWith_cons, beq_self_eq_true, startsWith_nil_right, Bool.and_true,
    bind_apply, cursor_apply, advance_ok (show 2 ≤ d.rest.length by rw [hd]; simp), getSt_apply, hd, List.drop_succ_cons, List.drop_zero, ite_P]
  simp only [List.cons_append, hc0, Bool.not_true, Bool.false_eq_true, ↓reduceIte, bind_apply, advance_apply, whileLen_le, pure_apply]
  simp only [List.cons_append] at w2
  rw [w2]
  simp

theorem KeyTok.readsAt {name tok r : Text} {d : St} (h : KeyTok name tok) (hr : NameEnds tok r) (hd : d.rest = tok ++ r) : RunsW identifier d name r := by
  obtain ⟨hn, rfl | ⟨rfl, hp⟩⟩ := h
  · obtain ⟨p, h⟩ := identifier_rawAt hn hr.1 (by simpa using hd)
    exact ⟨_, h, rfl, .step _ _ _⟩
  · exact ⟨_, identifier_plainAt hp hr hd, rfl, .step _ _ _⟩

theorem structKey_someAt {name tok r : Text} {d : St} (h : KeyTok name tok) (hr : NameEnds tok r) (hd : d.rest = tok ++ r) :
    ∃ s', consumeStructName name d = .ok true s' ∧ s'.rest = r ∧ KeepsD d s' := by
  obtain ⟨s', h1, h2, h3⟩ := h.readsAt hr hd
  refine ⟨s', ?_, h2, h3.toD⟩
  have hc : checkIdent [] d = .ok false d := checkIdent_false (.inr (by simpa [hd] using h.head r))
  unfold consumeStructName
  have hne : name.isEmpty = false := by simpa using h.1.1
  simp only [bind_apply, hc, Bool.false_eq_true, ↓reduceIte, attempt_apply, h1, hne, ne_eq, not_true_eq_false, pure_apply]

theorem deIdentifier_runsAt {n t r : Text} {d : St} (h : KeyTok n t) (hr : NameEnds t r) (hd : d.rest = t ++ r) :
    ∃ s', deIdentifier d = .ok n s' ∧ s'.rest = r ∧ KeepsD d s' ∧ s'.lastIdent = some n := by
  obtain ⟨s', h1, h2, h3⟩ := h.readsAt hr hd
  have h3 := h3.toD
  refine ⟨{ s' with lastIdent := some n }, ?_, h2, ⟨h3.src, h3.exts, h3.limit, h3.nv⟩, rfl⟩
  unfold deIdentifier
  simp only [bind_apply, h1, modSt_apply, pure_apply]

/-- What begins like a name and is none. -/
theorem identifier_noWord {u : Text} (h : NoWord u) {d : St} (hd : d.rest = u) : ∃ s', identifier d = .err .expectedIdentifier s' ∧ s'.rest = u ∧ s'.src = d.src := by
  have hb : isIdentFirst 'b' = true := by simp [isIdentFirst, xid_ascii_lower (c := 'b') (by decide)]
  have hr : isIdentFirst 'r' = true := by simp [isIdentFirst, xid_ascii_lower (c := 'r') (by decide)]
  by_cases hq : Quoted u
  · have hs := quoted_iff.mpr hq
    have hc : ∃ c w, u = c :: w ∧ isIdentFirst c = true := by
      obtain ⟨p, hp, r, rfl⟩ := hq
      simp only [List.mem_cons, List.not_mem_nil, or_false] at hp
      rcases hp with rfl | rfl | rfl | rfl | rfl | rfl | rfl <;> first | exact ⟨_, _, rfl, hb⟩ | exact ⟨_, _, rfl, hr⟩
    obtain ⟨c, w, rfl, hc⟩ := hc
    have p : peekCharOrEof d = .ok c d := by unfold peekCharOrEof; rw [hd]
    refine ⟨d, ?_, hd, rfl⟩
    unfold identifier
    simp only [bind_apply, p, getSt_apply, ite_P, hc, Bool.not_true, Bool.false_eq_true, ↓reduceIte, hd, hs, fail_apply]
  · rcases h with h | ⟨w, rfl, hw⟩
    · exact absurd h hq
    · have p : peekCharOrEof d = .ok 'r' d := by unfold peekCharOrEof; rw [hd]
      refine ⟨{ d with prev := 'r' :: '#' :: w, rest := 'r' :: '#' :: w }, ?_, rfl, rfl⟩
      · unfold identifier
        simp only [bind_apply, p, getSt_apply, ite_P, hr, Bool.not_true, Bool.false_eq_true, ↓reduceIte]
        rw [hd, notQuoted hq]
        simp only [Bool.false_eq_true, ↓reduceIte, startsWith_cons, beq_self_eq_true, startsWith_nil_right, Bool.and_true,
          bind_apply, cursor_apply, advance_ok (show 2 ≤ d.rest.length by rw [hd]; simp), getSt_apply, hd, List.drop_succ_cons, List.drop_zero, ite_P,
          Bool.not_false, setCursor_apply, fail_apply]
        cases w with
        | nil => rfl
        | cons c w => simp only [hw c w rfl, Bool.not_false, ↓reduceIte]

/-- Every text begins with a name, or with what is none. -/
theorem word_total (u : Text) : (∃ id tok z, u = tok ++ z ∧ KeyTok id tok ∧ NameEnds tok z) ∨ ∃ e, BadWord u e u := by
  cases u with
  | nil => exact .inr ⟨_, .eof⟩
  | cons c u =>
    cases hc : isIdentRaw c with
    | false => exact .inr ⟨_, .char hc⟩
    | true =>
      have split : ∀ v : Text, ∃ w z, v = w ++ z ∧ (∀ d ∈ w, isIdentRaw d = true) ∧ ∀ d r, z = d :: r → isIdentRaw d = false := by
        intro v
        induction v with
        | nil => exact ⟨[], [], rfl, by simp, by simp⟩
        | cons d v ih =>
          cases hd : isIdentRaw d with
          | false => exact ⟨[], d :: v, rfl, by simp, fun _ _ e => by cases e; exact hd⟩
          | true =>
            obtain ⟨w, z, rfl, h1, h2⟩ := ih
            refine ⟨d :: w, z, rfl, fun e he => ?_, h2⟩
            rcases List.mem_cons.mp he with rfl | he
            · exact hd
            · exact h1 e he
      by_cases hq : NoWord (c :: u)
      · exact .inr ⟨_, .noWord hq⟩
      by_cases hr : ∃ v, c :: u = 'r' :: '#' :: v
      · obtain ⟨v, hv⟩ := hr
        rw [hv] at hq ⊢
        obtain ⟨w, z, rfl, h1, h2⟩ := split v
        have hw : w ≠ [] := by
          rintro rfl
          exact hq (.inr ⟨z, rfl, h2⟩)
        refine .inl ⟨w, 'r' :: '#' :: w, z, rfl, ⟨⟨hw, h1⟩, .inl rfl⟩, h2, fun h => hq (.inl (by simpa using h)), fun h => by cases h⟩
      · obtain ⟨w, z, rfl, h1, h2⟩ := split u
        have hR : RawName (c :: w) := ⟨by simp, fun d hd => by
          rcases List.mem_cons.mp hd with rfl | hd
          · exact hc
          · exact h1 d hd⟩
        have hE : NameEnds (c :: w) z := by
          refine ⟨h2, fun h => hq (.inl (by simpa using h)), fun h hz => ?_⟩
          cases h
          cases z with
          | nil => cases hz
          | cons d z => cases hz; exact hr ⟨z, rfl⟩
        by_cases hp : PlainName (c :: w)
        · exact .inl ⟨_, _, z, rfl, ⟨hR, .inr ⟨rfl, hp⟩⟩, hE⟩
        · exact .inr ⟨_, .raw (w := c :: w) (z := z) hR hp hE⟩

theorem NoWord.head {u : Text} (h : NoWord u) : headXid u = true := by
  have hb : Env.xidCont 'b' = true := xid_cont_ascii (by decide)
  have hr : Env.xidCont 'r' = true := xid_cont_ascii (by decide)
  rcases h with ⟨p, hp, r, rfl⟩ | ⟨w, rfl, -⟩
  · simp only [List.mem_cons, List.not_mem_nil, or_false] at hp
    rcases hp with rfl | rfl | rfl | rfl | rfl | rfl | rfl <;> first | exact hb | exact hr
  · exact hr

end Ron
