import Verif.Lemmas.StringsSound
import Verif.Lemmas.Ident
import Verif.Spec.Attr
/-! Document attributes. -/

set_option linter.unusedSimpArgs false

namespace Ron

/-- What a successful `skip_ws` did. -/
theorem skipWs_inv {s s' : St} (h : skipWs s = .ok () s') : Keeps s s' ∧
    ((∃ l, s.rest = l ++ s'.rest ∧ Layout l ∧ NoLayoutStart s'.rest) ∨
     (s'.rest = [] ∧ s'.lastWs = none ∧ ∃ l u, s.rest = l ++ u ∧ Layout l ∧ OpenLine u)) := by
  rcases skipWs_cases s with ⟨l, r, e, hl, hr, s1, h1, h2, h3⟩ | ⟨l, u, e, hl, hu, s1, h1, h2, h3, h4⟩ | ⟨l, u, e, he, hl, hu, s1, h1⟩
  · rw [h1] at h; cases h
    subst h2
    exact ⟨h3, .inl ⟨l, e, hl, hr⟩⟩
  · rw [h1] at h; cases h
    exact ⟨h3, .inr ⟨h2, h4, l, u, e, hl, hu⟩⟩
  · rw [h1] at h; cases h

/-- If something is left after `skip_ws` it was preceded by layout. -/
theorem skipWs_inv_ne {s s' : St} (h : skipWs s = .ok () s') (hne : s'.rest ≠ []) :
    Keeps s s' ∧ ∃ l, s.rest = l ++ s'.rest ∧ Layout l ∧ NoLayoutStart s'.rest := by
  obtain ⟨hk, h | ⟨h, -⟩⟩ := skipWs_inv h
  · exact ⟨hk, h⟩
  · exact absurd h hne

variable [Env]

theorem isIdentRaw_ascii {c : Char} (h : c.toNat < 128) :
    isIdentRaw c = ((c == '.' || c == '+' || c == '-') || (isAsciiAlpha c || isDigit c || c == '_')) := by
  simp [isIdentRaw, Env.xidCont_ascii c h]

theorem layout_follow {l r : Text} (hl : Layout l) (hr : IdentFollow r) : IdentFollow (l ++ r) := by
  cases hl with
  | nil => exact hr
  | @ws c l hc hl =>
    intro d r' e
    simp only [List.cons_append, List.cons.injEq] at e
    obtain ⟨rfl, -⟩ := e
    have hx := Env.xidCont_ws c ((isWs_iff c).mpr hc)
    simp only [ronWhitespace, List.map_cons, List.map_nil, List.mem_cons, List.not_mem_nil, or_false] at hc
    refine ⟨?_, ?_⟩
    · simp only [isIdentRaw, hx, Bool.or_false]
      rcases hc with h | h | h | h | h | h | h | h | h | h | h <;> (subst h; decide)
    · rcases hc with h | h | h | h | h | h | h | h | h | h | h <;> (subst h; decide)
  | line _ _ =>
    intro d r' e
    simp only [List.cons_append, List.cons.injEq] at e
    obtain ⟨rfl, -⟩ := e
    exact ⟨by rw [isIdentRaw_ascii (by decide)]; decide, by decide, by decide, by decide⟩
  | block _ _ =>
    intro d r' e
    simp only [List.cons_append, List.cons.injEq] at e
    obtain ⟨rfl, -⟩ := e
    exact ⟨by rw [isIdentRaw_ascii (by decide)]; decide, by decide, by decide, by decide⟩

/-- A delimiter character can follow an identifier. -/
theorem follow_cons {c : Char} {r : Text} (h : c.toNat < 128)
    (h' : ((c == '.' || c == '+' || c == '-') || (isAsciiAlpha c || isDigit c || c == '_')) = false)
    (h1 : c ≠ '"') (h2 : c ≠ '\'') (h3 : c ≠ '#') : IdentFollow (c :: r) := by
  intro d r' e
  simp only [List.cons.injEq] at e
  obtain ⟨rfl, -⟩ := e
  exact ⟨by rw [isIdentRaw_ascii h]; exact h', h1, h2, h3⟩

theorem identTok_reads {id tok r : Text} {d : St} (ht : IdentTok id tok) (hp : PlainName id) (hr : IdentFollow r)
    (hd : d.rest = tok ++ r) : RunsW identifier d id r := by
  cases ht with
  | plain => exact ⟨_, identifier_plain hp hr hd, rfl, .step _ _ _⟩
  | raw =>
    obtain ⟨p, h⟩ := identifier_raw hp.raw hr (by simpa using hd)
    exact ⟨_, h, rfl, .step _ _ _⟩

theorem identifier_sound {s s' : St} {id : Text} (h : identifier s = .ok id s') :
    ∃ tok, s.rest = tok ++ s'.rest ∧ IdentTok id tok ∧ id ≠ [] ∧ KeepsW s s' := by
  unfold identifier at h
  replace h := bind_ok h; obtain ⟨c, s1, h1, h⟩ := h
  obtain ⟨rfl, r, hr⟩ := peekCharOrEof_inv h1
  rw [getSt_bind] at h
  replace h := ite_inv h; rcases h with ⟨-, h⟩ | ⟨hf, h⟩
  · replace h := ite_inv h; rcases h with ⟨-, h⟩ | ⟨-, h⟩ <;> cases h
  replace h := ite_inv h; rcases h with ⟨-, h⟩ | ⟨-, h⟩
  · cases h
  replace h := ite_inv h; rcases h with ⟨hs, h⟩ | ⟨-, h⟩
  · obtain ⟨u, hu⟩ := (startsWith_iff _ _).mp hs
    rw [bind_apply, cursor_apply] at h
    simp only at h
    replace h := (advance_inv h).2
    rw [getSt_bind] at h
    simp only [hu] at h
    replace h := ite_inv h; rcases h with ⟨-, h⟩ | ⟨hraw, h⟩
    · cases h
    · replace h := (advance_inv h).2
      simp only [pure_apply, Res.ok.injEq, List.cons_append, List.nil_append,
        List.drop_succ_cons, List.drop_zero] at h hraw
      obtain ⟨rfl, rfl⟩ := h
      refine ⟨'r' :: '#' :: u.take (whileLen isIdentRaw u), ?_, .raw, ?_, .step _ _ _⟩
      · rw [hu]; simp
      · cases u with
        | nil => simp at hraw
        | cons x u =>
          simp at hraw
          rw [whileLen_cons_true _ _ _ hraw]; simp
  · generalize hstd : (if (c == 'r') = true then whileLen Env.xidCont s1.rest else 1 + whileLen Env.xidCont (s1.rest.drop 1)) = std at h
    replace h := ite_inv h; rcases h with ⟨-, h⟩ | ⟨-, h⟩
    · cases h
    · replace h := (advance_inv h).2
      simp only [pure_apply, Res.ok.injEq] at h
      obtain ⟨rfl, rfl⟩ := h
      refine ⟨s1.rest.take std, by simp, .plain, ?_, .step _ _ _⟩
      have : 0 < std := by
        rw [← hstd]
        split
        · next hc =>
          rw [beq_iff_eq] at hc; subst hc
          rw [hr, whileLen_cons_true _ _ _ (xid_cont_ascii (by decide))]; omega
        · omega
      rw [hr]
      cases std with
      | zero => omega
      | succ n => simp

omit [Env] in
theorem extNamed_iff {id : Text} {e : Exts} : Exts.fromIdent id = some e ↔ ExtNamed id e := by
  constructor
  · intro h
    unfold Exts.fromIdent at h
    split at h
    · next h' => cases h; subst h'; exact .unwrapNewtypes
    split at h
    · next h' => cases h; subst h'; exact .implicitSome
    split at h
    · next h' => cases h; subst h'; exact .unwrapVariantNewtypes
    split at h
    · next h' => cases h; subst h'; exact .explicitStructNames
    · cases h
  · intro h
    cases h <;> rfl

/-- A lower-case ASCII name is a plain identifier. -/
theorem plainName_ascii {c : Char} {cs : Text} (hc : isAsciiAlpha c = true)
    (h : ∀ d ∈ cs, d.toNat < 128 ∧ (isAsciiAlpha d || isDigit d || d == '_') = true) : PlainName (c :: cs) :=
  ⟨c, cs, rfl, by simp [isIdentFirst, xid_ascii_lower hc], fun d hd => by rw [Env.xidCont_ascii d (h d hd).1]; exact (h d hd).2⟩

theorem ExtNamed.plain {id : Text} {e : Exts} (h : ExtNamed id e) : PlainName id := by
  cases h <;> exact plainName_ascii (by decide) (by decide)

omit [Env] in
theorem Exts.union_assoc (a b c : Exts) : (a.union b).union c = a.union (b.union c) := by
  simp [Exts.union, Bool.or_assoc]
omit [Env] in
theorem Exts.union_empty (a : Exts) : a.union ⟨false, false, false, false⟩ = a := by simp [Exts.union]
omit [Env] in
theorem Exts.empty_union (a : Exts) : Exts.union ⟨false, false, false, false⟩ a = a := by simp [Exts.union]

omit [Env] in
/-- The comma between list elements. -/
theorem comma_inv {s s' : St} {b : Bool} (h : comma s = .ok b s') : Keeps s s' ∧
    ((∃ l r, s.rest = l ++ r ∧ Layout l ∧ b = false ∧ s'.rest = r ∧ NoLayoutStart r ∧ startsWith r [','] = false) ∨
     (∃ l l', s.rest = l ++ ',' :: (l' ++ s'.rest) ∧ Layout l ∧ Layout l' ∧ b = true ∧ NoLayoutStart s'.rest) ∨
     (s'.rest = [] ∧ s'.lastWs = none)) := by
  unfold comma at h
  replace h := bind_ok h; obtain ⟨u, s1, h1, h⟩ := h
  replace h := bind_ok h; obtain ⟨c, s2, h2, h⟩ := h
  obtain ⟨k1, hw⟩ := skipWs_inv h1
  rcases consumeChar_inv h2 with ⟨rfl, hr, he⟩ | ⟨rfl, rfl, hr⟩
  · simp only [↓reduceIte] at h
    replace h := bind_ok h; obtain ⟨v, s3, h3, h⟩ := h
    cases h
    obtain ⟨k3, hw3⟩ := skipWs_inv h3
    have k2 : Keeps s1 s2 := by rw [he]; exact (KeepsW.step _ _ _).toKeeps
    refine ⟨k1.trans (k2.trans k3), ?_⟩
    rcases hw with ⟨l, e1, hl, -⟩ | ⟨e1, -⟩
    · rcases hw3 with ⟨l', e3, hl', hn⟩ | ⟨e3, e4, -⟩
      · exact .inr (.inl ⟨l, l', by rw [e1, hr, e3], hl, hl', rfl, hn⟩)
      · exact .inr (.inr ⟨e3, e4⟩)
    · rw [hr] at e1; cases e1
  · simp only [Bool.false_eq_true, ↓reduceIte, pure_apply, Res.ok.injEq] at h
    obtain ⟨rfl, rfl⟩ := h
    refine ⟨k1, ?_⟩
    rcases hw with ⟨l, e1, hl, hn⟩ | ⟨e1, e2, -⟩
    · exact .inl ⟨l, _, e1, hl, rfl, rfl, hn, hr⟩
    · exact .inr (.inr ⟨e1, e2⟩)

omit [Env] in
theorem noStart_cons {c : Char} {r : Text} (h : c ∉ ronWhitespace ∧ c ≠ '/') : NoLayoutStart (c :: r) := by
  intro d r' e
  cases e; exact h

omit [Env] in
theorem comma_none {s : St} {l r : Text} (hs : s.rest = l ++ r) (hl : Layout l) (hr : NoLayoutStart r)
    (hc : startsWith r [','] = false) : Runs comma s false r := by
  obtain ⟨s1, h1, h2, h3⟩ := skipWs_ok hs hl hr
  refine ⟨s1, ?_, h2, h3⟩
  unfold comma
  rw [bind_apply, h1]
  simp only [bind_apply, consumeChar_false (s := s1) (c := ',') (by rw [h2]; exact hc), Bool.false_eq_true, ↓reduceIte, ite_P, pure_apply]

omit [Env] in
theorem comma_some {s : St} {l l' r : Text} (hs : s.rest = l ++ ',' :: (l' ++ r)) (hl : Layout l) (hl' : Layout l')
    (hr : NoLayoutStart r) : Runs comma s true r := by
  obtain ⟨s1, h1, h2, h3⟩ := skipWs_ok hs hl (noStart_cons (by decide))
  obtain ⟨s2, g1, g2, g3⟩ := skipWs_ok (s := { s1 with prev := s1.rest, rest := l' ++ r }) rfl hl' hr
  refine ⟨s2, ?_, g2, h3.trans ⟨g3.src, g3.exts, g3.nv, g3.lastIdent, g3.limit⟩⟩
  unfold comma
  rw [bind_apply, h1]
  simp only [bind_apply, consumeChar_true h2, ↓reduceIte, ite_P, g1, pure_apply]

theorem extNamed_start {id tok r : Text} {e : Exts} (h : ExtNamed id e) (ht : IdentTok id tok) :
    NoLayoutStart (tok ++ r) ∧ headXid (tok ++ r) = true ∧ startsWith (tok ++ r) [','] = false := by
  cases ht <;> cases h <;>
    exact ⟨noStart_cons (by decide), xid_cont_ascii (by decide), rfl⟩

/-- Reading an extension list. -/
theorem extensionList_ok {t : Text} {e : Exts} (h : ExtList t e) : ∀ (f : Nat) (acc : Exts) (s : St) (r : Text),
    s.rest = t ++ ')' :: r → t.length < f → Runs (extensionList f acc) s (acc.union e) (')' :: r) := by
  have hpar : ∀ r : Text, headXid (')' :: r) = false := by
    intro r; show Env.xidCont ')' = false; rw [Env.xidCont_ascii _ (by decide)]; decide
  induction h with
  | @last id tok l e hn ht hl =>
    intro f acc s r hs hf
    cases f with
    | zero => omega
    | succ f =>
      obtain ⟨s1, h1, h2, h3⟩ := identTok_reads (r := l ++ ')' :: r) ht hn.plain
        (layout_follow hl (follow_cons (by decide) (by decide) (by decide) (by decide) (by decide))) (by simpa using hs)
      obtain ⟨s2, g1, g2, g3⟩ := comma_none h2 hl (noStart_cons (by decide)) rfl
      refine ⟨s2, ?_, g2, h3.toKeeps.trans g3⟩
      rw [extensionList, bind_apply, h1]
      simp only [extNamed_iff.mpr hn, bind_apply, g1, getSt_apply, g2, hpar]
      rfl
  | @lastComma id tok l l' e hn ht hl hl' =>
    intro f acc s r hs hf
    cases f with
    | zero => omega
    | succ f =>
      obtain ⟨s1, h1, h2, h3⟩ := identTok_reads (r := l ++ ',' :: (l' ++ ')' :: r)) ht hn.plain
        (layout_follow hl (follow_cons (by decide) (by decide) (by decide) (by decide) (by decide))) (by simpa using hs)
      obtain ⟨s2, g1, g2, g3⟩ := comma_some h2 hl hl' (noStart_cons (by decide))
      refine ⟨s2, ?_, g2, h3.toKeeps.trans g3⟩
      rw [extensionList, bind_apply, h1]
      simp only [extNamed_iff.mpr hn, bind_apply, g1, getSt_apply, g2, hpar]
      rfl
  | @more id tok l l' t e e' hn ht hl hl' htl ih =>
    intro f acc s r hs hf
    cases f with
    | zero => omega
    | succ f =>
      obtain ⟨s1, h1, h2, h3⟩ := identTok_reads (r := l ++ ',' :: (l' ++ (t ++ ')' :: r))) ht hn.plain
        (layout_follow hl (follow_cons (by decide) (by decide) (by decide) (by decide) (by decide))) (by simpa using hs)
      have hstart : NoLayoutStart (t ++ ')' :: r) ∧ headXid (t ++ ')' :: r) = true := by
        cases htl with
        | last a b _ => simpa using And.intro (extNamed_start a b).1 (extNamed_start a b).2.1
        | lastComma a b _ _ => simpa using And.intro (extNamed_start a b).1 (extNamed_start a b).2.1
        | more a b _ _ _ => simpa using And.intro (extNamed_start a b).1 (extNamed_start a b).2.1
      obtain ⟨s2, g1, g2, g3⟩ := comma_some h2 hl hl' hstart.1
      obtain ⟨s3, k1, k2, k3⟩ := ih f (acc.union e) s2 r g2 (by simp at hf; omega)
      refine ⟨s3, ?_, k2, h3.toKeeps.trans (g3.trans k3)⟩
      rw [extensionList, bind_apply, h1]
      simp only [extNamed_iff.mpr hn, bind_apply, g1, getSt_apply, g2, hstart.2]
      rw [← Exts.union_assoc]
      exact k1

theorem extensionList_sound (f : Nat) : ∀ (acc e : Exts) (s s' : St), extensionList f acc s = .ok e s' → s'.rest ≠ [] →
    ∃ t e', s.rest = t ++ s'.rest ∧ ExtList t e' ∧ e = acc.union e' ∧ Keeps s s' ∧ NoLayoutStart s'.rest := by
  induction f with
  | zero => intro acc e s s' h; cases h
  | succ f ih =>
    intro acc e s s' h hne
    rw [extensionList] at h
    replace h := bind_ok h; obtain ⟨id, s1, h1, h⟩ := h
    obtain ⟨tok, e1, ht, -, k1⟩ := identifier_sound h1
    cases hn : Exts.fromIdent id with
    | none => rw [hn] at h; cases h
    | some x =>
      rw [hn] at h
      replace h := bind_ok h; obtain ⟨c, s2, h2, h⟩ := h
      obtain ⟨k2, hc⟩ := comma_inv h2
      rw [getSt_bind] at h
      have hn := extNamed_iff.mp hn
      have fin : s2.rest ≠ [] → e = acc.union x → s' = s2 →
          ∃ t e', s.rest = t ++ s'.rest ∧ ExtList t e' ∧ e = acc.union e' ∧ Keeps s s' ∧ NoLayoutStart s'.rest := by
        rintro hne rfl rfl
        rcases hc with ⟨l, r, g1, g2, -, g4, g5, -⟩ | ⟨l, l', g1, g2, g3, -, g5⟩ | ⟨g1, -⟩
        · subst g4
          exact ⟨tok ++ l, x, by rw [e1, g1]; simp, .last hn ht g2, rfl, k1.toKeeps.trans k2, g5⟩
        · exact ⟨tok ++ (l ++ ',' :: l'), x, by rw [e1, g1]; simp, .lastComma hn ht g2 g3, rfl, k1.toKeeps.trans k2, g5⟩
        · exact absurd g1 hne
      replace h := ite_inv h; rcases h with ⟨-, h⟩ | ⟨-, h⟩
      · cases h
      replace h := ite_inv h; rcases h with ⟨-, h⟩ | ⟨hx, h⟩
      · cases h
        exact fin hne rfl rfl
      · obtain ⟨t, e', g1, g2, g3, g4, g5⟩ := ih _ _ _ _ h hne
        rcases hc with ⟨l, r, _, _, rfl, _⟩ | ⟨l, l', c1, c2, c3, -, c5⟩ | ⟨c1, -⟩
        · simp at hx
        · exact ⟨tok ++ (l ++ ',' :: (l' ++ t)), x.union e', by rw [e1, c1, g1]; simp, .more hn ht c2 c3 g2,
            by rw [g3, Exts.union_assoc], k1.toKeeps.trans (k2.trans g4), g5⟩
        · simp [c1, headXid] at hx

/-! ### Attributes -/

omit [Env] in
/-- What a successful `skip_ws` did, in one formula. -/
theorem skipWs_inv' {s s' : St} (h : skipWs s = .ok () s') : Keeps s s' ∧
    ∃ l u, s.rest = l ++ u ∧ Layout l ∧ ((u = s'.rest ∧ NoLayoutStart u) ∨ (OpenLine u ∧ s'.rest = [])) := by
  obtain ⟨hk, ⟨l, h1, h2, h3⟩ | ⟨h1, -, l, u, h2, h3, h4⟩⟩ := skipWs_inv h
  · exact ⟨hk, l, _, h1, h2, .inl ⟨rfl, h3⟩⟩
  · exact ⟨hk, l, u, h2, h3, .inr ⟨h4, h1⟩⟩

omit [Env] in
theorem consumeAll_false (ts : List Text) : ∀ {s s' : St}, consumeAll ts false s = .ok true s' → False := by
  induction ts with
  | nil => intro s s' h; cases h
  | cons t ts ih =>
    intro s s' h
    rw [consumeAll] at h
    replace h := bind_ok h; obtain ⟨b, s1, h1, h⟩ := h
    replace h := ite_inv h; rcases h with ⟨-, h⟩ | ⟨-, h⟩
    · replace h := bind_ok h; obtain ⟨u, s2, h2, h⟩ := h
      exact ih h
    · exact ih h

omit [Env] in
theorem consumeAll_inv {t : Text} {ts : List Text} {s s' : St} (h : consumeAll (t :: ts) true s = .ok true s') :
    ∃ s2 r, s.rest = t ++ r ∧ skipWs { s with prev := s.rest, rest := r } = .ok () s2 ∧ consumeAll ts true s2 = .ok true s' := by
  rw [consumeAll] at h
  replace h := bind_ok h; obtain ⟨b, s1, h1, h⟩ := h
  rcases consumeStr_inv h1 with ⟨rfl, hr, he⟩ | ⟨rfl, rfl, -⟩
  · simp only [↓reduceIte] at h
    replace h := bind_ok h; obtain ⟨u, s2, h2, h⟩ := h
    exact ⟨s2, s1.rest, hr, by rw [← he]; exact h2, h⟩
  · simp only [Bool.false_eq_true, ↓reduceIte] at h
    exact absurd h (fun h => consumeAll_false _ h)

omit [Env] in
theorem consumeAll_nil_inv {s s' : St} (h : consumeAll [] true s = .ok true s') : s' = s := by cases h; rfl

omit [Env] in
theorem consumeAll_step {t l u : Text} {ts : List Text} {s : St} (hs : s.rest = t ++ (l ++ u)) (hl : Layout l)
    (hu : NoLayoutStart u) : ∃ s', s'.rest = u ∧ Keeps s s' ∧ consumeAll (t :: ts) true s = consumeAll ts true s' := by
  obtain ⟨s', h1, h2, h3⟩ := skipWs_ok (s := { s with prev := s.rest, rest := l ++ u }) rfl hl hu
  refine ⟨s', h2, (KeepsW.step s _ _).toKeeps.trans h3, ?_⟩
  rw [consumeAll, bind_apply, consumeStr_true (by rw [hs]; simp)]
  simp only [↓reduceIte]
  rw [hs] at h1
  simp only [hs, List.drop_left]
  rw [bind_apply, h1]

/-- How the rest of the input relates to the end of a read text when layout was skipped at the end. -/
def AfterWs (u r : Text) : Prop := (u = r ∧ NoLayoutStart u) ∨ (OpenLine u ∧ r = [])

theorem consumeIdent_inv {t : Text} {s s' : St} {b : Bool} (h : consumeIdent t s = .ok b s') :
    (b = true ∧ s.rest = t ++ s'.rest ∧ NoIdentStart s'.rest ∧ KeepsW s s') ∨ (b = false ∧ s' = s) := by
  rcases consumeIdent_cases t s with ⟨r, h1, h2, h3⟩ | ⟨-, h3⟩
  · rw [h3] at h; cases h; exact .inl ⟨rfl, h1, h2, .step _ _ _⟩
  · rw [h3] at h; cases h; exact .inr ⟨rfl, rfl⟩

theorem docAttribute_sound {s s' : St} {a : ParsedAttribute} (h : docAttribute s = .ok a s') :
    (a = .none ∧ s' = s ∧ startsWith s.rest ['#'] = false) ∨
    (Keeps s s' ∧ ∃ t u e, s.rest = t ++ u ∧ Attr t e ∧
      ((a = .extensions e ∧ AfterWs u s'.rest) ∨ (a = .ignored ∧ e = ⟨false, false, false, false⟩ ∧ u = s'.rest))) := by
  unfold docAttribute at h
  simp only [bind_apply, checkChar_apply] at h
  replace h := ite_inv h; rcases h with ⟨hc, h⟩ | ⟨hc, h⟩
  · cases h; exact .inl ⟨rfl, rfl, by simpa using hc⟩
  right
  replace h := bind_ok h; obtain ⟨b, s3, h3, h⟩ := h
  replace h := ite_inv h; rcases h with ⟨-, h⟩ | ⟨hb, h⟩
  · cases h
  obtain rfl : b = true := by simpa using hb
  obtain ⟨s1, r0, e1, w1, h3⟩ := consumeAll_inv h3
  obtain ⟨s2, r1, e2, w2, h3⟩ := consumeAll_inv h3
  obtain ⟨s3, r2, e3, w3, h3⟩ := consumeAll_inv h3
  obtain rfl := consumeAll_nil_inv h3
  clear h3
  obtain ⟨k1, l1, x1, L1⟩ := skipWs_inv_ne w1 (by rw [e2]; simp)
  obtain ⟨k2, l2, x2, L2⟩ := skipWs_inv_ne w2 (by rw [e3]; simp)
  replace h := bind_ok h; obtain ⟨_, s4, w4, h⟩ := h
  replace h := bind_ok h; obtain ⟨isE, s5, h5, h⟩ := h
  have hne4 : ∀ {t : Text} {r : Text}, t ≠ [] → s4.rest = t ++ r → s4.rest ≠ [] := by
    intro t r ht e; rw [e]; simp [ht]
  rcases consumeIdent_inv h5 with ⟨rfl, e5, -, k5⟩ | ⟨rfl, rfl⟩
  · -- enable
    simp only [↓reduceIte] at h
    obtain ⟨k4, l4, x4, L4, -⟩ := skipWs_inv_ne w4 (hne4 (by simp) e5)
    have hne3 : s3.rest ≠ [] := by
      rw [x4, e5]; simp
    obtain ⟨k3, l3, x3, L3⟩ := skipWs_inv_ne w3 hne3
    replace h := bind_ok h; obtain ⟨_, s6, w6, h⟩ := h
    replace h := bind_ok h; obtain ⟨b, s7, h7, h⟩ := h
    rcases consumeStr_inv h7 with ⟨rfl, e7, he7⟩ | ⟨rfl, rfl, -⟩
    · simp only [Bool.not_true, Bool.false_eq_true, ↓reduceIte] at h
      obtain ⟨k6, l6, x6, L6⟩ := skipWs_inv_ne w6 (by rw [e7]; simp)
      have k7 : Keeps s6 s7 := by rw [he7]; exact (KeepsW.step _ _ _).toKeeps
      replace h := bind_ok h; obtain ⟨_, s8, w8, h⟩ := h
      rw [getSt_bind] at h
      replace h := bind_ok h; obtain ⟨e, s9, h9, h⟩ := h
      replace h := bind_ok h; obtain ⟨_, s10, w10, h⟩ := h
      replace h := bind_ok h; obtain ⟨b, s11, h11, h⟩ := h
      replace h := ite_inv h; rcases h with ⟨rfl, h⟩ | ⟨-, h⟩
      · cases h
        obtain ⟨s12, r11, e11, w12, h11⟩ := consumeAll_inv h11
        obtain ⟨s13, r12, e12, w13, h11⟩ := consumeAll_inv h11
        obtain rfl := consumeAll_nil_inv h11
        clear h11
        obtain ⟨k10, l10, x10, L10, n10⟩ := skipWs_inv_ne w10 (by rw [e11]; simp)
        obtain ⟨k12, l12, x12, L12, n12⟩ := skipWs_inv_ne w12 (by rw [e12]; simp)
        obtain ⟨k13, l13, u13, x13, L13, n13⟩ := skipWs_inv' w13
        have hne9 : s9.rest ≠ [] := by rw [x10, e11]; simp
        obtain ⟨t9, e9, x9, E9, rfl, k9, n9⟩ := extensionList_sound _ _ _ _ _ h9 hne9
        have hl10 : l10 = [] := by
          rw [x10] at n9
          exact Stuck.nil_of_layout (.inl n9) L10
        subst hl10
        have hne8 : s8.rest ≠ [] := by rw [x9]; simp [hne9]
        obtain ⟨k8, l8, x8, L8, -⟩ := skipWs_inv_ne w8 hne8
        refine ⟨?_, _, u13, e9, ?_, .enable (.mk L1.1 L2.1 (L3.1.append L4)) L6.1 L8 E9 L12 L13, .inl ⟨by
          rw [show Exts.empty.union e9 = e9 from Exts.empty_union e9], n13⟩⟩
        · have z1 := (KeepsW.step s s.rest r0).toKeeps.trans k1
          have z2 := (z1.trans (KeepsW.step s1 s1.rest r1).toKeeps).trans k2
          have z3 := ((z2.trans (KeepsW.step s2 s2.rest r2).toKeeps).trans k3).trans k4
          have z4 := (((z3.trans k5.toKeeps).trans k6).trans k7).trans k8
          have z5 := (z4.trans k9).trans k10
          have z6 := (z5.trans (KeepsW.step s10 s10.rest r11).toKeeps).trans k12
          exact (z6.trans (KeepsW.step s12 s12.rest r12).toKeeps).trans k13
        · simp only at x1 x2 x3 x12 x13
          rw [e1, x1, e2, x2, e3, x3, x4, e5, x6, e7, x8, x9, x10, e11, x12, e12, x13]
          simp
      · cases h
    · simp only [Bool.not_false, ↓reduceIte] at h
      cases h
  · -- type, schema
    simp only [Bool.false_eq_true, ↓reduceIte] at h
    replace h := bind_ok h; obtain ⟨isT, s6, h6, h⟩ := h
    replace h := bind_ok h; obtain ⟨isS, s7, h7, h⟩ := h
    replace h := ite_inv h; rcases h with ⟨rfl, h⟩ | ⟨-, h⟩
    · have key : ∃ key, (key = c!"type" ∨ key = c!"schema") ∧ s5.rest = key ++ s7.rest ∧ KeepsW s5 s7 := by
        rcases consumeIdent_inv h6 with ⟨rfl, e6, -, k6⟩ | ⟨rfl, rfl⟩
        · simp only [↓reduceIte, pure_apply, Res.ok.injEq, true_and] at h7
          subst h7
          exact ⟨_, .inl rfl, e6, k6⟩
        · simp only [Bool.false_eq_true, ↓reduceIte] at h7
          rcases consumeIdent_inv h7 with ⟨-, e7, -, k7⟩ | ⟨h, -⟩
          · exact ⟨_, .inr rfl, e7, k7⟩
          · cases h
      obtain ⟨key, hkey, e7, k7⟩ := key
      have hkne : key ≠ [] := by rcases hkey with rfl | rfl <;> simp
      obtain ⟨k4, l4, x4, L4, -⟩ := skipWs_inv_ne w4 (hne4 hkne e7)
      have hne3 : s3.rest ≠ [] := by
        rw [x4, e7]; simp [hkne]
      obtain ⟨k3, l3, x3, L3⟩ := skipWs_inv_ne w3 hne3
      replace h := bind_ok h; obtain ⟨_, s8, w8, h⟩ := h
      replace h := bind_ok h; obtain ⟨b, s9, h9, h⟩ := h
      rcases consumeStr_inv h9 with ⟨rfl, e9, he9⟩ | ⟨rfl, rfl, -⟩
      · simp only [Bool.not_true, Bool.false_eq_true, ↓reduceIte] at h
        obtain ⟨k8, l8, x8, L8⟩ := skipWs_inv_ne w8 (by rw [e9]; simp)
        have k9 : Keeps s8 s9 := by rw [he9]; exact (KeepsW.step _ _ _).toKeeps
        replace h := bind_ok h; obtain ⟨_, s10, w10, h⟩ := h
        replace h := bind_ok h; obtain ⟨v, s11, h11, h⟩ := h
        obtain ⟨t, x11, S11, k11⟩ := string_sound h11
        replace h := bind_ok h; obtain ⟨_, s12, w12, h⟩ := h
        replace h := bind_ok h; obtain ⟨b, s13, h13, h⟩ := h
        rcases consumeStr_inv h13 with ⟨rfl, e13, he13⟩ | ⟨rfl, rfl, -⟩
        · simp only [↓reduceIte, pure_apply, Res.ok.injEq] at h
          obtain ⟨rfl, rfl⟩ := h
          obtain ⟨k12, l12, x12, L12, -⟩ := skipWs_inv_ne w12 (by rw [e13]; simp)
          have hne10 : s10.rest ≠ [] := by
            rw [x11, x12, e13]; simp
          obtain ⟨k10, l10, x10, L10, -⟩ := skipWs_inv_ne w10 hne10
          have k13 : Keeps s12 s13 := by rw [he13]; exact (KeepsW.step _ _ _).toKeeps
          refine ⟨?_, _, s13.rest, _, ?_, .info (.mk L1.1 L2.1 (L3.1.append L4)) hkey L8.1 L10 S11 L12 .nil, .inr ⟨rfl, rfl, rfl⟩⟩
          · have z1 := (KeepsW.step s s.rest r0).toKeeps.trans k1
            have z2 := (z1.trans (KeepsW.step s1 s1.rest r1).toKeeps).trans k2
            have z3 := ((z2.trans (KeepsW.step s2 s2.rest r2).toKeeps).trans k3).trans k4
            have z4 := (((z3.trans k7.toKeeps).trans k8).trans k9).trans k10
            exact ((z4.trans k11.toKeeps).trans k12).trans k13
          · simp only at x1 x2 x3
            rw [e1, x1, e2, x2, e3, x3, x4, e7, x8, e9, x10, x11, x12, e13]
            simp
        · simp only [Bool.false_eq_true, ↓reduceIte] at h
          cases h
      · simp only [Bool.not_false, ↓reduceIte] at h
        cases h
    · cases h

omit [Env] in
theorem AfterWs.of {u : Text} {s s' : St} (h : AfterWs u s.rest) (hw : skipWs s = .ok () s') : AfterWs u s'.rest := by
  obtain ⟨-, l, u', e, hl, hu'⟩ := skipWs_inv' hw
  rcases h with ⟨rfl, hn⟩ | ⟨ho, hr⟩
  · have : l = [] := Stuck.nil_of_layout (.inl (e ▸ hn)) hl
    subst this
    simp only [List.nil_append] at e
    rw [e]; exact hu'
  · right
    refine ⟨ho, ?_⟩
    rw [hr] at e
    have h0 := List.append_eq_nil_iff.mp e.symm
    rcases hu' with ⟨h1, -⟩ | ⟨-, h1⟩
    · rw [← h1]; exact h0.2
    · exact h1

/-- The attribute loop accepts attributes only. -/
theorem attributes_sound (f : Nat) : ∀ (s s' : St) (u : Text), attributes f s = .ok () s' → AfterWs u s.rest →
    ∃ t u' e, u = t ++ u' ∧ Attrs t e ∧ AfterWs u' s'.rest ∧ s'.exts = s.exts.union e ∧ s'.src = s.src ∧
      startsWith s'.rest ['#'] = false := by
  induction f with
  | zero => intro s s' u h; cases h
  | succ f ih =>
    intro s s' u h hu
    rw [attributes] at h
    replace h := bind_ok h; obtain ⟨a, s1, h1, h⟩ := h
    rcases docAttribute_sound h1 with ⟨rfl, rfl, hs⟩ | ⟨k1, t, u1, e, e1, A, hc⟩
    · simp only [pure_apply, Res.ok.injEq, true_and] at h
      subst h
      exact ⟨[], u, _, rfl, .nil, hu, by rw [Exts.union_empty], rfl, hs⟩
    · have hut : u = s.rest := by
        rcases hu with ⟨rfl, -⟩ | ⟨-, hr⟩
        · rfl
        · rw [hr] at e1
          have := (List.append_eq_nil_iff.mp e1.symm).1
          cases A with
          | enable ho => cases ho; simp at this
          | info ho => cases ho; simp at this
      rcases hc with ⟨rfl, ha⟩ | ⟨rfl, rfl, rfl⟩
      · simp only [bind_apply, modSt_apply] at h
        cases hw : skipWs { s1 with exts := s1.exts.union e } with
        | err x y => rw [hw] at h; cases h
        | ok x s2 =>
          rw [hw] at h
          have ha2 : AfterWs u1 s2.rest := AfterWs.of (s := { s1 with exts := s1.exts.union e }) ha hw
          obtain ⟨k2, -⟩ := skipWs_inv hw
          obtain ⟨t', u', e', g1, g2, g3, g4, g5, g6⟩ := ih _ _ _ h ha2
          refine ⟨t ++ t', u', e.union e', by rw [hut, e1, g1]; simp, .cons A g2, g3, ?_, ?_, g6⟩
          · rw [g4, k2.exts, ← Exts.union_assoc, k1.exts]
          · rw [g5, k2.src, k1.src]
      · simp only [bind_apply] at h
        cases hw : skipWs s1 with
        | err x y => rw [hw] at h; cases h
        | ok x s2 =>
          rw [hw] at h
          obtain ⟨k2, l, u2, e2, hl, hu2⟩ := skipWs_inv' hw
          obtain ⟨t', u', e', g1, g2, g3, g4, g5, g6⟩ := ih _ _ _ h hu2
          have A' : Attr (t ++ l) ⟨false, false, false, false⟩ := by
            cases A with
            | @info o key l4 l5 tt v l6 l7 a1 a2 a3 a4 a5 a6 a7 =>
              have := Attr.info a1 a2 a3 a4 a5 a6 (a7.append hl)
              simpa using this
            | @enable o l4 l5 tt l6 l7 e a1 a2 a3 a4 a5 a6 =>
              have := Attr.enable a1 a2 a3 a4 a5 (a6.append hl)
              simpa using this
          refine ⟨t ++ l ++ t', u', _, by rw [hut, e1, e2, g1]; simp, .cons A' g2, g3, ?_, ?_, g6⟩
          · rw [g4, k2.exts, Exts.empty_union, k1.exts]
          · rw [g5, k2.src, k1.src]

/-! ### Completeness -/

omit [Env] in
theorem attrOpen_ok {o u : Text} (h : AttrOpen o) {s : St} (hs : s.rest = o ++ u) (hu : NoLayoutStart u) :
    Runs (consumeAll [c!"#", c!"!", c!"["] true) s true u := by
  cases h with
  | @mk l1 l2 l3 L1 L2 L3 =>
    obtain ⟨s1, r1, k1, e1⟩ := consumeAll_step (s := s) (t := c!"#") (l := l1) (u := '!' :: (l2 ++ '[' :: (l3 ++ u)))
      (ts := [c!"!", c!"["]) (by simpa using hs) L1 (noStart_cons (by decide))
    obtain ⟨s2, r2, k2, e2⟩ := consumeAll_step (s := s1) (t := c!"!") (l := l2) (u := '[' :: (l3 ++ u))
      (ts := [c!"["]) (by simpa using r1) L2 (noStart_cons (by decide))
    obtain ⟨s3, r3, k3, e3⟩ := consumeAll_step (s := s2) (t := c!"[") (l := l3) (u := u)
      (ts := []) (by simpa using r2) L3 hu
    exact ⟨s3, by rw [e1, e2, e3]; rfl, r3, k1.trans (k2.trans k3)⟩

omit [Env] in
theorem AttrOpen.hash {o : Text} (h : AttrOpen o) : ∃ o', o = '#' :: o' := by cases h; exact ⟨_, rfl⟩

theorem ExtList.start {t : Text} {e : Exts} (h : ExtList t e) (r : Text) : NoLayoutStart (t ++ r) := by
  cases h with
  | last a b _ => simpa using (extNamed_start a b).1
  | lastComma a b _ _ => simpa using (extNamed_start a b).1
  | more a b _ _ _ => simpa using (extNamed_start a b).1

theorem follow_noIdent {l : Text} {c : Char} {r : Text} (hl : Layout l) (h : c.toNat < 128)
    (h' : ((c == '.' || c == '+' || c == '-') || (isAsciiAlpha c || isDigit c || c == '_')) = false)
    (h1 : c ≠ '"') (h2 : c ≠ '\'') (h3 : c ≠ '#') : NoIdentStart (l ++ c :: r) :=
  (layout_follow hl (follow_cons h h' h1 h2 h3)).xid

omit [Env] in
theorem strLit_start {t v : Text} (h : StrLit t v) (r : Text) : NoLayoutStart (t ++ r) := by
  cases h <;> exact noStart_cons (by decide)

omit [Env] in
theorem noStart_nil : NoLayoutStart [] := by intro c r e; cases e

/-- Reading one attribute, up to the layout after it. -/
theorem docAttribute_ok {a r : Text} {e : Exts} (h : Attr a e) (hr : NoLayoutStart r) {s : St} (hs : s.rest = a ++ r) :
    ∃ s1 s2 p, docAttribute s = .ok p s1 ∧ Keeps s s1 ∧ skipWs s1 = .ok () s2 ∧ s2.rest = r ∧
      ((p = .extensions e) ∨ (p = .ignored ∧ e = ⟨false, false, false, false⟩)) := by
  have hh : startsWith s.rest ['#'] = true := by
    cases h with
    | enable ho => obtain ⟨o', rfl⟩ := ho.hash; rw [hs]; simp
    | info ho => obtain ⟨o', rfl⟩ := ho.hash; rw [hs]; simp
  cases h with
  | @enable o l4 l5 t l6 l7 e ho L4 L5 hE L6 L7 =>
    have n1 : NoLayoutStart (c!"enable" ++ (l4 ++ '(' :: (l5 ++ (t ++ ')' :: (l6 ++ ']' :: (l7 ++ r)))))) :=
      noStart_cons (by decide)
    obtain ⟨s1, h1, r1, k1⟩ := attrOpen_ok ho (s := s) (by simpa using hs) n1
    obtain ⟨s2, h2, r2, k2⟩ := skipWs_ok (s := s1) (l := []) (by simpa using r1) .nil n1
    have h3 := consumeIdent_true r2 (follow_noIdent L4 (by decide) (by decide) (by decide) (by decide) (by decide))
    obtain ⟨s4, h4, r4, k4⟩ := skipWs_ok (s := { s2 with prev := s2.rest, rest := l4 ++ '(' :: (l5 ++ (t ++ ')' :: (l6 ++ ']' :: (l7 ++ r)))) }) rfl L4
      (noStart_cons (by decide))
    have h5 := consumeStr_true (t := c!"(") (s := s4) (by rw [r4]; simp)
    obtain ⟨s6, h6, r6, k6⟩ := skipWs_ok (s := { s4 with prev := s4.rest, rest := s4.rest.drop 1 }) (l := l5) (r := t ++ ')' :: (l6 ++ ']' :: (l7 ++ r)))
      (by simp [r4]) L5 (hE.start _)
    obtain ⟨s7, h7, r7, k7⟩ := extensionList_ok hE (s6.rest.length + 1) Exts.empty s6 (l6 ++ ']' :: (l7 ++ r)) r6 (by rw [r6]; simp; omega)
    obtain ⟨s8, h8, r8, k8⟩ := skipWs_ok (s := s7) (l := []) (by simpa using r7) .nil (noStart_cons (by decide))
    obtain ⟨s9, r9, k9, e9⟩ := consumeAll_step (s := s8) (t := c!")") (l := l6) (u := ']' :: (l7 ++ r))
      (ts := [c!"]"]) (by simpa using r8) L6 (noStart_cons (by decide))
    obtain ⟨s10, r10, k10, e10⟩ := consumeAll_step (s := s9) (t := c!"]") (l := l7) (u := r)
      (ts := []) (by simpa using r9) L7 hr
    have h9 : consumeAll [c!")", c!"]"] true s8 = .ok true s10 := by rw [e9, e10]; rfl
    obtain ⟨s11, h11, r11, k11⟩ := skipWs_ok (s := s10) (l := []) (by simpa using r10) .nil hr
    refine ⟨s10, s11, .extensions e, ?_, ?_, h11, r11, .inl rfl⟩
    · unfold docAttribute
      simp only [bind_apply, checkChar_apply, hh, Bool.not_true, Bool.false_eq_true, ↓reduceIte, ite_P, h1, h2, h3, h4,
        h5, List.length_cons, List.length_nil, Nat.zero_add, h6, getSt_apply, h7, h8, h9, pure_apply]
      rw [show Exts.empty.union e = e from Exts.empty_union e]
    · have z1 := (k1.trans k2).trans ((KeepsW.step s2 s2.rest _).toKeeps.trans k4)
      have z2 := z1.trans ((KeepsW.step s4 s4.rest _).toKeeps.trans k6)
      exact (((z2.trans k7).trans k8).trans k9).trans k10
  | @info o key l4 l5 t v l6 l7 ho hkey L4 L5 hS L6 L7 =>
    have n1 : NoLayoutStart (key ++ (l4 ++ '=' :: (l5 ++ (t ++ (l6 ++ ']' :: (l7 ++ r)))))) := by
      rcases hkey with rfl | rfl <;> exact noStart_cons (by decide)
    obtain ⟨s1, h1, r1, k1⟩ := attrOpen_ok ho (s := s) (by simpa using hs) n1
    obtain ⟨s2, h2, r2, k2⟩ := skipWs_ok (s := s1) (l := []) (by simpa using r1) .nil n1
    have h3 := consumeIdent_true r2 (follow_noIdent L4 (by decide) (by decide) (by decide) (by decide) (by decide))
    obtain ⟨s4, h4, r4, k4⟩ := skipWs_ok (s := { s2 with prev := s2.rest, rest := l4 ++ '=' :: (l5 ++ (t ++ (l6 ++ ']' :: (l7 ++ r)))) }) rfl L4
      (noStart_cons (by decide))
    have h5 := consumeStr_true (t := c!"=") (s := s4) (by rw [r4]; simp)
    obtain ⟨s6, h6, r6, k6⟩ := skipWs_ok (s := { s4 with prev := s4.rest, rest := s4.rest.drop 1 }) (l := l5) (r := t ++ (l6 ++ ']' :: (l7 ++ r)))
      (by simp [r4]) L5 (strLit_start hS _)
    obtain ⟨s7, h7, r7, k7⟩ := string_ok r6 hS
    obtain ⟨s8, h8, r8, k8⟩ := skipWs_ok (s := s7) r7 L6 (noStart_cons (by decide))
    have h9 := consumeStr_true (t := c!"]") (s := s8) (by rw [r8]; simp)
    obtain ⟨s10, h10, r10, k10⟩ := skipWs_ok (s := { s8 with prev := s8.rest, rest := s8.rest.drop 1 }) (l := l7) (r := r)
      (by simp [r8]) L7 hr
    have hne : startsWith s2.rest c!"enable" = false := by
      rw [r2]; rcases hkey with rfl | rfl <;> rfl
    refine ⟨{ s8 with prev := s8.rest, rest := s8.rest.drop 1 }, s10, .ignored, ?_, ?_, h10, r10, .inr ⟨rfl, rfl⟩⟩
    · unfold docAttribute
      rcases hkey with rfl | rfl
      · simp only [bind_apply, checkChar_apply, hh, Bool.not_true, Bool.false_eq_true, ↓reduceIte, ite_P, h1, h2, h3, h4,
          h5, List.length_cons, List.length_nil, Nat.zero_add, h6, h7, h8, h9, pure_apply,
          consumeIdent_false (s := s2) (t := c!"enable") (.inl hne)]
      · have hnt : startsWith s2.rest c!"type" = false := by rw [r2]; rfl
        simp only [bind_apply, checkChar_apply, hh, Bool.not_true, Bool.false_eq_true, ↓reduceIte, ite_P, h1, h2, h3, h4,
          h5, List.length_cons, List.length_nil, Nat.zero_add, h6, h7, h8, h9, pure_apply,
          consumeIdent_false (s := s2) (t := c!"enable") (.inl hne), consumeIdent_false (s := s2) (t := c!"type") (.inl hnt)]
    · have z1 := (k1.trans k2).trans ((KeepsW.step s2 s2.rest _).toKeeps.trans k4)
      have z2 := z1.trans ((KeepsW.step s4 s4.rest _).toKeeps.trans k6)
      exact ((z2.trans k7.toKeeps).trans k8).trans (KeepsW.step s8 s8.rest _).toKeeps

omit [Env] in
theorem Attrs.start {t r : Text} {e : Exts} (h : Attrs t e) (hr : NoLayoutStart r) : NoLayoutStart (t ++ r) := by
  cases h with
  | nil => exact hr
  | cons ha _ =>
    cases ha with
    | enable ho => obtain ⟨o', rfl⟩ := ho.hash; exact noStart_cons (by decide)
    | info ho => obtain ⟨o', rfl⟩ := ho.hash; exact noStart_cons (by decide)

/-- The loop passes over attributes. -/
theorem attributes_step {t r : Text} {e : Exts} (h : Attrs t e) (hr : NoLayoutStart r) : ∀ (f : Nat) (s : St),
    s.rest = t ++ r → t.length < f → ∃ f' s', attributes f s = attributes (f' + 1) s' ∧ s'.rest = r ∧ f ≤ f' + 1 + t.length ∧
      s'.exts = s.exts.union e ∧ s'.src = s.src ∧ s'.nv = s.nv ∧ s'.lastIdent = s.lastIdent ∧ s'.limit = s.limit := by
  induction h with
  | nil =>
    intro f s hs hf
    cases f with
    | zero => simp at hf
    | succ f => exact ⟨f, s, rfl, by simpa using hs, by simp, by rw [Exts.union_empty], rfl, rfl, rfl, rfl⟩
  | @cons a t e e' ha ht ih =>
    intro f s hs hf
    have hlen : 1 ≤ a.length := by
      cases ha with
      | enable ho => obtain ⟨o', rfl⟩ := ho.hash; simp
      | info ho => obtain ⟨o', rfl⟩ := ho.hash; simp
    cases f with
    | zero => simp at hf
    | succ f =>
      obtain ⟨s1, s2, p, h1, k1, h2, r2, hp⟩ := docAttribute_ok ha (ht.start hr) (s := s) (by simpa using hs)
      rcases hp with rfl | ⟨rfl, rfl⟩
      · obtain ⟨l, u, e2, L, hu⟩ := (skipWs_inv' h2).2
        have h2' : ∃ s3, skipWs { s1 with exts := s1.exts.union e } = .ok () s3 ∧ s3.rest = t ++ r ∧ Keeps { s1 with exts := s1.exts.union e } s3 := by
          rcases hu with ⟨hu, hn⟩ | ⟨ho, hn⟩
          · obtain ⟨s3, a1, a2, a3⟩ := skipWs_ok (s := { s1 with exts := s1.exts.union e }) e2 L hn
            exact ⟨s3, a1, by rw [a2, hu, r2], a3⟩
          · obtain ⟨s3, a1, a2, a3, -⟩ := skipWs_openLine (s := { s1 with exts := s1.exts.union e }) e2 L ho
            exact ⟨s3, a1, by rw [a2, ← hn, r2], a3⟩
        obtain ⟨s3, h3, r3, k3⟩ := h2'
        obtain ⟨f', s', g1, g2, g3, g4, g5, g6, g7, g8⟩ := ih f s3 r3 (by simp at hf; omega)
        refine ⟨f', s', ?_, g2, by simp; omega, ?_, ?_, ?_, ?_, ?_⟩
        · rw [attributes, bind_apply, h1]
          simp only [bind_apply, modSt_apply, h3]
          exact g1
        · rw [g4, k3.exts, ← Exts.union_assoc, k1.exts]
        · rw [g5, k3.src, k1.src]
        · rw [g6, k3.nv, k1.nv]
        · rw [g7, k3.lastIdent, k1.lastIdent]
        · rw [g8, k3.limit, k1.limit]
      · obtain ⟨f', s', g1, g2, g3, g4, g5, g6, g7, g8⟩ := ih f s2 r2 (by simp at hf; omega)
        obtain ⟨k2, -⟩ := skipWs_inv h2
        refine ⟨f', s', ?_, g2, by simp; omega, ?_, ?_, ?_, ?_, ?_⟩
        · rw [attributes, bind_apply, h1]
          simp only [bind_apply, h2]
          exact g1
        · rw [g4, k2.exts, Exts.empty_union, k1.exts]
        · rw [g5, k2.src, k1.src]
        · rw [g6, k2.nv, k1.nv]
        · rw [g7, k2.lastIdent, k1.lastIdent]
        · rw [g8, k2.limit, k1.limit]

theorem attributes_stop {f : Nat} {s : St} (h : startsWith s.rest ['#'] = false) : attributes (f + 1) s = .ok () s := by
  have : docAttribute s = .ok .none s := by
    unfold docAttribute
    simp only [bind_apply, checkChar_apply, h, Bool.not_false, ↓reduceIte, ite_P, pure_apply]
  rw [attributes, bind_apply, this]
  rfl

/-- The parser after a well-formed header. -/
theorem parserNew_ok {l t r : Text} {e : Exts} (hl : Layout l) (ht : Attrs t e) (hr : NoLayoutStart r)
    (hh : startsWith r ['#'] = false) (s : St) (hs : s.rest = l ++ (t ++ r)) :
    ∃ s', parserNew s = .ok () s' ∧ s'.rest = r ∧ s'.exts = s.exts.union e ∧ s'.src = s.src ∧ s'.nv = s.nv ∧
      s'.lastIdent = s.lastIdent ∧ s'.limit = s.limit := by
  obtain ⟨s1, h1, r1, k1⟩ := skipWs_ok hs hl (ht.start hr)
  obtain ⟨f', s', g1, g2, -, g4, g5, g6, g7, g8⟩ := attributes_step ht hr (s1.rest.length + 1) s1 r1 (by rw [r1]; simp; omega)
  refine ⟨s', ?_, g2, by rw [g4, k1.exts], by rw [g5, k1.src], by rw [g6, k1.nv], by rw [g7, k1.lastIdent], by rw [g8, k1.limit]⟩
  unfold parserNew
  rw [bind_apply, h1]
  simp only [bind_apply, getSt_apply]
  rw [g1]
  exact attributes_stop (by rw [g2]; exact hh)

theorem parserNew_sound {s s' : St} (h : parserNew s = .ok () s') :
    ∃ l t u e, s.rest = l ++ (t ++ u) ∧ Layout l ∧ Attrs t e ∧ AfterWs u s'.rest ∧ s'.exts = s.exts.union e ∧
      s'.src = s.src ∧ startsWith s'.rest ['#'] = false := by
  unfold parserNew at h
  replace h := bind_ok h; obtain ⟨_, s1, h1, h⟩ := h
  rw [getSt_bind] at h
  obtain ⟨k1, l, u, e1, hl, hu⟩ := skipWs_inv' h1
  obtain ⟨t, u', e, g1, g2, g3, g4, g5, g6⟩ := attributes_sound _ _ _ _ h hu
  exact ⟨l, t, u', e, by rw [e1, g1], hl, g2, g3, by rw [g4, k1.exts], by rw [g5, k1.src], g6⟩

end Ron
