import Verif.Lemmas.Attr
import Verif.Lemmas.Witness
import Verif.Model.Open
/-!
# C14: document attributes only ever add known extensions
-/

set_option linter.unusedSimpArgs false

namespace Ron

variable [Env]

/-- Soundness: if a document opens, its text is layout, a sequence of attributes (Spec/Attr.lean, where `type` and
`schema` enable nothing and an extension is enabled only by its name in an `enable` list), and a remainder; the extensions in
force are exactly the default ones and those the attributes name. -/
theorem C14_sound (o : Options) (t : Text) (s : St) (h : deNew o (St.init t) = .ok () s) :
    ∃ l a u e, t = l ++ (a ++ u) ∧ Layout l ∧ Attrs a e ∧ s.exts = e.union o.defaultExtensions ∧
      ((u = s.rest ∧ NoLayoutStart u) ∨ (OpenLine u ∧ s.rest = [])) ∧ (∀ r, s.rest ≠ '#' :: r) := by
  unfold deNew at h
  replace h := bind_ok h; obtain ⟨_, s1, h1, h⟩ := h
  cases h1
  replace h := bind_ok h; obtain ⟨_, s2, h2, h⟩ := h
  cases h
  obtain ⟨l, a, u, e, g1, g2, g3, g4, g5, -, g7⟩ := parserNew_sound h2
  refine ⟨l, a, u, e, g1, g2, g3, ?_, g4, ?_⟩
  · show s2.exts.union _ = _
    rw [g5]
    show (Exts.empty.union e).union _ = _
    rw [show Exts.empty.union e = e from Exts.empty_union e]
  · intro r hr
    have hr : s2.rest = '#' :: r := hr
    rw [hr] at g7
    simp [startsWith] at g7

/-- A default extension is never disabled. -/
theorem C14_default_kept (o : Options) (t : Text) (s : St) (h : deNew o (St.init t) = .ok () s) :
    (o.defaultExtensions.unwrapNewtypes = true → s.exts.unwrapNewtypes = true) ∧
    (o.defaultExtensions.implicitSome = true → s.exts.implicitSome = true) ∧
    (o.defaultExtensions.unwrapVariantNewtypes = true → s.exts.unwrapVariantNewtypes = true) ∧
    (o.defaultExtensions.explicitStructNames = true → s.exts.explicitStructNames = true) := by
  obtain ⟨l, a, u, e, -, -, -, h4, -⟩ := C14_sound o t s h
  rw [h4]
  refine ⟨?_, ?_, ?_, ?_⟩ <;> intro hx <;> simp [Exts.union, hx]

omit [Env] in
/-- The name of an enabled extension occurs in the list. -/
theorem ExtList.names {t : Text} {e : Exts} (h : ExtList t e) : ∀ n x, ExtNamed n x → x.Sub e → n <:+: t := by
  have one : ∀ {id : Text} {e : Exts}, ExtNamed id e → ∀ n x, ExtNamed n x → x.Sub e → n = id := by
    intro id e h n x hn hs
    cases h <;> cases hn <;> first | rfl | simp [Exts.Sub, Exts.union] at hs
  have tok : ∀ {id tok : Text}, IdentTok id tok → id <:+: tok := by
    intro id tok h
    cases h with
    | plain => exact List.infix_rfl
    | raw => exact ⟨['r', '#'], [], by simp⟩
  induction h with
  | last hn ht _ =>
    intro n x h1 h2
    rw [one hn n x h1 h2]
    exact (tok ht).trans (List.prefix_append _ _).isInfix
  | lastComma hn ht _ _ =>
    intro n x h1 h2
    rw [one hn n x h1 h2]
    exact (tok ht).trans (List.prefix_append _ _).isInfix
  | @more id tok' l l' t e e' hn ht _ _ _ ih =>
    intro n x h1 h2
    have : x.Sub e ∨ x.Sub e' := by
      obtain ⟨a1, a2, a3, a4⟩ := e
      obtain ⟨b1, b2, b3, b4⟩ := e'
      cases h1 <;> simp [Exts.Sub, Exts.union] at h2 ⊢ <;> exact h2
    rcases this with h2 | h2
    · rw [one hn n x h1 h2]
      exact (tok ht).trans (List.prefix_append _ _).isInfix
    · exact (ih n x h1 h2).trans ⟨tok' ++ (l ++ ',' :: l'), [], by simp⟩

omit [Env] in
/-- The name of an enabled extension occurs inside an `enable(..)` attribute. -/
theorem Attrs.names {t : Text} {e : Exts} (h : Attrs t e) (n : Text) (x : Exts) (hn : ExtNamed n x) (hx : x.Sub e) :
    ∃ p o l4 l5 ls ls' q, t = p ++ (o ++ (c!"enable" ++ (l4 ++ '(' :: (l5 ++ (ls ++ (n ++ (ls' ++ ')' :: q))))))) ∧
      AttrOpen o ∧ Layout l4 ∧ Layout l5 ∧ ∃ e', ExtList (ls ++ (n ++ ls')) e' := by
  induction h with
  | nil => cases hn <;> simp [Exts.Sub, Exts.union] at hx
  | @cons a t e e' ha _ ih =>
    have : x.Sub e ∨ x.Sub e' := by
      obtain ⟨a1, a2, a3, a4⟩ := e
      obtain ⟨b1, b2, b3, b4⟩ := e'
      cases hn <;> simp [Exts.Sub, Exts.union] at hx ⊢ <;> exact hx
    rcases this with h2 | h2
    · cases ha with
      | @enable o l4 l5 t' l6 l7 _ ho h4 h5 hE h6 h7 =>
        obtain ⟨ls, ls', e1⟩ := hE.names n x hn h2
        refine ⟨[], o, l4, l5, ls, ls', l6 ++ ']' :: (l7 ++ t), ?_, ho, h4, h5, _, by rw [← e1] at hE; simpa using hE⟩
        simp [← e1]
      | info => cases hn <;> simp [Exts.Sub, Exts.union] at h2
    · obtain ⟨p, o, l4, l5, ls, ls', q, e1, g⟩ := ih h2
      exact ⟨a ++ p, o, l4, l5, ls, ls', q, by rw [e1]; simp, g⟩

/-- An extension that is not on by default is on only if its name stands in an `enable` list of the document. -/
theorem C14_named (o : Options) (t : Text) (s : St) (h : deNew o (St.init t) = .ok () s) (n : Text) (x : Exts)
    (hn : ExtNamed n x) (hx : x.Sub s.exts) (hd : ¬ x.Sub o.defaultExtensions) :
    ∃ p op l4 l5 ls ls' q, t = p ++ (op ++ (c!"enable" ++ (l4 ++ '(' :: (l5 ++ (ls ++ (n ++ (ls' ++ ')' :: q))))))) ∧
      AttrOpen op ∧ Layout l4 ∧ Layout l5 ∧ ∃ e', ExtList (ls ++ (n ++ ls')) e' := by
  obtain ⟨l, a, u, e, g1, -, g3, g4, -⟩ := C14_sound o t s h
  have : x.Sub e := by
    rw [g4] at hx
    generalize o.defaultExtensions = d at hx hd
    obtain ⟨a1, a2, a3, a4⟩ := e
    obtain ⟨b1, b2, b3, b4⟩ := d
    cases hn <;> simp [Exts.Sub, Exts.union] at hx hd ⊢ <;> simpa [hd] using hx
  obtain ⟨p, op, l4, l5, ls, ls', q, e1, g⟩ := g3.names n x hn this
  exact ⟨l ++ p, op, l4, l5, ls, ls', q ++ u, by rw [g1, e1]; simp, g⟩

/-- Completeness: every well-formed sequence of attributes is accepted with exactly this effect. -/
theorem C14_complete (o : Options) {l a r : Text} {e : Exts} (hl : Layout l) (ha : Attrs a e) (hr : NoLayoutStart r)
    (hh : ∀ r', r ≠ '#' :: r') :
    ∃ s, deNew o (St.init (l ++ (a ++ r))) = .ok () s ∧ s.rest = r ∧ s.exts = e.union o.defaultExtensions ∧
      s.limit = o.recursionLimit := by
  have hh' : startsWith r ['#'] = false := by
    cases r with
    | nil => rfl
    | cons x b =>
      have : x ≠ '#' := fun e => hh b (by rw [e])
      have h2 : ('#' == x) = false := by simpa using Ne.symm this
      simp [startsWith, List.isPrefixOf, h2]
  obtain ⟨s', g1, g2, g3, -, -, -, g7⟩ := parserNew_ok hl ha hr hh'
    { St.init (l ++ (a ++ r)) with limit := o.recursionLimit } (by simp [St.init])
  unfold deNew
  simp only [bind_apply, modSt_apply, g1]
  refine ⟨_, rfl, g2, ?_, g7⟩
  show s'.exts.union _ = _
  rw [g3]
  show (Exts.empty.union e).union _ = _
  rw [show Exts.empty.union e = e from Exts.empty_union e]

omit [Env] in
/-- The known names that may stand before an unknown one. -/
inductive ExtLead : Text → Prop
  | nil : ExtLead []
  | cons {id tok l l' t : Text} {e : Exts} : ExtNamed id e → IdentTok id tok → Layout l → Layout l' → ExtLead t →
      ExtLead (tok ++ (l ++ ',' :: (l' ++ t)))

theorem identFirst_start {c : Char} (h : isIdentFirst c = true) : (c ∉ ronWhitespace ∧ c ≠ '/') ∧ Env.xidCont c = true := by
  have hx : Env.xidCont c = true := by
    unfold isIdentFirst at h
    simp only [Bool.or_eq_true, beq_iff_eq] at h
    rcases h with rfl | h
    · rw [Env.xidCont_ascii _ (by decide)]; decide
    · exact Env.xidStart_cont c h
  refine ⟨⟨fun hw => ?_, ?_⟩, hx⟩
  · rw [Env.xidCont_ws c ((isWs_iff c).mpr hw)] at hx; cases hx
  · rintro rfl
    rw [Env.xidCont_ascii _ (by decide)] at hx; revert hx; decide

theorem identTok_start {id tok r : Text} (h : IdentTok id tok) (hp : PlainName id) :
    NoLayoutStart (tok ++ r) ∧ headXid (tok ++ r) = true := by
  cases h with
  | plain =>
    obtain ⟨c, cs, rfl, hc, -⟩ := hp
    exact ⟨noStart_cons (identFirst_start hc).1, (identFirst_start hc).2⟩
  | raw => exact ⟨noStart_cons (by decide), xid_cont_ascii (by decide)⟩

theorem ExtLead.start {t id tok r : Text} (h : ExtLead t) (ht : IdentTok id tok) (hp : PlainName id) :
    NoLayoutStart (t ++ (tok ++ r)) ∧ headXid (t ++ (tok ++ r)) = true := by
  cases h with
  | nil => exact identTok_start (r := r) ht hp
  | cons hn ht' _ _ _ => simpa using identTok_start ht' hn.plain

theorem extensionList_unknown {t : Text} (h : ExtLead t) {id tok r : Text} (ht : IdentTok id tok) (hp : PlainName id)
    (hr : IdentFollow r) (hid : ∀ e, ¬ ExtNamed id e) : ∀ (f : Nat) (acc : Exts) (s : St), s.rest = t ++ (tok ++ r) → t.length < f →
    ∃ s', extensionList f acc s = .err (.noSuchExtension id) s' := by
  induction h with
  | nil =>
    intro f acc s hs hf
    cases f with
    | zero => omega
    | succ f =>
      obtain ⟨s1, h1, h2, h3⟩ := identTok_reads ht hp hr (d := s) (by simpa using hs)
      cases hn : Exts.fromIdent id with
      | none => refine ⟨s1, ?_⟩; rw [extensionList, bind_apply, h1]; simp only [hn]; rfl
      | some e => exact absurd (extNamed_iff.mp hn) (hid e)
  | @cons id' tok' l l' t e hn ht' hl hl' hlead ih =>
    intro f acc s hs hf
    cases f with
    | zero => omega
    | succ f =>
      obtain ⟨s1, h1, h2, h3⟩ := identTok_reads (r := l ++ ',' :: (l' ++ (t ++ (tok ++ r)))) ht' hn.plain
        (layout_follow hl (follow_cons (by decide) (by decide) (by decide) (by decide) (by decide))) (d := s) (by simpa using hs)
      obtain ⟨n1, n2⟩ := hlead.start (r := r) ht hp
      obtain ⟨s2, g1, g2, g3⟩ := comma_some h2 hl hl' n1
      obtain ⟨s3, k1⟩ := ih f (acc.union e) s2 g2 (by simp at hf; omega)
      refine ⟨s3, ?_⟩
      rw [extensionList, bind_apply, h1]
      simp only [extNamed_iff.mpr hn, bind_apply, g1, getSt_apply, g2, n2]
      exact k1

/-- An unknown name is rejected, wherever it stands: after any attributes and any known names of its own list, whatever
follows it. -/
theorem C14_unknown (o : Options) {l a op l4 l5 t id tok r : Text} {e : Exts} (hl : Layout l) (ha : Attrs a e)
    (hop : AttrOpen op) (h4 : Layout l4) (h5 : Layout l5) (hlead : ExtLead t) (ht : IdentTok id tok) (hp : PlainName id)
    (hr : IdentFollow r) (hid : ∀ e, ¬ ExtNamed id e) :
    ∃ s, deNew o (St.init (l ++ (a ++ (op ++ (c!"enable" ++ (l4 ++ '(' :: (l5 ++ (t ++ (tok ++ r))))))))) =
      .err (.noSuchExtension id) s := by
  generalize hdoc : op ++ (c!"enable" ++ (l4 ++ '(' :: (l5 ++ (t ++ (tok ++ r))))) = doc
  have hd0 : NoLayoutStart doc ∧ startsWith doc ['#'] = true := by
    obtain ⟨o', rfl⟩ := hop.hash
    rw [← hdoc]
    exact ⟨noStart_cons (by decide), by simp⟩
  obtain ⟨s0, h0, r0, k0⟩ := skipWs_ok (s := { St.init (l ++ (a ++ doc)) with limit := o.recursionLimit }) (l := l) (r := a ++ doc)
    (by simp [St.init]) hl (ha.start hd0.1)
  obtain ⟨f', s, g1, g2, -⟩ := attributes_step ha hd0.1 (s0.rest.length + 1) s0 r0 (by rw [r0]; simp; omega)
  have key : ∃ s', docAttribute s = .err (.noSuchExtension id) s' := by
    have hh : startsWith s.rest ['#'] = true := by rw [g2]; exact hd0.2
    have n1 : NoLayoutStart (c!"enable" ++ (l4 ++ '(' :: (l5 ++ (t ++ (tok ++ r))))) := noStart_cons (by decide)
    obtain ⟨s1, h1, r1, k1⟩ := attrOpen_ok hop (s := s) (by rw [g2, ← hdoc]) n1
    obtain ⟨s2, h2, r2, k2⟩ := skipWs_ok (s := s1) (l := []) (by simpa using r1) .nil n1
    have h3 := consumeIdent_true r2 (follow_noIdent h4 (by decide) (by decide) (by decide) (by decide) (by decide))
    obtain ⟨s4, h4, r4, k4⟩ := skipWs_ok (s := { s2 with prev := s2.rest, rest := l4 ++ '(' :: (l5 ++ (t ++ (tok ++ r))) }) rfl h4
      (noStart_cons (by decide))
    have h5' := consumeStr_true (t := c!"(") (s := s4) (by rw [r4]; simp)
    obtain ⟨s6, h6, r6, k6⟩ := skipWs_ok (s := { s4 with prev := s4.rest, rest := s4.rest.drop 1 }) (l := l5) (r := t ++ (tok ++ r))
      (by simp [r4]) h5 (hlead.start ht hp).1
    obtain ⟨s7, h7⟩ := extensionList_unknown hlead ht hp hr hid (s6.rest.length + 1) Exts.empty s6 r6 (by rw [r6]; simp; omega)
    refine ⟨s7, ?_⟩
    unfold docAttribute
    simp only [bind_apply, checkChar_apply, hh, Bool.not_true, Bool.false_eq_true, ↓reduceIte, ite_P, h1, h2, h3, h4,
      h5', List.length_cons, List.length_nil, Nat.zero_add, h6, getSt_apply, h7]
  obtain ⟨s', hs'⟩ := key
  refine ⟨s', ?_⟩
  unfold deNew parserNew
  have g3 : attributes (f' + 1) s = .err (.noSuchExtension id) s' := by rw [attributes, bind_apply, hs']
  simp only [bind_apply, modSt_apply, h0, getSt_apply, g1, g3]

/-- Non-vacuity: an attribute with a comment inside, and an unknown name after a known one. -/
example : ExtList c!"implicit_some/**/, unwrap_newtypes," (Exts.union ⟨false, true, false, false⟩ ⟨true, false, false, false⟩) ∧
    ExtLead c!"implicit_some," ∧ (∀ e, ¬ ExtNamed c!"abc" e) := by
  refine ⟨?_, ?_, ?_⟩
  · exact .more (tok := c!"implicit_some") (l := c!"/**/") (l' := [' ']) (t := c!"unwrap_newtypes,") .implicitSome .plain
      (.block (b := ['*', '/']) (.closes .done) .nil) (.ws (by decide) .nil)
      (.lastComma (tok := c!"unwrap_newtypes") (l := []) (l' := []) .unwrapNewtypes .plain .nil .nil)
  · exact .cons (tok := c!"implicit_some") (l := []) (l' := []) (t := []) .implicitSome .plain .nil .nil .nil
  · intro e h; cases h

end Ron
