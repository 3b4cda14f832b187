import Verif.Props.C13
import Verif.Lemmas.RendDen
/-! Whole documents: what serialization writes, and reading a document. -/

set_option linter.unusedSimpArgs false

namespace Ron

variable [Env]

/-- The extensions in force for a configuration. -/
def extsOf (o : Options) (cfg : Option PrettyConfig) : Exts :=
  o.defaultExtensions.union (match cfg with | some c => c.extensions | none => {})

/-- Are number suffixes written? -/
def sfxOf (cfg : Option PrettyConfig) : Bool := match cfg with | some c => c.numberSuffixes | none => false

/-- Are ranges written compactly? -/
def crOf (cfg : Option PrettyConfig) : Bool := match cfg with | some c => c.compactRanges | none => false

/-- How ranges are written. -/
def rgOf (o : Options) (cfg : Option PrettyConfig) : Ranges :=
  if crOf cfg then
    if (extsOf o cfg).explicitStructNames || (extsOf o cfg).unwrapVariantNewtypes then .compactStrict else .compact
  else .structs

omit [Env] in
theorem rgOf_structs {o : Options} {cfg : Option PrettyConfig} (h : crOf cfg = false) : rgOf o cfg = .structs := by
  simp [rgOf, h]

/-- Are options inside newtype variants written without `Some` and tuples there without parentheses? -/
def wxOf (o : Options) (cfg : Option PrettyConfig) : Bool :=
  (extsOf o cfg).implicitSome && (extsOf o cfg).unwrapVariantNewtypes

omit [Env] in
theorem TokStart.noHash {t : Text} (h : TokStart t) (r : Text) : startsWith (t ++ r) ['#'] = false := by
  obtain ⟨d, t', rfl, h1, h2⟩ := h
  simp only [List.cons_append, startsWith_cons, startsWith_nil_right, Bool.and_true, beq_eq_false_iff_ne]
  rintro rfl
  exact h2 (by simp)

/-- A whole document: leading layout, attributes, the value, trailing layout. -/
theorem doc_reads {α : Type} {x : Exts} {k : Nat} {seed : P α} {w : Text} {V : α} (hr : Reads x k seed w V)
    {o : Options} {l hdr l' : Text} {e : Exts} (hl : Layout l) (hh : Attrs hdr e) (hx : e.union o.defaultExtensions = x)
    (hk : ∀ m, o.recursionLimit = some m → k ≤ m) (hl' : Layout l') :
    fromStr o seed (l ++ (hdr ++ (w ++ l'))) = .ok V := by
  obtain ⟨s1, h1, r1, e1, -, n1, -, m1⟩ := parserNew_ok hl hh (hr.1.noLayout l') (hr.1.noHash l')
    { St.init (l ++ (hdr ++ (w ++ l'))) with limit := o.recursionLimit } (by simp [St.init])
  obtain ⟨s2, l2, h2, r2, k2, -⟩ := hr.2 { s1 with exts := s1.exts.union o.defaultExtensions } l' []
    ⟨n1, by rw [← hx]; simp [e1, St.init, Exts.union, Exts.empty], fun m hm => hk m (m1.symm.trans hm)⟩
    (by simpa using r1) hl' (.inl rfl)
  obtain ⟨s3, h3, r3, -⟩ := skipWs_ok r2 k2 (fun c r e => by cases e)
  unfold fromStr readDoc deNew deEnd
  simp only [bind_apply, modSt_apply, h1, h2, h3, getSt_apply, r3, List.isEmpty_nil, ↓reduceIte, pure_apply]
  rfl

/-- The serializer after its construction: the header is written. -/
theorem toText_start {o : Options} {cfg : Option PrettyConfig} (hb : ∀ c, cfg = some c → c.Blank) :
    ∃ s1 e, serNew (Ser.init o cfg {}) = .ok () s1 ∧ s1.extensions = extsOf o cfg ∧ s1.numberSuffixes = sfxOf cfg ∧
      s1.compactRanges = crOf cfg ∧ Idle s1 ∧ Attrs s1.w.out e ∧ e.union o.defaultExtensions = extsOf o cfg := by
  have hb' : ∀ c i, (Ser.init o cfg {}).pretty = some (c, i) → c.Blank := by
    intro c i e
    cases cfg with
    | none => cases e
    | some c' =>
      simp only [Ser.init, Option.map_some, Option.some.injEq, Prod.mk.injEq] at e
      rw [← e.1]; exact hb _ rfl
  have h0 := serNew_quiet (s := Ser.init o cfg {}) rfl hb'
  generalize hs : (Ser.init o cfg {}).put _ = s1 at h0
  have hx1 : s1.extensions = extsOf o cfg := by
    rw [← hs]; cases cfg <;> rfl
  have hn1 : s1.numberSuffixes = sfxOf cfg := by
    rw [← hs]; cases cfg <;> rfl
  have hc : s1.compactRanges = crOf cfg := by
    rw [← hs]; cases cfg <;> rfl
  have hg : Good s1 := by
    have hp : s1.pretty = (Ser.init o cfg {}).pretty := by rw [← hs]; rfl
    refine ⟨by rw [← hs]; rfl, ?_, ?_, ?_⟩ <;> intro c i e <;> rw [hp] at e <;> rw [all_isWs_iff]
    · exact (hb' c i e).1
    · exact (hb' c i e).2.1
    · exact (hb' c i e).2.2
  refine ⟨s1, cfg.elim ⟨false, false, false, false⟩ (fun c => o.defaultExtensions.compl.inter c.extensions), h0, hx1, hn1, hc,
    ⟨hg, by rw [← hs]; rfl, by rw [← hs]; rfl⟩, ?_, ?_⟩
  · rw [← hs]
    cases cfg with
    | none => exact .nil
    | some c => exact attrs_headerText _ (Layout.blank (hb c rfl).1)
  · unfold extsOf
    cases cfg with
    | none => simp [Exts.union, Exts.empty]
    | some c =>
      simp only [Option.elim]
      obtain ⟨a1, a2, a3, a4⟩ := o.defaultExtensions
      obtain ⟨b1, b2, b3, b4⟩ := c.extensions
      cases a1 <;> cases a2 <;> cases a3 <;> cases a4 <;> cases b1 <;> cases b2 <;> cases b3 <;> cases b4 <;> rfl

/-- What `to_string` and `to_string_pretty` return: a header and a rendering of the data. -/
theorem toText_rend {o : Options} {cfg : Option PrettyConfig} {v : SVal} {t : Text} (hv : v.Clean (rgOf o cfg) (wxOf o cfg))
    (h : toText o cfg v = .ok t) :
    ∃ hdr w e, t = hdr ++ w ∧ Attrs hdr e ∧ e.union o.defaultExtensions = extsOf o cfg ∧
      Rend (extsOf o cfg) (sfxOf cfg) false v w := by
  have hb : ∀ c, cfg = some c → c.Blank := by
    rintro c rfl
    refine Classical.byContradiction fun hb => ?_
    obtain ⟨m, s, h1, -⟩ := C36_refused o c {} v hb
    simp [toText, h1] at h
  obtain ⟨s1, e, h0, hx1, hn1, hc, hid, ha, hu⟩ := toText_start (o := o) hb
  have hrd : Ready (rgOf o cfg) (wxOf o cfg) s1 := by
    refine ⟨hid.good, ?_, ?_, ?_⟩
    · rw [hc]
      unfold rgOf
      split
      · next h => rw [h]; split <;> rfl
      · next h => simpa using h
    · intro e
      rw [hx1]
      unfold rgOf at e
      split at e
      · split at e
        · cases e
        · next h => simpa using h
      · cases e
    · rw [hx1]; rfl
  unfold toText toWriter at h
  simp only [wbind_apply, h0] at h
  cases hse : ser v s1 with
  | err e s => rw [hse] at h; cases h
  | ok a s2 =>
    rw [hse] at h
    simp only [Except.ok.injEq] at h
    obtain ⟨-, -, w, hst, hrend⟩ := (writes_of v hv).elem hid hrd hse
    rw [hx1, hn1] at hrend
    have hout := hst.out
    rw [h] at hout
    exact ⟨s1.w.out, w, e, hout, ha, hu, hrend⟩

/-- Reading self-describing data as a `Value`, with the fuel of `deValue`. -/
theorem deValue_reads {x : Exts} (hx : x.unwrapVariantNewtypes = false) {n : Nat} {w : Text} {V : Value} (h : Den n w V) :
    Reads x n deValue w V := by
  have h' : ∃ m, m ≤ n ∧ m ≤ w.length ∧ Den m w V := by
    by_cases hn : n ≤ w.length
    · exact ⟨n, Nat.le_refl _, hn, h⟩
    · exact ⟨w.length, by omega, Nat.le_refl _, den_length h⟩
  obtain ⟨m, hm, hl, hd⟩ := h'
  refine Reads.mono ?_ hm
  refine ⟨(den_reads hx m (m + 1) (by omega) w V hd).1.1, fun d l q hp hdr hla hq => ?_⟩
  have := (den_reads hx m (2 * d.rest.length + 2) (by rw [hdr]; simp; omega) w V hd).1.2 d l q hp hdr hla hq
  obtain ⟨s', l', h1, h2⟩ := this
  refine ⟨s', l', ?_, h2⟩
  unfold deValue
  simp only [bind_apply, getSt_apply, h1]

end Ron
