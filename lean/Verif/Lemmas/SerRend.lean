import Verif.Lemmas.SerStep
import Verif.Spec.Clean
import Verif.Lemmas.DeAny
/-! What the serializer writes is in the grammar of typed text. -/

set_option linter.unusedSimpArgs false

namespace Ron

variable [Env] {rg : Ranges} {wx : Bool}

/-! ### Names -/

theorem validateIdentifier_inv {s s' : Ser} {name : Text} (h : validateIdentifier name s = .ok () s') :
    RawName name ∧ s' = s := by
  unfold validateIdentifier at h
  rw [ite_W] at h
  split at h
  · cases h
  · next hn =>
    simp only [wpure_apply, WRes.ok.injEq, true_and] at h
    simp only [Bool.or_eq_true, List.isEmpty_iff, Bool.not_eq_true', not_or, Bool.not_eq_false, List.all_eq_true] at hn
    exact ⟨hn, h.symm⟩

theorem writeIdentifier_inv {s s' : Ser} {name : Text} (hq : s.Quiet) (h : writeIdentifier name s = .ok () s') :
    RawName name ∧ NameTok name (identText name) ∧ s' = s.put (identText name) := by
  have hr : RawName name := by
    unfold writeIdentifier at h
    obtain ⟨_, s1, h1, h⟩ := wbind_ok h
    exact (validateIdentifier_inv h1).1
  rw [writeIdentifier_quiet hq] at h
  split at h
  · cases h
  · simp only [WRes.ok.injEq, true_and] at h
    exact ⟨hr, .identText hr, h.symm⟩

/-! ### Pending implicit options and unwrapped newtypes -/

/-- The data under serialization is `g v` where `v` is what is left: `k` options are pending. -/
inductive Ctx (x : Exts) (nv0 : Bool) : Nat → Bool → (SVal → SVal) → Prop
  | nil : Ctx x nv0 0 nv0 id
  | some {k nv g} : x.implicitSome = true → Ctx x nv0 k nv g → Ctx x nv0 (k + 1) nv (fun v => g (.some v))
  | newtype {k nv g name} : (x.unwrapNewtypes || nv) = true → Ctx x nv0 k nv g →
      Ctx x nv0 k false (fun v => g (.newtypeStruct name v))

omit [Env] in
theorem Ctx.nv {x : Exts} {nv0 nv : Bool} {k : Nat} {g : SVal → SVal} (h : Ctx x nv0 k nv g) : nv = true → nv0 = true := by
  induction h with
  | nil => exact id
  | some _ _ ih => exact ih
  | newtype => simp

omit [Env] in
theorem Ctx.implicit {x : Exts} {nv0 nv : Bool} {k : Nat} {g : SVal → SVal} (h : Ctx x nv0 k nv g) :
    k ≠ 0 → x.implicitSome = true := by
  induction h with
  | nil => simp
  | some hi _ _ => exact fun _ => hi
  | newtype _ _ ih => exact ih

/-- Text of the innermost data is text of the whole. -/
theorem Ctx.lift {x : Exts} {nv0 nv sfx : Bool} {k : Nat} {g : SVal → SVal} (h : Ctx x nv0 k nv g) {w : Text}
    (hk : k = 0 ∨ NotOption w) : ∀ {v : SVal}, Rend x sfx nv v w → Rend x sfx nv0 (g v) w := by
  induction h with
  | nil => exact fun hv => hv
  | some hi _ ih =>
    intro v hv
    have hw : NotOption w := hk.resolve_left (by simp)
    exact ih (.inr hw) (show Rend x sfx _ (.some v) w from .inr ⟨hi, hv, hw⟩)
  | newtype hu _ ih =>
    intro v hv
    refine ih hk ?_
    simp only [Rend, hu, ↓reduceIte]
    exact hv

/-- `None` with explicit options around it. -/
def somes : Nat → Text → Text
  | 0, w => w
  | k + 1, w => somes k (c!"Some(" ++ (w ++ c!")"))

omit [Env] in
theorem somes_eq (k : Nat) (w : Text) :
    somes k w = (List.replicate k c!"Some(").flatten ++ (w ++ (List.replicate k c!")").flatten) := by
  induction k generalizing w with
  | zero => simp [somes]
  | succ k ih =>
    rw [somes, ih]
    rw [List.replicate_succ' (a := c!"Some("), List.replicate_succ (a := c!")")]
    simp only [List.flatten_append, List.flatten_cons, List.flatten_nil, List.append_nil, List.append_assoc]

theorem Ctx.explicit {x : Exts} {nv0 nv sfx : Bool} {k : Nat} {g : SVal → SVal} (h : Ctx x nv0 k nv g)
    (h0 : nv0 = true → x.unwrapVariantNewtypes = true) :
    ∀ {v : SVal} {w : Text}, (∀ nv', (nv = true → nv' = true) → Rend x sfx nv' v w) → Rend x sfx nv0 (g v) (somes k w) := by
  induction h with
  | nil => exact fun hv => hv _ id
  | @some k nv g _ hc ih =>
    intro v w hv
    refine ih fun nv' _ => .inl ⟨[], '(' :: ([] ++ (w ++ ([] ++ [')']))), .nil, ⟨[], w, [], .nil, ?_, ⟨.plain .nil, fun _ => .nil⟩, rfl⟩, by simp⟩
    exact hv _ fun e => h0 (hc.nv e)
  | @newtype k nv g name hu _ ih =>
    intro v w hv
    refine ih fun nv' hn => ?_
    have : (x.unwrapNewtypes || nv') = true := by
      simp only [Bool.or_eq_true] at hu ⊢
      exact hu.imp id hn
    simp only [Rend, this, ↓reduceIte]
    exact hv _ (by simp)

/-! ### Texts that do not begin with `Some` or `None` -/

theorem notOption_cons {c : Char} {u : Text} (h : c ≠ 'S' ∧ c ≠ 'N') : NotOption (c :: u) := by
  intro kw hkw v e
  simp only [List.mem_cons, List.not_mem_nil, or_false] at hkw
  rcases hkw with rfl | rfl
  · simp at e; exact absurd e.1 h.1
  · simp at e; exact absurd e.1 h.2

theorem notOption_nil : NotOption [] := by
  intro kw hkw v e
  simp only [List.mem_cons, List.not_mem_nil, or_false] at hkw
  rcases hkw with rfl | rfl <;> simp at e

theorem NameTok.notOption {name tok r : Text} (h : NameTok name tok) (hr : IdentFollow r) : NotOption (tok ++ r) := by
  intro kw hkw u e
  have hk : kw ∈ reservedNames := by
    simp only [List.mem_cons, List.not_mem_nil, or_false] at hkw
    rcases hkw with rfl | rfl <;> decide
  rcases h.notKeyword hr hk with h1 | h1
  · rw [e, startsWith_append] at h1; cases h1
  · rw [e, List.drop_left] at h1
    cases u with
    | nil => simp [headXid] at h1
    | cons c u' => exact ⟨c, u', rfl, by simpa [headXid] using h1⟩

theorem number_notOption (n : Number) (sfx : Bool) : NotOption (n.text sfx) := by
  rcases number_text_form n sfx with ⟨v, hv⟩ | ⟨c, u, e, hc⟩
  · intro kw hkw u e
    generalize n.text sfx = t at *
    simp only [List.mem_cons, List.not_mem_nil, or_false] at hkw
    simp only [floatWords, List.mem_cons, List.not_mem_nil, or_false, Prod.mk.injEq] at hv
    rcases hkw with rfl | rfl <;> rcases hv with h | h | h | h | h | h <;> obtain ⟨rfl, -⟩ := h <;> simp at e
  · rw [e]
    refine notOption_cons ?_
    constructor <;> rintro rfl <;> rcases hc with hc | hc <;> revert hc <;> decide

/-! ### One serializer action -/

omit [Env] in
theorem TailOf.nil {w : Text} : TailOf w [] := ⟨.plain .nil, fun _ => .nil⟩

/-- A value without parentheses to drop has a text. -/
theorem rend_ne {x : Exts} {sfx : Bool} : ∀ (v : SVal) {w : Text}, Rend x sfx false v w → w ≠ []
  | .bool b, w, h => by simp only [Rend] at h; subst h; cases b <;> simp
  | .num n, w, h => by simp only [Rend] at h; rw [h.2]; exact (tokStart_number n sfx).ne
  | .char c, w, h => by simp only [Rend] at h; obtain ⟨u, hu⟩ := charText_form c; rw [h, hu]; simp
  | .str t, w, h => by
    simp only [Rend] at h
    exact (scalar_tokStart (.str h)).ne
  | .bytes t, w, h => by
    simp only [Rend] at h
    exact (scalar_tokStart (.bytes h)).ne
  | .none, w, h => by simp only [Rend] at h; subst h; simp
  | .some v, w, h => by
    simp only [Rend] at h
    rcases h with ⟨l, p, -, -, rfl⟩ | ⟨-, h, -⟩
    · simp
    · exact rend_ne v h
  | .unit, w, h => by simp only [Rend] at h; subst h; simp
  | .unitStruct name, w, h => by
    simp only [Rend, Bool.false_eq_true, ↓reduceIte] at h
    rcases h with (⟨-, rfl⟩ | h) | ⟨-, rfl⟩
    · simp
    · exact h.tokStart.ne
    · simp
  | .unitVariant e v, w, h => by simp only [Rend] at h; exact h.tokStart.ne
  | .newtypeStruct name v, w, h => by
    simp only [Rend, Bool.or_false] at h
    split at h
    · exact rend_ne v h
    · obtain ⟨p, q, -, ⟨a, t, b, -, -, -, rfl⟩, rfl⟩ := h
      simp
  | .newtypeVariant e n v, w, h => by
    simp only [Rend] at h
    obtain ⟨k, l, p, h1, -, -, rfl⟩ := h
    simp [h1.tokStart.ne]
  | .seq n vs, w, h => by
    simp only [Rend] at h
    obtain ⟨ts, -, h2⟩ := h
    cases h2 <;> simp
  | .tuple vs, w, h => by
    simp only [Rend, Bool.false_eq_true, ↓reduceIte] at h
    obtain ⟨ts, -, h2⟩ := h
    cases h2 <;> simp
  | .tupleStruct name vs, w, h => by
    simp only [Rend, Bool.false_eq_true, ↓reduceIte] at h
    obtain ⟨ts, -, p, q, -, h2, rfl⟩ := h
    cases h2 <;> simp
  | .tupleVariant e n vs, w, h => by
    simp only [Rend] at h
    obtain ⟨ts, -, k, l, q, h1, -, -, rfl⟩ := h
    simp [h1.tokStart.ne]
  | .map n kvs, w, h => by
    simp only [Rend] at h
    obtain ⟨ts, -, h2⟩ := h
    cases h2 <;> simp
  | .struct name fs, w, h => by
    simp only [Rend, Bool.false_eq_true, ↓reduceIte] at h
    rcases h with ⟨ts, -, p, q, -, h2, rfl⟩ | ⟨es, -, h1, h2⟩
    · cases h2 <;> simp
    · exact (h1.tokStart fun e he => (h2 e he).2.1).ne
  | .structVariant e n fs, w, h => by
    simp only [Rend] at h
    obtain ⟨ts, -, k, l, q, h1, -, -, rfl⟩ := h
    simp [h1.tokStart.ne]
  | .raw _, w, h => by simp only [Rend] at h

/-- What serializing `v` wrote. -/
structure Wrote (s s' : Ser) (nv0 : Bool) (v : SVal) : Prop where
  pretty : s'.pretty = s.pretty
  nv : s.nv = false → s'.nv = false
  isd : s.isd = 0 → s'.isd = 0
  text : ∃ a w b, Layout a ∧ TailOf w b ∧ (nv0 = false → a = [] ∧ b = []) ∧ Step s s' (a ++ (w ++ b)) ∧
    Rend s.extensions s.numberSuffixes nv0 v w

/-- The conditions under which the grammar is right. -/
structure Ready (rg : Ranges) (wx : Bool) (s : Ser) : Prop where
  good : Good s
  compactRanges : s.compactRanges = decide (rg ≠ .structs)
  plain : rg = .compact → s.extensions.explicitStructNames = false ∧ s.extensions.unwrapVariantNewtypes = false
  options : (s.extensions.implicitSome && s.extensions.unwrapVariantNewtypes) = wx

omit [Env] in
theorem Ready.step {s s' : Ser} (h : Ready rg wx s) (hc : s'.core = s.core) : Ready rg wx s' :=
  ⟨h.good.step hc, by rw [core_compactRanges hc, h.compactRanges], by rw [core_extensions hc]; exact h.plain, by rw [core_extensions hc]; exact h.options⟩

/-- Every successful serialization of `v` writes a rendering of it. -/
def Writes (rg : Ranges) (wx : Bool) (v : SVal) : Prop :=
  ∀ s s', Ready rg wx s → ser v s = .ok () s' → ∀ nv0 g, (nv0 = true → s.extensions.unwrapVariantNewtypes = true) →
    Ctx s.extensions nv0 s.isd s.nv g → (wx = true → s.nv = true → v.OptOk (s.isd != 0)) → Wrote s s' nv0 (g v)

theorem wrote_of {s s' : Ser} {nv0 : Bool} {g : SVal → SVal} {v : SVal} {a w b : Text}
    (hc : Ctx s.extensions nv0 s.isd s.nv g) (hp : s'.pretty = s.pretty) (hn : s.nv = false → s'.nv = false)
    (hi : s.isd = 0 → s'.isd = 0) (ha : Layout a) (hb : TailOf w b) (hab : s.nv = false → a = [] ∧ b = [])
    (hst : Step s s' (a ++ (w ++ b))) (hr : Rend s.extensions s.numberSuffixes s.nv v w) (hk : s.isd = 0 ∨ NotOption w) :
    Wrote s s' nv0 (g v) :=
  ⟨hp, hn, hi, a, w, b, ha, hb, fun h => hab (by
    cases h1 : s.nv with
    | false => rfl
    | true => rw [hc.nv h1] at h; cases h), hst, hc.lift hk hr⟩

theorem wrote_put {s s' : Ser} {nv0 : Bool} {g : SVal → SVal} {v : SVal} {w : Text}
    (hc : Ctx s.extensions nv0 s.isd s.nv g) (e : s' = s.put w)
    (hr : Rend s.extensions s.numberSuffixes s.nv v w) (hk : s.isd = 0 ∨ NotOption w) :
    Wrote s s' nv0 (g v) := by
  subst e
  exact wrote_of hc rfl id id .nil .nil (fun _ => ⟨rfl, rfl⟩) (by simpa using Step.put s w) hr hk

/-! ### Elements -/

theorem Writes.elem {v : SVal} (h : Writes rg wx v) {s s' : Ser} (hi : Idle s) (hr : Ready rg wx s) (e : ser v s = .ok () s') :
    Idle s' ∧ s'.pretty = s.pretty ∧ ∃ w, Step s s' w ∧ Rend s.extensions s.numberSuffixes false v w := by
  have hw := h s s' hr e false id (by simp) (by rw [hi.nv, hi.isd]; exact .nil) (by simp [hi.nv])
  obtain ⟨a, w, b, -, -, hab, hst, hrd⟩ := hw.text
  obtain ⟨rfl, rfl⟩ := hab rfl
  refine ⟨⟨hi.good.step hst.core, hw.nv hi.nv, hw.isd hi.isd⟩, hw.pretty, w, by simpa using hst, hrd⟩

omit [Env] in
theorem Idle.lim {s : Ser} (h : Idle s) (m : Option Nat) : Idle { s with limit := m } :=
  ⟨h.good.step rfl, h.nv, h.isd⟩
omit [Env] in
theorem Idle.put {s : Ser} (h : Idle s) (t : Text) : Idle (s.put t) :=
  ⟨h.good.step rfl, h.nv, h.isd⟩
omit [Env] in
theorem Idle.ready {s s0 : Ser} (h : Ready rg wx s0) (hc : s.core = s0.core) : Ready rg wx s := h.step hc

theorem Writes.guardQ {v : SVal} (h : Writes rg wx v) {s s' : Ser} (hi : Idle s) (hr : Ready rg wx s)
    (e : Ron.guardQ (ser v) s = .ok () s') :
    Idle s' ∧ s'.pretty = s.pretty ∧ ∃ w, Step s s' w ∧ Rend s.extensions s.numberSuffixes false v w := by
  obtain ⟨m, m', s2, h2, rfl⟩ := guardQ_inv e
  obtain ⟨h3, h4, w, h5, h6⟩ := h.elem (hi.lim m) (hr.step rfl) h2
  exact ⟨h3.lim m', h4, w, ⟨h5.out, h5.core⟩, h6⟩

theorem Writes.guardR {v : SVal} (h : Writes rg wx v) {s s' : Ser} (hi : Idle s) (hr : Ready rg wx s)
    (e : Ron.guardR (ser v) s = .ok () s') :
    Idle s' ∧ s'.pretty = s.pretty ∧ ∃ w, Step s s' w ∧ Rend s.extensions s.numberSuffixes false v w := by
  obtain ⟨m, m', s2, h2, rfl⟩ := guardR_inv e
  obtain ⟨h3, h4, w, h5, h6⟩ := h.elem (hi.lim m) (hr.step rfl) h2
  exact ⟨h3.lim m', h4, w, ⟨h5.out, h5.core⟩, h6⟩

omit [Env] in
/-- The separator and the indentation before an element. -/
theorem lead_good {s : Ser} (h : Good s) (rest compact : Bool) :
    ∃ l, Layout l ∧ (if rest then betweenSep compact else pure ()) s = .ok () (s.put ((if rest then [','] else []) ++ l)) := by
  cases rest with
  | false => exact ⟨[], .nil, by simp⟩
  | true =>
    obtain ⟨l, hl, e⟩ := betweenSep_good h compact
    exact ⟨l, hl, by simp [e]⟩

omit [Env] in
theorem indentIf_good {s : Ser} (h : Good s) (b : Bool) :
    ∃ l, Layout l ∧ (if b then indent else pure ()) s = .ok () (s.put l) := by
  cases b with
  | false => exact ⟨[], .nil, by simp⟩
  | true =>
    obtain ⟨l, hl, e⟩ := indent_good h
    exact ⟨l, hl, by simp [e]⟩

omit [Env] in
theorem blockTail_digits {t b : Text} (h : ∀ c ∈ t, isDigit c = true) {n : Nat} (hb : BlockTail (n + 1) b) :
    BlockTail (n + 1) (t ++ b) := by
  induction t with
  | nil => exact hb
  | cons c t ih =>
    have hc := h c (by simp)
    refine .other ?_ ?_ (ih fun d hd => h d (by simp [hd])) <;> rintro ⟨u, e⟩ <;> simp at e <;> obtain ⟨rfl, -⟩ := e <;>
      revert hc <;> decide

omit [Env] in
/-- `/*[i]*/ ` is layout. -/
theorem layout_index (n : Nat) : Layout (c!"/*[" ++ natText n ++ c!"]*/ ") := by
  have h : BlockTail 1 (c!"[" ++ (natText n ++ c!"]*/")) := by
    refine .other ?_ ?_ (blockTail_digits (natText_digit n) (.other ?_ ?_ (.closes .done))) <;> rintro ⟨u, e⟩ <;> simp at e
  have := Layout.block h (Layout.ws (c := ' ') (l := []) (by decide) .nil)
  simpa using this

omit [Env] in
theorem splitLines_noNewline (t cur : Text) (hc : '\n' ∉ cur) : ∀ l ∈ splitLines t cur, '\n' ∉ l := by
  induction t generalizing cur with
  | nil =>
    intro l hl
    simp only [splitLines] at hl
    split at hl
    · cases hl
    · simp only [List.mem_cons, List.not_mem_nil, or_false] at hl
      subst hl; simpa using hc
  | cons c t ih =>
    intro l hl
    simp only [splitLines] at hl
    split at hl
    · rcases List.mem_cons.mp hl with rfl | hl
      · split
        · next cur' => simp only [List.mem_cons, not_or] at hc; simpa using hc.2
        · simpa using hc
      · exact ih [] (by simp) l hl
    · next hn =>
      exact ih _ (by simp only [List.mem_cons, not_or]; exact ⟨fun e => hn (by simp [← e]), hc⟩) l hl

omit [Env] in
theorem docLines_good (ls : List Text) : ∀ {s : Ser}, Good s → (∀ l ∈ ls, '\n' ∉ l) →
    ∃ l, Layout l ∧ docLines ls s = .ok () (s.put l) := by
  induction ls with
  | nil => exact fun _ _ => ⟨[], .nil, by simp [docLines]⟩
  | cons d ls ih =>
    intro s h hn
    have h1 : Good (s.put (c!"/// " ++ (d ++ c!"\n"))) := h.step rfl
    obtain ⟨l1, hl1, e1⟩ := indent_good h1
    obtain ⟨l2, hl2, e2⟩ := ih (s := (s.put (c!"/// " ++ (d ++ c!"\n"))).put l1) (h1.step rfl) (fun l hl => hn l (by simp [hl]))
    refine ⟨c!"/// " ++ (d ++ c!"\n") ++ (l1 ++ l2), ?_, ?_⟩
    · have : Layout ('/' :: '/' :: (c!"/ " ++ d ++ '\n' :: [])) := .line (by simpa using hn d (by simp)) .nil
      have := this.append (hl1.append hl2)
      simpa using this
    · unfold docLines
      simp only [wbind_apply, write_quiet h.quiet, write_quiet (h.quiet.put _), Ser.put_put] at e1 e2 ⊢
      simp only [List.append_assoc] at e1 e2 ⊢
      rw [e1]
      simp only [List.append_assoc] at e1 e2 ⊢
      rw [e2]

omit [Env] in
theorem Step.ext {a b : Ser} {w u : Text} (h : Step a b w) (e : w = u) : Step a b u := e ▸ h

/-- The text of an item under the settings of `s`. -/
abbrev RendOf (s : Ser) (v : SVal) (w : Text) : Prop := Rend s.extensions s.numberSuffixes false v w

theorem seqElement_elem {v : SVal} (h : Writes rg wx v) {s0 : Ser} (hr : Ready rg wx s0) {c c' : Comp} {s s' : Ser} (hi : Idle s)
    (hs : s.core = s0.core) (e : seqElement c (ser v) s = .ok c' s') :
    c'.rest = true ∧ c'.nv = c.nv ∧ c'.range = c.range ∧ Elem c.rest (RendOf s0 v) s s' := by
  obtain ⟨l1, hl1, e1⟩ := lead_good hi.good c.rest s.compactArrays
  have g1 := hi.put ((if c.rest then [','] else []) ++ l1)
  obtain ⟨l2, hl2, e2⟩ := indentIf_good g1.good (!s.compactArrays)
  have g2 := g1.put l2
  have key : ∃ l3 i, Layout l3 ∧ elemIndex s.pretty c.idx ((s.put ((if c.rest then [','] else []) ++ l1)).put l2) =
      .ok i (((s.put ((if c.rest then [','] else []) ++ l1)).put l2).put l3) := by
    unfold elemIndex
    cases s.pretty with
    | none => exact ⟨[], c.idx, .nil, by simp⟩
    | some p =>
      obtain ⟨p, j⟩ := p
      simp only [ite_W]
      split
      · exact ⟨_, c.idx + 1, layout_index c.idx, by simp only [wbind_apply, write_quiet g2.good.quiet, wpure_apply]⟩
      · exact ⟨[], c.idx, .nil, by simp⟩
  obtain ⟨l3, i, hl3, e3⟩ := key
  have g3 := g2.put l3
  unfold seqElement at e
  simp only [ite_seq] at e
  simp only [wbind_apply, wget_apply, e1, e2] at e
  rw [e3] at e
  simp only at e
  split at e
  · next u s2 hg =>
    obtain ⟨rfl, rfl⟩ := wpure_ok e
    obtain ⟨h3, h4, w, h5, h6⟩ := h.guardQ g3 (hr.step hs) hg
    refine ⟨rfl, rfl, rfl, h3, h4, l1 ++ (l2 ++ l3), w, hl1.append (hl2.append hl3), ?_, ?_⟩
    · have e1 := core_extensions hs
      have e2 := core_numberSuffixes hs
      simp only [Ser.put_extensions, Ser.put_numberSuffixes, e1, e2] at h6
      exact h6
    · refine (((Step.put _ _).trans (Step.put _ _)).trans ((Step.put _ _).trans h5)).ext ?_
      simp
  · cases e

theorem tupleElement_elem {v : SVal} (h : Writes rg wx v) {s0 : Ser} (hr : Ready rg wx s0) {c c' : Comp} {s s' : Ser} (hi : Idle s)
    (hs : s.core = s0.core) (e : tupleElement c (ser v) s = .ok c' s') :
    c'.rest = true ∧ c'.nv = c.nv ∧ c'.range = c.range ∧ Elem c.rest (RendOf s0 v) s s' := by
  obtain ⟨l1, hl1, e1⟩ := lead_good hi.good c.rest (!s.separateTupleMembers)
  have g1 := hi.put ((if c.rest then [','] else []) ++ l1)
  obtain ⟨l2, hl2, e2⟩ := indentIf_good g1.good s.separateTupleMembers
  have g2 := g1.put l2
  unfold tupleElement at e
  simp only [ite_seq] at e
  simp only [wbind_apply, wget_apply, e1, e2] at e
  split at e
  · next u s2 hg =>
    obtain ⟨rfl, rfl⟩ := wpure_ok e
    obtain ⟨h3, h4, w, h5, h6⟩ := h.guardQ g2 (hr.step hs) hg
    refine ⟨rfl, rfl, rfl, h3, h4, l1 ++ l2, w, hl1.append hl2, ?_, ?_⟩
    · have e1 := core_extensions hs
      have e2 := core_numberSuffixes hs
      simp only [Ser.put_extensions, Ser.put_numberSuffixes, e1, e2] at h6
      exact h6
    · refine (((Step.put _ _).trans (Step.put _ _)).trans h5).ext ?_
      simp
  · cases e

omit [Env] in
/-- The separator after a colon. -/
theorem colonSep_good {s : Ser} (h : Good s) (p : Option (PrettyConfig × Nat)) (hp : ∀ c i, p = some (c, i) → c.separator.all isWs = true) :
    ∃ l, Layout l ∧ colonSep p s = .ok () (s.put l) := by
  cases p with
  | none => exact ⟨[], .nil, by simp [colonSep]⟩
  | some p => exact ⟨_, layout_ws (hp p.1 p.2 rfl), write_quiet h.quiet _⟩

/-- A map entry under the settings of `s`. -/
abbrev EntryOf (s : Ser) (kv : SVal × SVal) (e : Text) : Prop :=
  ∃ kt vt, RendOf s kv.1 kt ∧ RendOf s kv.2 vt ∧ Entry kt vt e

theorem mapEntry_elem {k v : SVal} (hk : Writes rg wx k) (hv : Writes rg wx v) {s0 : Ser} (hr : Ready rg wx s0) {c c' : Comp} {s s' : Ser}
    (hi : Idle s) (hs : s.core = s0.core) (e : mapEntry c (ser k) (ser v) s = .ok c' s') :
    c'.rest = true ∧ c'.nv = c.nv ∧ c'.range = c.range ∧ Elem c.rest (EntryOf s0 (k, v)) s s' := by
  obtain ⟨l1, hl1, e1⟩ := lead_good hi.good c.rest s.compactMaps
  have g1 := hi.put ((if c.rest then [','] else []) ++ l1)
  obtain ⟨l2, hl2, e2⟩ := indentIf_good g1.good (!s.compactMaps)
  have g2 := g1.put l2
  unfold mapEntry at e
  simp only [ite_seq] at e
  simp only [wbind_apply, wget_apply, e1, e2] at e
  split at e
  · next u s2 hg =>
    obtain ⟨h3, h4, w, h5, h6⟩ := hk.guardR g2 (hr.step hs) hg
    simp only [write_quiet h3.good.quiet] at e
    have g3 := h3.put c!":"
    obtain ⟨l3, hl3, e3⟩ := colonSep_good g3.good s.pretty hi.good.separator
    rw [e3] at e
    have g4 := g3.put l3
    simp only at e
    split at e
    · next u s4 hg4 =>
      obtain ⟨rfl, rfl⟩ := wpure_ok e
      have hs2 : ((s2.put c!":").put l3).core = s0.core := h5.core.trans hs
      obtain ⟨i3, i4, w', i5, i6⟩ := hv.guardQ g4 (hr.step hs2) hg4
      have e1 := core_extensions hs
      have e2 := core_numberSuffixes hs
      have e3 := core_extensions hs2
      have e4 := core_numberSuffixes hs2
      rw [e3, e4] at i6
      simp only [Ser.put_extensions, Ser.put_numberSuffixes, e1, e2] at h6
      refine ⟨rfl, rfl, rfl, i3, i4.trans (by simpa using h4), l1 ++ l2, w ++ ([] ++ ':' :: (l3 ++ w')), hl1.append hl2,
        ⟨w, w', h6, i6, .mk .nil hl3⟩, ?_⟩
      refine (((Step.put _ _).trans (Step.put _ _)).trans (h5.trans ((Step.put _ _).trans ((Step.put _ _).trans i5)))).ext ?_
      simp
    · cases e
  · cases e

omit [Env] in
theorem takeMeta_good (key : Text) (s : Ser) : ∃ r s', takeMeta key s = .ok r s' ∧ s'.core = s.core ∧ s'.w = s.w ∧
    s'.nv = s.nv ∧ s'.isd = s.isd ∧ ∀ s2 : Ser, s2.pretty = s'.pretty →
      restoreMeta key r s2 = .ok () { s2 with pretty := s.pretty } := by
  unfold takeMeta
  cases hp : s.pretty with
  | none =>
    refine ⟨_, s, rfl, rfl, rfl, rfl, rfl, fun s2 h2 => ?_⟩
    rw [hp] at h2
    simp only [restoreMeta, wmod_apply, h2]
    cases s2; simp_all
  | some q =>
    obtain ⟨c, i⟩ := q
    simp only
    cases hm : c.pathMeta with
    | none =>
      refine ⟨none, s, rfl, rfl, rfl, rfl, rfl, fun s2 h2 => ?_⟩
      rw [hp] at h2
      simp only [restoreMeta, wmod_apply, h2]
      cases s2; cases c; simp_all
    | some f =>
      simp only
      cases hf : f.fields with
      | none =>
        refine ⟨_, _, rfl, by simp [Ser.core, hp], rfl, rfl, rfl, fun s2 h2 => ?_⟩
        simp only [restoreMeta, wmod_apply, h2]
        cases s2; cases c; simp_all
      | some fs =>
        refine ⟨_, _, rfl, by simp [Ser.core, hp], rfl, rfl, rfl, fun s2 h2 => ?_⟩
        simp only [restoreMeta, wmod_apply, h2]
        obtain ⟨d, g⟩ := f
        simp only [MetaField.fields, MetaField.doc] at hf ⊢
        subst hf
        have : ∀ m, ({ c with pathMeta := m } : PrettyConfig) = c ↔ m = c.pathMeta := by
          intro m; cases c; simp
        cases hk : fs key with
        | none =>
          simp only [WRes.ok.injEq, true_and, Ser.mk.injEq, Option.some.injEq, Prod.mk.injEq, and_true, this, hm,
            MetaField.mk.injEq, true_and]
          funext k
          split
          · next e => rw [e, hk]
          · rfl
        | some inner =>
          simp only [WRes.ok.injEq, true_and, Ser.mk.injEq, Option.some.injEq, Prod.mk.injEq, and_true, this, hm,
            MetaField.mk.injEq, true_and]
          funext k
          split
          · next e => rw [e, hk]
          · rfl

/-- A field under the settings of `s`. -/
abbrev FieldOf (s : Ser) (kv : Text × SVal) (e : Text) : Prop :=
  ∃ kt vt, NameTok kv.1 kt ∧ RendOf s kv.2 vt ∧ Entry kt vt e

theorem fieldPlain_elem {k : Text} {v : SVal} (hv : Writes rg wx v) {s0 : Ser} (hr : Ready rg wx s0) {c c' : Comp} {s s' : Ser}
    (hi : Idle s) (hs : s.core = s0.core) (e : fieldPlain c k (ser v) s = .ok c' s') :
    c'.rest = true ∧ c'.nv = c.nv ∧ c'.range = c.range ∧ Elem c.rest (FieldOf s0 (k, v)) s s' := by
  obtain ⟨r, t, et, tc, tw, tn, ti, tr⟩ := takeMeta_good k s
  have hit : Idle t := ⟨hi.good.step tc, tn.trans hi.nv, ti.trans hi.isd⟩
  obtain ⟨l1, hl1, e1⟩ := lead_good hit.good c.rest t.compactStructs
  have g1 := hit.put ((if c.rest then [','] else []) ++ l1)
  have key : ∃ l2, Layout l2 ∧ (if !t.compactStructs then fieldLead t.pretty else pure () : W Unit) (t.put ((if c.rest then [','] else []) ++ l1)) =
      .ok () ((t.put ((if c.rest then [','] else []) ++ l1)).put l2) := by
    rw [ite_W]
    split
    · obtain ⟨l, hl, el⟩ := indent_good g1.good
      have g2 := g1.put l
      unfold fieldLead
      simp only [wbind_apply, el]
      cases t.pretty with
      | none => exact ⟨l, hl, rfl⟩
      | some p =>
        obtain ⟨p, j⟩ := p
        simp only
        cases p.pathMeta with
        | none => exact ⟨l, hl, rfl⟩
        | some f =>
          obtain ⟨l', hl', el'⟩ := docLines_good (splitLines f.doc []) g2.good (splitLines_noNewline _ _ (by simp))
          refine ⟨l ++ l', hl.append hl', ?_⟩
          exact el'.trans (by simp only [Ser.put_put, List.append_assoc])
    · exact ⟨[], .nil, by simp⟩
  obtain ⟨l2, hl2, e2⟩ := key
  have g2 := g1.put l2
  unfold fieldPlain at e
  simp only [ite_seq] at e
  obtain ⟨_, _, h1, e⟩ := wbind_ok e
  rw [et] at h1
  simp only [WRes.ok.injEq] at h1
  obtain ⟨rfl, rfl⟩ := h1
  obtain ⟨_, _, h1, e⟩ := wbind_ok e
  simp only [wget_apply, WRes.ok.injEq] at h1
  obtain ⟨rfl, rfl⟩ := h1
  obtain ⟨_, _, h1, e⟩ := wbind_ok e
  rw [e1] at h1
  simp only [WRes.ok.injEq, true_and] at h1
  subst h1
  obtain ⟨_, _, h1, e⟩ := wbind_ok e
  rw [e2] at h1
  simp only [WRes.ok.injEq, true_and] at h1
  subst h1
  obtain ⟨_, _, h1, e⟩ := wbind_ok e
  obtain ⟨-, htok, rfl⟩ := writeIdentifier_inv g2.good.quiet h1
  have g3 := g2.put (identText k)
  obtain ⟨_, _, h1, e⟩ := wbind_ok e
  rw [write_quiet g3.good.quiet] at h1
  simp only [WRes.ok.injEq, true_and] at h1
  subst h1
  have g4 := g3.put c!":"
  obtain ⟨l3, hl3, e3⟩ := colonSep_good g4.good t.pretty hit.good.separator
  obtain ⟨_, _, h1, e⟩ := wbind_ok e
  have h1' := e3.symm.trans h1
  simp only [WRes.ok.injEq, true_and] at h1'
  subst h1'
  have g5 := g4.put l3
  obtain ⟨_, s6, h6, e⟩ := wbind_ok e
  have hs5 : t.core = s0.core := tc.trans hs
  obtain ⟨i3, i4, w, i5, i6⟩ := hv.guardQ g5 (hr.step (s' := ((((((t.put ((if c.rest then [','] else []) ++ l1)).put l2).put (identText k))).put c!":").put l3)) hs5) h6
  obtain ⟨_, s7, h7, e⟩ := wbind_ok e
  rw [tr s6 i4] at h7
  simp only [WRes.ok.injEq, true_and] at h7
  subst h7
  obtain ⟨rfl, rfl⟩ := wpure_ok e
  have hcore : s6.core = t.core := i5.core
  have hfin : ({ s6 with pretty := s.pretty } : Ser).core = s.core := by
    have h1 := core_fault (hcore.trans tc)
    have h2 := core_dflt (hcore.trans tc)
    simp [Ser.core, h1, h2]
  refine ⟨rfl, rfl, rfl, ⟨hi.good.step hfin, i3.nv, i3.isd⟩, rfl, l1 ++ l2, identText k ++ ([] ++ ':' :: (l3 ++ w)), hl1.append hl2,
    ⟨identText k, w, htok, ?_, .mk .nil hl3⟩, ?_, hfin⟩
  · have e1 := core_extensions hs5
    have e2 := core_numberSuffixes hs5
    simp only [Ser.put_extensions, Ser.put_numberSuffixes, e1, e2] at i6
    exact i6
  · have := i5.out
    simp only [Ser.put_out, tw] at this
    simp only [this]
    simp

/-! ### Compounds -/

/-- The opening of a compound: layout, and one more level of indentation if `flag`. -/
def Opens (flag : Bool) (s s' : Ser) : Prop :=
  ∃ l, Layout l ∧ Step s s' l ∧ s'.pretty = (if flag then s.pretty.map fun p => (p.1, p.2 + 1) else s.pretty) ∧
    s'.nv = s.nv ∧ s'.isd = s.isd

/-- The end of a compound before the closing delimiter. -/
def Closes (flag rest : Bool) (s s' : Ser) : Prop :=
  ∃ t, Tail t ∧ (rest = false → Layout t) ∧ Step s s' t ∧
    s'.pretty = (if flag then s.pretty.map fun p => (p.1, p.2 - 1) else s.pretty) ∧ s'.nv = s.nv ∧ s'.isd = s.isd

omit [Env] in
theorem startIndent_opens {s : Ser} (h : Good s) : ∃ s', startIndent s = .ok () s' ∧ Opens true s s' := by
  obtain ⟨l, hl, e⟩ := startIndent_good h
  exact ⟨_, e, l, hl, ⟨rfl, level_core _ _⟩, rfl, rfl, rfl⟩

omit [Env] in
theorem opens_of_isEmpty {s s' : Ser} {b : Option Bool} {f : Bool} (h : Opens f { s with isEmpty := b } s') : Opens f s s' := by
  obtain ⟨l, h1, h2, h3, h4, h5⟩ := h
  exact ⟨l, h1, ⟨h2.out, h2.core⟩, h3, h4, h5⟩

omit [Env] in
theorem opens_refl (s : Ser) : Opens false s s := ⟨[], .nil, .refl s, rfl, rfl, rfl⟩

omit [Env] in
theorem closes_good {s s' : Ser} {rest flag : Bool} (h : Good s)
    (e : (do trailingComma rest (!flag); if flag then endIndent else pure () : W Unit) s = .ok () s') : Closes flag rest s s' := by
  obtain ⟨t, ht, htn, e1⟩ := trailingComma_good h rest (!flag)
  simp only [wbind_apply, e1, ite_W] at e
  cases flag with
  | false =>
    simp only [Bool.false_eq_true, ↓reduceIte, wpure_apply, WRes.ok.injEq, true_and] at e
    subst e
    exact ⟨t, ht, fun hr => by rw [htn hr]; exact .nil, .put _ _, rfl, rfl, rfl⟩
  | true =>
    obtain ⟨l, em, hl, e2⟩ := endIndent_good (s := s.put t) (h.step rfl)
    simp only [↓reduceIte, e2, WRes.ok.injEq, true_and] at e
    subst e
    refine ⟨t ++ l, ht.layout hl, fun hr => by rw [htn hr]; exact hl, ⟨by simp [Ser.level], ?_⟩, rfl, rfl, rfl⟩
    exact level_core (s.put (t ++ l)) (· - 1)

/-- The inside of a compound. -/
def Inside {α : Type} (R : α → Text → Prop) (vs : List α) (s s' : Ser) : Prop :=
  ∃ ts, All2 R vs ts ∧ ((ts = [] ∧ ∃ l, Layout l ∧ Step s s' l) ∨
    ∃ a u t, Layout a ∧ Body ts u ∧ Tail t ∧ Step s s' (a ++ (u ++ t)))

omit [Env] in
theorem inside_of {α : Type} {R : α → Text → Prop} {step : Comp → α → W Comp} {vs : List α} {flag : Bool} {c c' : Comp}
    {s0 s1 s2 : Ser} {P : Ser → Prop}
    (hstep : ∀ v ∈ vs, ∀ c s c' s', Idle s → s.core = s0.core → c.range = none → step c v s = .ok c' s' →
      c'.rest = true ∧ c'.nv = c.nv ∧ c'.range = c.range ∧ Elem c.rest (R v) s s')
    (hc : c.rest = false) (hcr : c.range = none) (hi : Idle s0) (ho : Opens flag s0 s1) (hl : foldW step c vs s1 = .ok c' s2)
    (he : Good s2 → s2.core = s0.core → ∃ s3, Closes flag c'.rest s2 s3 ∧ P s3) :
    ∃ s3, Idle s3 ∧ s3.pretty = s0.pretty ∧ Inside R vs s0 s3 ∧ P s3 := by
  obtain ⟨l0, hl0, hst0, hp0, hn0, hi0⟩ := ho
  have hi1 : Idle s1 := ⟨hi.good.step hst0.core, hn0.trans hi.nv, hi0.trans hi.isd⟩
  obtain ⟨hi2, hp2, -, -, hcase⟩ := foldW_body hstep c s1 c' s2 hi1 hst0.core hcr hl
  have hcore : s2.core = s0.core := by
    rcases hcase with ⟨-, -, rfl⟩ | ⟨-, _, _, _, -, -, -, hst⟩
    · exact hst0.core
    · exact hst.core.trans hst0.core
  obtain ⟨s3, ⟨t, ht, htl, hst3, hp3, hn3, hi3⟩, hP⟩ := he hi2.good hcore
  have hp : s3.pretty = s0.pretty := by
    rw [hp3, hp2, hp0]
    cases flag with
    | false => rfl
    | true => cases s0.pretty <;> simp
  refine ⟨s3, ⟨hi2.good.step hst3.core, hn3.trans hi2.nv, hi3.trans hi2.isd⟩, hp, ?_, hP⟩
  rcases hcase with ⟨rfl, rfl, rfl⟩ | ⟨hr, a, ts, u, ha, hts, hu, hst⟩
  · exact ⟨[], trivial, .inl ⟨rfl, l0 ++ t, hl0.append (htl hc), hst0.trans hst3⟩⟩
  · rw [hc] at hst
    refine ⟨ts, hts, .inr ⟨l0 ++ a, u, t, hl0.append ha, hu, ht, (hst0.trans (hst.trans hst3)).ext ?_⟩⟩
    simp

omit [Env] in
/-- With its delimiters. -/
theorem Inside.delim {α : Type} {R : α → Text → Prop} {vs : List α} {s s3 : Ser} {o c : Char}
    (h : Inside R vs (s.put [o]) s3) : ∃ ts w, All2 R vs ts ∧ Delim o c ts w ∧ Step s (s3.put [c]) w := by
  obtain ⟨ts, hts, ⟨rfl, l, hl, hst⟩ | ⟨a, u, t, ha, hu, ht, hst⟩⟩ := h
  · exact ⟨[], _, hts, .nil hl, ((Step.put _ _).trans (hst.trans (Step.put _ _))).ext (by simp)⟩
  · exact ⟨ts, _, hts, .items ha hu ht, ((Step.put _ _).trans (hst.trans (Step.put _ _))).ext (by simp)⟩

omit [Env] in
/-- Without. -/
theorem Inside.bare {α : Type} {R : α → Text → Prop} {vs : List α} {s s3 : Ser} (h : Inside R vs s s3)
    (hR : ∀ v t, R v t → t ≠ []) :
    ∃ ts a w b, All2 R vs ts ∧ Bare ts w ∧ Layout a ∧ TailOf w b ∧ Step s s3 (a ++ (w ++ b)) := by
  obtain ⟨ts, hts, ⟨rfl, l, hl, hst⟩ | ⟨a, u, t, ha, hu, ht, hst⟩⟩ := h
  · exact ⟨[], l, [], [], hts, .inl ⟨rfl, rfl⟩, hl, .nil, hst.ext (by simp)⟩
  · refine ⟨ts, a, u, t, hts, .inr hu, ha, ⟨ht, fun e => ?_⟩, hst⟩
    exfalso
    cases hu with
    | one =>
      match vs, hts with
      | v :: _, hts => exact hR v _ hts.1 e
    | cons => simp at e

theorem rendAll_iff {x : Exts} {sfx : Bool} {vs : List SVal} {ts : List Text} :
    RendAll x sfx vs ts ↔ All2 (fun v t => Rend x sfx false v t) vs ts := by
  induction vs generalizing ts with
  | nil => cases ts <;> simp [RendAll, All2]
  | cons v vs ih => cases ts <;> simp [RendAll, All2, ih]

theorem rendEntries_iff {x : Exts} {sfx : Bool} {vs : List (SVal × SVal)} {ts : List Text} :
    RendEntries x sfx vs ts ↔
      All2 (fun kv e => ∃ kt vt, Rend x sfx false kv.1 kt ∧ Rend x sfx false kv.2 vt ∧ Entry kt vt e) vs ts := by
  induction vs generalizing ts with
  | nil => cases ts <;> simp [RendEntries, All2]
  | cons v vs ih => obtain ⟨k, v⟩ := v; cases ts <;> simp [RendEntries, All2, ih]

theorem rendFields_iff {x : Exts} {sfx : Bool} {vs : List (Text × SVal)} {ts : List Text} :
    RendFields x sfx vs ts ↔
      All2 (fun kv e => ∃ kt vt, NameTok kv.1 kt ∧ Rend x sfx false kv.2 vt ∧ Entry kt vt e) vs ts := by
  induction vs generalizing ts with
  | nil => cases ts <;> simp [RendFields, All2]
  | cons v vs ih => obtain ⟨k, v⟩ := v; cases ts <;> simp [RendFields, All2, ih]

theorem serSeq_fold (vs : List SVal) (c : Comp) : serSeq c vs = foldW (fun c v => seqElement c (ser v)) c vs := by
  induction vs generalizing c with
  | nil => simp [serSeq, foldW]
  | cons v vs ih => simp only [serSeq, foldW, ih]

theorem serTuple_fold (vs : List SVal) (c : Comp) : serTuple c vs = foldW (fun c v => tupleElement c (ser v)) c vs := by
  induction vs generalizing c with
  | nil => simp [serTuple, foldW]
  | cons v vs ih => simp only [serTuple, foldW, ih]

theorem serMap_fold (vs : List (SVal × SVal)) (c : Comp) :
    serMap c vs = foldW (fun c kv => mapEntry c (ser kv.1) (ser kv.2)) c vs := by
  induction vs generalizing c with
  | nil => simp [serMap, foldW]
  | cons v vs ih => obtain ⟨k, v⟩ := v; simp only [serMap, foldW, ih]

theorem serFields_fold (vs : List (Text × SVal)) (c : Comp) :
    serFields c vs = foldW (fun c kv => structField c kv.1 kv.2.asNumber (ser kv.2)) c vs := by
  induction vs generalizing c with
  | nil => simp [serFields, foldW]
  | cons v vs ih => obtain ⟨k, v⟩ := v; simp only [serFields, foldW, ih]

theorem serTuple_inside {vs : List SVal} (hv : ∀ v ∈ vs, Writes rg wx v) {flag : Bool} {c c' : Comp} {s s0 s1 s2 : Ser} {P : Ser → Prop} (hr : Ready rg wx s)
    (hs : s0.core = s.core) (hc : c.rest = false) (hcr : c.range = none) (hi : Idle s0) (ho : Opens flag s0 s1)
    (hl : serTuple c vs s1 = .ok c' s2) (he : Good s2 → s2.core = s0.core → ∃ s3, Closes flag c'.rest s2 s3 ∧ P s3) :
    ∃ s3, Idle s3 ∧ s3.pretty = s0.pretty ∧ Inside (RendOf s) vs s0 s3 ∧ P s3 := by
  rw [serTuple_fold] at hl
  refine inside_of (R := RendOf s) ?_ hc hcr hi ho hl he
  intro v hm c s1 c' s2 h1 h2 h3 h4
  exact tupleElement_elem (hv v hm) hr h1 (h2.trans hs) h4

theorem serSeq_inside {vs : List SVal} (hv : ∀ v ∈ vs, Writes rg wx v) {flag : Bool} {c c' : Comp} {s s0 s1 s2 : Ser} {P : Ser → Prop} (hr : Ready rg wx s)
    (hs : s0.core = s.core) (hc : c.rest = false) (hcr : c.range = none) (hi : Idle s0) (ho : Opens flag s0 s1)
    (hl : serSeq c vs s1 = .ok c' s2) (he : Good s2 → s2.core = s0.core → ∃ s3, Closes flag c'.rest s2 s3 ∧ P s3) :
    ∃ s3, Idle s3 ∧ s3.pretty = s0.pretty ∧ Inside (RendOf s) vs s0 s3 ∧ P s3 := by
  rw [serSeq_fold] at hl
  refine inside_of (R := RendOf s) ?_ hc hcr hi ho hl he
  intro v hm c s1 c' s2 h1 h2 h3 h4
  exact seqElement_elem (hv v hm) hr h1 (h2.trans hs) h4

theorem serMap_inside {vs : List (SVal × SVal)} (hv : ∀ v ∈ vs, Writes rg wx v.1 ∧ Writes rg wx v.2) {flag : Bool} {c c' : Comp}
    {s s0 s1 s2 : Ser} {P : Ser → Prop} (hr : Ready rg wx s)
    (hs : s0.core = s.core) (hc : c.rest = false) (hcr : c.range = none) (hi : Idle s0) (ho : Opens flag s0 s1)
    (hl : serMap c vs s1 = .ok c' s2) (he : Good s2 → s2.core = s0.core → ∃ s3, Closes flag c'.rest s2 s3 ∧ P s3) :
    ∃ s3, Idle s3 ∧ s3.pretty = s0.pretty ∧ Inside (EntryOf s) vs s0 s3 ∧ P s3 := by
  rw [serMap_fold] at hl
  refine inside_of (R := EntryOf s) ?_ hc hcr hi ho hl he
  intro v hm c s1 c' s2 h1 h2 h3 h4
  exact mapEntry_elem (hv v hm).1 (hv v hm).2 hr h1 (h2.trans hs) h4

theorem serFields_inside {vs : List (Text × SVal)} (hv : ∀ v ∈ vs, Writes rg wx v.2) {flag : Bool} {c c' : Comp}
    {s s0 s1 s2 : Ser} {P : Ser → Prop} (hr : Ready rg wx s)
    (hs : s0.core = s.core) (hc : c.rest = false) (hcr : c.range = none) (hi : Idle s0) (ho : Opens flag s0 s1)
    (hl : serFields c vs s1 = .ok c' s2) (he : Good s2 → s2.core = s0.core → ∃ s3, Closes flag c'.rest s2 s3 ∧ P s3) :
    ∃ s3, Idle s3 ∧ s3.pretty = s0.pretty ∧ Inside (FieldOf s) vs s0 s3 ∧ P s3 := by
  rw [serFields_fold] at hl
  refine inside_of (R := FieldOf s) ?_ hc hcr hi ho hl he
  intro v hm c s1 c' s2 h1 h2 h3 h4
  simp only [structField, h3] at h4
  exact fieldPlain_elem (hv v hm) hr h1 (h2.trans hs) h4

end Ron
