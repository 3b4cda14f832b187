import Verif.Props.C36
import Verif.Lemmas.Attr
import Verif.Lemmas.Witness
import Verif.Model.Open
/-!
# C13: extension headers written by the serializer enable exactly those extensions
-/

namespace Ron

theorem Layout.append' {l m : Text} (hl : Layout l) (hm : Layout m) : Layout (l ++ m) := by
  induction hl with
  | nil => exact hm
  | ws h _ ih => exact .ws h ih
  | line h _ ih => rw [List.cons_append, List.cons_append, List.append_assoc, List.cons_append]; exact .line h ih
  | block h _ ih => rw [List.cons_append, List.cons_append, List.append_assoc]; exact .block h ih

theorem Layout.blank {t : Text} (h : ∀ x ∈ t, x ∈ ronWhitespace) : Layout t := by
  induction t with
  | nil => exact .nil
  | cons c t ih => exact .ws (h c (by simp)) (ih fun x hx => h x (by simp [hx]))

/-- Layout after an attribute belongs to it. -/
theorem Attr.pad {a l : Text} {e : Exts} (h : Attr a e) (hl : Layout l) : Attr (a ++ l) e := by
  cases h with
  | @enable o l4 l5 t l6 l7 _ ho h4 h5 ht h6 h7 =>
    have := Attr.enable ho h4 h5 ht h6 (h7.append' hl)
    simpa using this
  | @info o key l4 l5 t v l6 l7 ho hk h4 h5 ht h6 h7 =>
    have := Attr.info ho hk h4 h5 ht h6 (h7.append' hl)
    simpa using this

theorem Attrs.pad {t l : Text} {e : Exts} (h : Attrs t e) (hl : Layout l) :
    (t = [] ∧ e = ⟨false, false, false, false⟩) ∨ Attrs (t ++ l) e := by
  induction h with
  | nil => exact .inl ⟨rfl, rfl⟩
  | @cons a t e e' ha ht ih =>
    right
    rcases ih with ⟨rfl, rfl⟩ | ih
    · have := Attrs.cons (ha.pad hl) .nil
      simpa using this
    · rw [List.append_assoc]; exact .cons ha ih

theorem Attrs.append {t u : Text} {e e' : Exts} (h : Attrs t e) (h' : Attrs u e') : Attrs (t ++ u) (e.union e') := by
  induction h with
  | nil => simpa [Exts.union] using h'
  | cons ha _ ih =>
    rw [List.append_assoc]
    have := Attrs.cons ha ih
    simpa [Exts.union, Bool.or_assoc] using this

theorem attr_header {n nl : Text} {e : Exts} (hn : ExtNamed n e) (hl : Layout nl) :
    Attr (c!"#![enable(" ++ n ++ c!")]" ++ nl) e := by
  have := Attr.enable (AttrOpen.mk .nil .nil .nil) .nil .nil (ExtList.last hn .plain .nil) .nil hl
  simpa using this

theorem attrs_headerText (e : Exts) {nl : Text} (hl : Layout nl) : Attrs (headerText e.names nl) e := by
  have one : ∀ (b : Bool) (n : Text) (x : Exts), ExtNamed n x →
      Attrs (headerText (if b then [n] else []) nl) (if b then x else ⟨false, false, false, false⟩) := by
    intro b n x hx
    cases b with
    | false => exact .nil
    | true =>
      have := Attrs.cons (attr_header hx hl) .nil
      simpa [headerText, Exts.union] using this
  have app : ∀ (a b : List Text), headerText (a ++ b) nl = headerText a nl ++ headerText b nl := by
    intro a b; simp [headerText]
  unfold Exts.names
  rw [app, app, app]
  have := (((one e.unwrapNewtypes _ _ .unwrapNewtypes).append (one e.implicitSome _ _ .implicitSome)).append
    (one e.unwrapVariantNewtypes _ _ .unwrapVariantNewtypes)).append (one e.explicitStructNames _ _ .explicitStructNames)
  obtain ⟨a, b, c, d⟩ := e
  cases a <;> cases b <;> cases c <;> cases d <;> exact this

variable [Env]

/-- What `serialize` has written before the data (`out`), followed by any body that does not itself begin with an
attribute, opens with the same `Options` as a document whose extensions are exactly the default ones and the configured
ones; the reader is left at the body. -/
theorem C13 (o : Options) (c : PrettyConfig) (h : c.Blank) :
    ∃ s, serNew (Ser.init o (some c) {}) = .ok () s ∧ (∀ v, toWriter o (some c) {} v = ser v s) ∧
      ∀ l b, Layout l → NoLayoutStart b → (∀ b', b ≠ '#' :: b') →
        ∃ s', deNew o (St.init (s.w.out ++ (l ++ b))) = .ok () s' ∧ s'.rest = b ∧
          s'.exts = o.defaultExtensions.union c.extensions ∧ s'.limit = o.recursionLimit := by
  have h0 := serNew_quiet (s := Ser.init o (some c) {}) rfl (by
    intro c' i e
    simp only [Ser.init, Option.map_some, Option.some.injEq, Prod.mk.injEq] at e
    rw [← e.1]; exact h)
  refine ⟨_, h0, ?_, ?_⟩
  · intro v
    unfold toWriter
    rw [wbind_apply, h0]
  intro l b hl hb hh
  have hh' : startsWith b ['#'] = false := by
    cases b with
    | nil => rfl
    | cons x b =>
      have : x ≠ '#' := fun e => hh b (by rw [e])
      have h2 : ('#' == x) = false := by simpa using Ne.symm this
      simp [startsWith, List.isPrefixOf, h2]
  simp only [Ser.put_out, Ser.init, Option.map_some, List.nil_append]
  have ha := attrs_headerText (o.defaultExtensions.compl.inter c.extensions) (Layout.blank h.1)
  generalize ht : headerText (o.defaultExtensions.compl.inter c.extensions).names c.newLine = t at ha
  generalize hx : o.defaultExtensions.compl.inter c.extensions = x at ha
  have key : ∃ s', parserNew { St.init (t ++ (l ++ b)) with limit := o.recursionLimit } = .ok () s' ∧ s'.rest = b ∧
      s'.exts = Exts.empty.union x ∧ s'.limit = o.recursionLimit := by
    rcases ha.pad hl with ⟨rfl, rfl⟩ | hp
    · obtain ⟨s', g1, g2, g3, -, -, -, g7⟩ := parserNew_ok (t := []) hl .nil hb hh'
        { St.init ([] ++ (l ++ b)) with limit := o.recursionLimit } (by simp [St.init])
      exact ⟨s', g1, g2, g3, g7⟩
    · obtain ⟨s', g1, g2, g3, -, -, -, g7⟩ := parserNew_ok (l := []) .nil hp hb hh'
        { St.init (t ++ (l ++ b)) with limit := o.recursionLimit } (by simp [St.init])
      exact ⟨s', g1, g2, g3, g7⟩
  obtain ⟨s', g1, g2, g3, g4⟩ := key
  unfold deNew
  simp only [bind_apply, modSt_apply, g1]
  refine ⟨_, rfl, g2, ?_, g4⟩
  show s'.exts.union _ = _
  rw [g3, ← hx]
  obtain ⟨a1, a2, a3, a4⟩ := o.defaultExtensions
  obtain ⟨b1, b2, b3, b4⟩ := c.extensions
  cases a1 <;> cases a2 <;> cases a3 <;> cases a4 <;> cases b1 <;> cases b2 <;> cases b3 <;> cases b4 <;> rfl

/-- Non-vacuity: a configuration with an empty `new_line` and two extensions, and a body after a comment. -/
example : ({ newLine := [], extensions := { implicitSome := true, explicitStructNames := true } } : PrettyConfig).Blank ∧
    Layout c!"/* x */" ∧ NoLayoutStart c!"(a:1)" ∧ ∀ b', c!"(a:1)" ≠ '#' :: b' := by
  refine ⟨⟨?_, ?_, ?_⟩, ?_, ?_, ?_⟩
  · intro x hx; cases hx
  · intro x hx; simp at hx; subst hx; decide
  · intro x hx; simp at hx; subst hx; decide
  · exact .block (b := c!" x */") (.other (by simp) (by simp) (.other (by simp) (by simp)
      (.other (by simp) (by simp) (.closes .done)))) .nil
  · exact noStart_cons (by decide)
  · intro b' h; simp at h

end Ron
