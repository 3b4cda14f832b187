import Verif.Lemmas.BadMain
import Verif.Lemmas.TyDoc
import Verif.Lemmas.Witness
import Verif.Lemmas.Deq
import Verif.Props.C25
import Verif.Props.C60
import Verif.Props.C58
/-!
# C65: a defect inside a document is reported as what it is, where it is

`BadTy` (`Spec/BadTy.lean`) says which defect a text has, at any depth inside lists, tuples, maps, structs, enums, options and newtypes; which
error that is, and what is left of the text at its place.  Not in `BadTy`: values of no given
type (C63), raw values, and what `unwrap_variant_newtypes` changes.
-/

namespace Ron

section
variable [Env]

/-- A document with such a defect is refused with that error, and the span of the error ends at the defect. -/
theorem C65 (o : Options) (D : Nat → Ty) (f : Nat) (T : Ty) (ex : Exts) (l hdr u r p : Text) (n : Nat) (e : Err)
    (hx : (ex.union o.defaultExtensions).unwrapVariantNewtypes = false) (hk : ∀ m, o.recursionLimit = some m → n ≤ m)
    (hl : Layout l) (ha : Attrs hdr ex) (hn : NoLayoutStart u) (hh : u.head? ≠ some '#')
    (h : BadTy D (ex.union o.defaultExtensions) f T n u e r) (hp : l ++ (hdr ++ u) = p ++ r) :
    ∃ sp, fromStr o (deTy D f T) (l ++ (hdr ++ u)) = .error (e, sp) ∧ sp.stop = Position.after p := by
  obtain ⟨s1, h1, r1, e1, c1, n1, -, m1⟩ := parserNew_ok hl ha hn (head_ne hh)
    { St.init (l ++ (hdr ++ u)) with limit := o.recursionLimit } (by simp [St.init])
  obtain ⟨s2, h2, h3, h4⟩ := badTy_errs hx f T n u e r h { s1 with exts := s1.exts.union o.defaultExtensions }
    ⟨n1, by simp [e1, St.init, Exts.union, Exts.empty], fun m hm => hk m (m1.symm.trans hm)⟩ r1
  refine ⟨s2.span, ?_, ?_⟩
  · unfold fromStr readDoc deNew
    simp only [bind_apply, modSt_apply, h1, h2]
    rfl
  · have hsrc : s2.src = p ++ r := by
      rw [h4]
      show s1.src = _
      rw [c1, ← hp]
      rfl
    unfold St.span
    simp only [St.before, hsrc, h3]
    rw [C25_counts]
    congr 1
    simp

/-- For types without newtype variants, options and self-describing data the same holds where `unwrap_variant_newtypes` is enabled by the options. -/
theorem C65_unwrap_variant_newtypes (o : Options) (D : Nat → Ty) (hD : ∀ i, (D i).NoVariant) (f : Nat) (T : Ty) (hT : T.NoVariant) (ex : Exts)
    (l hdr u r p : Text) (n : Nat) (e : Err) (hx : ex.unwrapVariantNewtypes = false) (hk : ∀ m, o.recursionLimit = some m → n ≤ m)
    (hl : Layout l) (ha : Attrs hdr ex) (hn : NoLayoutStart u) (hh : u.head? ≠ some '#')
    (h : BadTy D (ex.union { o.defaultExtensions with unwrapVariantNewtypes := false }) f T n u e r) (hp : l ++ (hdr ++ u) = p ++ r) :
    ∃ sp, fromStr o (deTy D f T) (l ++ (hdr ++ u)) = .error (e, sp) ∧ sp.stop = Position.after p := by
  rw [← C58_unwrap_variant_newtypes o D hD f T hT false]
  exact C65 { o with defaultExtensions := { o.defaultExtensions with unwrapVariantNewtypes := false } } D f T ex l hdr u r p n e
    (by simp [Exts.union, hx]) hk hl ha hn hh h hp

/-- A document that goes on after the value is refused for that, and the span of the error ends where it goes on. -/
theorem C65_trailing (o : Options) (D : Nat → Ty) (f : Nat) (T : Ty) (ex : Exts) (l hdr u q p : Text) (n : Nat)
    (hx : (ex.union o.defaultExtensions).unwrapVariantNewtypes = false) (hk : ∀ m, o.recursionLimit = some m → n ≤ m)
    (hl : Layout l) (ha : Attrs hdr ex) (hn : NoLayoutStart u) (hh : u.head? ≠ some '#')
    (h : ItemAt D (ex.union o.defaultExtensions) f T n u q) (hq : q ≠ []) (hp : l ++ (hdr ++ u) = p ++ q) :
    ∃ sp, fromStr o (deTy D f T) (l ++ (hdr ++ u)) = .error (.trailingCharacters, sp) ∧ sp.stop = Position.after p := by
  obtain ⟨s1, h1, r1, e1, c1, n1, -, m1⟩ := parserNew_ok hl ha hn (head_ne hh)
    { St.init (l ++ (hdr ++ u)) with limit := o.recursionLimit } (by simp [St.init])
  obtain ⟨hnl, hrun⟩ := itemAt_runs hx h
  obtain ⟨v, s2, l', h2, h3, hl', h4⟩ := hrun { s1 with exts := s1.exts.union o.defaultExtensions }
    ⟨n1, by simp [e1, St.init, Exts.union, Exts.empty], fun m hm => hk m (m1.symm.trans hm)⟩ r1
  obtain ⟨s3, h5, h6, h7⟩ := skipWs_tok h3 hl' hnl
  have he : s3.rest.isEmpty = false := by simpa [h6] using hq
  refine ⟨s3.span, ?_, ?_⟩
  · unfold fromStr readDoc deNew deEnd
    simp only [bind_apply, modSt_apply, h1, h2, h5, getSt_apply, ite_P, he, Bool.false_eq_true, ↓reduceIte]
    rfl
  · have hsrc : s3.src = p ++ q := by
      rw [h7.src, h4.src]
      show s1.src = _
      rw [c1, ← hp]
      rfl
    unfold St.span
    simp only [St.before, hsrc, h6]
    rw [C25_counts]
    congr 1
    simp

omit [Env] in
theorem pre_init (x : Exts) (n : Nat) (u : Text) : Pre x n { St.init u with exts := x } := ⟨rfl, rfl, fun m hm => by cases hm⟩

/-- A text has one defect only. -/
theorem C65_unique (D : Nat → Ty) (x : Exts) (hx : x.unwrapVariantNewtypes = false) (f : Nat) (T : Ty) (n n' : Nat) (u r r' : Text) (e e' : Err)
    (h : BadTy D x f T n u e r) (h' : BadTy D x f T n' u e' r') : e = e' ∧ r = r' := by
  obtain ⟨s1, h1, rfl, -⟩ := badTy_errs hx f T n u e r h _ (pre_init x n u) rfl
  obtain ⟨s2, h2, rfl, -⟩ := badTy_errs hx f T n' u e' r' h' _ (pre_init x n' u) rfl
  rw [h1] at h2
  cases h2
  exact ⟨rfl, rfl⟩

/-- A text with a defect does not begin with a text of the type that ends there. -/
theorem C65_no_text (D : Nat → Ty) (x : Exts) (hx : x.unwrapVariantNewtypes = false) (f : Nat) (T : Ty) (n n' : Nat) (t l q r : Text) (e : Err) (v : SVal)
    (hl : Layout l) (hq : Halts q) (h : BadTy D x f T n (t ++ (l ++ q)) e r) : ¬ TyLang D x f T n' t v := by
  intro h'
  obtain ⟨s1, h1, -⟩ := badTy_errs hx f T n _ e r h _ (pre_init x n _) rfl
  obtain ⟨s2, l', h2, -⟩ := (tyLang_reads hx f T n' t v h').2 _ l q (pre_init x n' _) rfl hl (halts_stop.mp hq)
  rw [h1] at h2
  cases h2

end

/-! ### Cases -/

section
local instance envC65 : Env := asciiEnv true true

/-- The name `a`. -/
theorem keyTok_a : KeyTok c!"a" c!"a" := ⟨⟨by decide, by decide⟩, .inr ⟨rfl, 'a', [], rfl, by decide, by simp⟩⟩

theorem avail_u8 : IntTy.Avail .u8 := by
  rintro (h | h) <;> cases h

/-- `[1, 2 3]`: the comma between the numbers is missing. -/
example (D : Nat → Ty) : BadTy D {} 2 (.seq (.int .u8)) 2 c!"[1, 2 3]" .expectedComma c!"3]" := by
  refine .seq (.comma (n := 0) (ts := [c!"1"]) (vs := [.num (.int .u8 1)]) (p := c!"1, ") (u := c!"2 3]") (q := c!"3]") ?_ ?_ ?_ ?_ ?_)
  · exact .items (a := []) (b := []) (a' := c!" ") .nil .one .nil (.ws (by decide) .nil)
  · have h : GoodInt .u8 c!"1" 1 [] := (C60_reads (St.init c!"1") .u8 1 [] (fun r h => by cases h)).mp
      ⟨{ St.init c!"1" with rest := [], prev := c!"1" }, by decide +kernel, rfl⟩
    exact ⟨⟨1, avail_u8, .digits h, rfl⟩, trivial⟩
  · exact ⟨fun c r h => by cases h; exact ⟨by decide, by decide⟩, by decide⟩
  · refine .whole (l := c!" ") (.int (i := 2) avail_u8 (fun r h => by cases h) ?_) (.ws (by decide) .nil) fun c r h => by cases h; exact ⟨by decide, by decide⟩
    exact (C60_reads (St.init c!"2 3]") .u8 2 c!" 3]" (fun r h => by cases h)).mp
      ⟨{ St.init c!"2 3]" with rest := c!" 3]", prev := c!"2 3]" }, by decide +kernel, rfl⟩
  · exact ⟨by decide, by decide⟩

/-- A tuple in a list that is too short. -/
example (D : Nat → Ty) : BadTy D {} 3 (.seq (.tuple [.bool, .unit])) 4 c!"[ // pairs\n (true, ()), (true)]" (.expectedDifferentLength c!"tuple" 1) c!")]" := by
  refine .seq (.item (n := 2) (ts := [c!"(true, ())"]) (vs := [.tuple [.bool true, .unit]]) (p := c!" // pairs\n (true, ()), ") (u := c!"(true)]") ?_ ?_ ?_ ?_)
  · exact .items (a := c!" // pairs\n ") (b := []) (a' := c!" ") (.ws (by decide) (.line (b := c!" pairs") (by decide) (.ws (by decide) .nil))) .one .nil (.ws (by decide) .nil)
  · refine ⟨⟨_, ⟨[c!"true", c!"()"], ?_, ?_⟩, rfl⟩, trivial⟩
    · exact .items (a := []) (t := []) .nil (.cons (b := []) (a := c!" ") .nil (.ws (by decide) .nil) .one) (.plain .nil)
    · exact ⟨⟨true, rfl, rfl⟩, ⟨rfl, rfl⟩, trivial⟩
  · exact ⟨fun c r h => by cases h; exact ⟨by decide, by decide⟩, by decide⟩
  · refine .tuple (.short (n := 0) (Ts := [.bool]) (T := .unit) (Ts' := []) (ts := [c!"true"]) (vs := [.bool true]) (w := c!"(true") (r := c!"]") ?_ ?_)
    · exact .items (a := []) (t := []) .nil .one (.plain .nil)
    · exact ⟨⟨true, rfl, rfl⟩, trivial⟩

/-- An entry of a map without the colon. -/
example (D : Nat → Ty) : BadTy D {} 2 (.map .unit .bool) 2 c!"{(): true, () false}" .expectedMapColon c!"false}" := by
  refine .map (.colon (n := 0) (ts := [c!"(): true"]) (es := [(.unit, .bool true)]) (p := c!"(): true, ") (u := c!"() false}") ?_ ?_ ?_ ?_ ?_)
  · exact .items (a := []) (b := []) (a' := c!" ") .nil .one .nil (.ws (by decide) .nil)
  · exact ⟨⟨c!"()", c!"true", ⟨rfl, rfl⟩, ⟨true, rfl, rfl⟩, .mk (l := []) (l' := c!" ") .nil (.ws (by decide) .nil)⟩, trivial⟩
  · exact ⟨fun c r h => by cases h; exact ⟨by decide, by decide⟩, by decide⟩
  · exact .whole (l := c!" ") (.closed (t := c!"()") .unit ⟨rfl, rfl⟩ (by decide) (by decide) (by decide)) (.ws (by decide) .nil)
      fun c r h => by cases h; exact ⟨by decide, by decide⟩
  · decide

/-- A struct in an optional value, with a field given twice, one missing, one unknown. -/
example (D : Nat → Ty) (n : Nat) : let T : Ty := .option (.struct c!"P" true [(c!"a", .bool), (c!"b", .unit)])
    BadTy D {} 3 T (n + 3) c!"Some((a: true, a: false))" (.duplicateStructField c!"a" (some c!"P")) c!": false))" ∧
    BadTy D {} 3 T (n + 3) c!"Some((a: true))" (.missingStructField c!"b" (some c!"P")) c!"))" ∧
    BadTy D {} 3 T (n + 3) c!"Some((a: true" (.expectedComma) c!"" ∧
    BadTy D {} 3 T (n + 3) c!"Some((a true))" (.expectedMapColon) c!"true))" := by
  have hP : NamePre {} c!"P" [] := .inl ⟨rfl, rfl⟩
  have hnl : ∀ u, NoLayoutStart ('(' :: u) := fun u c r h => by cases h; exact ⟨by decide, by decide⟩
  have hf : FieldAt false (TyLang D {} 1) true [(c!"a", .bool), (c!"b", .unit)] (n + 1) c!"a: true" (some (c!"a", .bool true)) :=
    ⟨c!"a", c!"a", c!"true", keyTok_a, .mk (l := []) (l' := c!" ") .nil (.ws (by decide) .nil), rfl, .bool, rfl, true, rfl, rfl⟩
  refine ⟨?_, ?_, ?_, ?_⟩
  · refine .some (l := []) .nil (.item (a := []) .nil (hnl _) ?_)
    exact .struct (p := []) hP (.twice (n := n) (es := [c!"a: true"]) (gs := [some (c!"a", .bool true)]) (p := c!"a: true, ") (key := c!"a") (kt := c!"a") (z := c!": false))")
      (.items (a := []) (b := []) (a' := c!" ") .nil .one .nil (.ws (by decide) .nil)) ⟨hf, trivial⟩ (by decide) keyTok_a (by decide)
      (nameEnds_cons (by decide) (by decide) (by decide)))
  · refine .some (l := []) .nil (.item (a := []) .nil (hnl _) ?_)
    refine .struct (p := []) hP (.missing (n := n) (es := [c!"a: true"]) (gs := [some (c!"a", .bool true)]) (w := c!"(a: true") (r := c!")") (Fs := [(c!"a", .bool)])
      (F := (c!"b", .unit)) (Fs' := []) ?_ ⟨hf, trivial⟩ (by decide) rfl ?_ (by decide) ?_)
    · exact .items (a := []) (t := []) .nil .one (.plain .nil)
    · intro G hG
      simp only [List.mem_singleton] at hG
      subst hG
      exact .inl (by decide)
    · intro h; cases h
  · refine .some (l := []) .nil (.item (a := []) .nil (hnl _) ?_)
    exact .struct (p := []) (e := .expectedComma) hP (.comma (n := n) (es := []) (gs := []) (p := []) (key := c!"a") (kt := c!"a") (m := []) (m' := c!" ") (u := c!"true") (q := []) (T := .bool)
      (.nil .nil) trivial (by decide) keyTok_a (by decide) rfl .nil (.ws (by decide) .nil) (fun c r h => by cases h; exact ⟨by decide, by decide⟩)
      (.delim (t := c!"true") (l := []) (v := .bool true) ⟨true, rfl, rfl⟩ .nil (.inl rfl)) ⟨by decide, by decide⟩)
  · refine .some (l := []) .nil (.item (a := []) .nil (hnl _) ?_)
    exact .struct (p := []) (e := .expectedMapColon) hP (.colon (n := n) (es := []) (gs := []) (p := []) (key := c!"a") (kt := c!"a") (m := c!" ") (q := c!"true))")
      (.nil .nil) trivial (by decide) keyTok_a (by decide) (by decide) (nameEnds_cons (by decide) (by decide) (by decide)) (.ws (by decide) .nil)
      (fun c r h => by cases h; exact ⟨by decide, by decide⟩) (by decide))

/-- A variant that the enum does not have; one without its data. -/
example (D : Nat → Ty) : let T : Ty := .seq (.enum c!"E" [(c!"b", .unit), (c!"a", .newtype .bool)])
    BadTy D {} 2 (.seq (.enum c!"E" [(c!"b", .unit)])) 4 c!"[a(())]" (.noSuchEnumVariant [c!"b"] c!"a" (some c!"E")) c!"(())]" ∧
    BadTy D {} 2 T 4 c!"[a, b]" .expectedStructLike c!", b]" := by
  have hpl : ∀ u, Place ']' ('a' :: u) := fun u => ⟨fun c r h => by cases h; exact ⟨by decide, by decide⟩, by simp⟩
  refine ⟨?_, ?_⟩
  · exact .seq (.item (n := 2) (ts := []) (vs := []) (p := []) (.nil .nil) trivial (hpl _) (.variant (n := 0) (tok := c!"a") keyTok_a (by decide)
      (nameEnds_cons (by decide) (by decide) (by decide))))
  · exact .seq (.item (n := 2) (ts := []) (vs := []) (p := []) (.nil .nil) trivial (hpl _) (.data (n := 0) (tok := c!"a") (l := []) (e := .expectedStructLike) keyTok_a rfl
      (nameEnds_cons (by decide) (by decide) (by decide)) .nil (fun c r h => by cases h; exact ⟨by decide, by decide⟩) (.opening trivial (by decide))))

/-- Names of structs that are wrong, missing, or something else. -/
example (D : Nat → Ty) (n : Nat) : let T : Ty := .seq (.struct c!"P" true [(c!"a", .bool)])
    BadTy D {} 2 T (n + 4) c!"[a(a: true)]" (.expectedDifferentStructName c!"P" c!"a") c!"(a: true)]" ∧
    BadTy D { explicitStructNames := true } 2 T (n + 4) c!"[(a: true)]" (.expectedStructName c!"P") c!"(a: true)]" ∧
    BadTy D {} 2 T (n + 4) c!"[\"a\"]" (.expectedNamedStructLike c!"P") c!"\"a\"]" ∧
    BadTy D {} 2 T (n + 4) c!"[1]" (.expectedNamedStructLike c!"P") c!"1]" := by
  have hn : ∀ {x u}, Named x c!"P" u (.struct c!"P" true [(c!"a", .bool)]) := .struct (by simp [RangeHead, TwoBounds])
  have hr : NameEnds c!"1" c!"]" := nameEnds_cons (by decide) (by decide) (by decide)
  refine ⟨?_, ?_, ?_, ?_⟩
  · exact .seq (.item (n := n + 2) (ts := []) (vs := []) (p := []) (.nil .nil) trivial ⟨fun c r h => by cases h; exact ⟨by decide, by decide⟩, by decide⟩
      (.name hn (.other (by decide) keyTok_a (by decide) (nameEnds_cons (by decide) (by decide) (by decide)))))
  · exact .seq (.item (n := n + 2) (ts := []) (vs := []) (p := []) (.nil .nil) trivial ⟨fun c r h => by cases h; exact ⟨by decide, by decide⟩, by decide⟩
      (.name hn (.missing rfl fun c r h => by cases h; decide)))
  · exact .seq (.item (n := n + 2) (ts := []) (vs := []) (p := []) (.nil .nil) trivial ⟨fun c r h => by cases h; exact ⟨by decide, by decide⟩, by decide⟩
      (.nameless hn rfl (fun c r h => by cases h; decide) (fun c r h => by cases h; exact ⟨by decide, by decide⟩) (by decide)))
  · exact .seq (.item (n := n + 2) (ts := []) (vs := []) (p := []) (.nil .nil) trivial ⟨fun c r h => by cases h; exact ⟨by decide, by decide⟩, by decide⟩
      (.name hn (.raw (w := c!"1") (z := c!"]") ⟨by decide, by decide⟩ (by rintro ⟨c, cs, h, hc, -⟩; cases h; revert hc; decide)
        (fun h => absurd (h '1' [] rfl) (by decide)) hr)))

/-- Names of fields and variants that are none. -/
example (D : Nat → Ty) (n : Nat) :
    BadTy D {} 1 (.struct c!"P" true [(c!"a", .bool)]) (n + 2) c!"(a-b: true)" (.suggestRawIdentifier c!"a-b") c!"a-b: true)" ∧
    BadTy D {} 1 (.struct c!"P" true [(c!"a", .bool)]) (n + 2) c!"(\"a\": true)" .expectedIdentifier c!"\"a\": true)" ∧
    BadTy D {} 1 (.enum c!"E" [(c!"a", .unit)]) (n + 2) c!"\"a\"" .expectedIdentifier c!"\"a\"" := by
  refine ⟨?_, ?_, .word (.char (by decide)) fun c r h => by cases h; exact ⟨by decide, by decide⟩⟩
  · exact .struct (p := []) (e := .suggestRawIdentifier c!"a-b") (.inl ⟨rfl, rfl⟩) (.key (n := n) (es := []) (gs := []) (p := []) (.nil .nil) trivial (by decide)
      ⟨fun c r h => by cases h; exact ⟨by decide, by decide⟩, by decide⟩
      (.raw (w := c!"a-b") (z := c!": true)") ⟨by decide, by decide⟩ (by rintro ⟨c, cs, h, -, hc⟩; cases h; revert hc; decide)
        (nameEnds_cons (by decide) (by decide) (by decide))))
  · exact .struct (p := []) (e := .expectedIdentifier) (.inl ⟨rfl, rfl⟩) (.key (n := n) (es := []) (gs := []) (p := []) (.nil .nil) trivial (by decide)
      ⟨fun c r h => by cases h; exact ⟨by decide, by decide⟩, by decide⟩ (.char (by decide)))

/-- Ranges: the wrong operator, and none. -/
example (D : Nat → Ty) (n : Nat) (u : Text) :
    BadTy D {} 1 (.struct c!"RangeTo" false [(c!"end", .int .u8)]) n (c!"..=" ++ u) (.message c!"expected `..` for `RangeTo`, found `..=`") u ∧
    BadTy D {} 2 (.seq (.struct c!"RangeToInclusive" false [(c!"end", .int .u8)])) (n + 2) c!"[..2]"
      (.message c!"expected `..=` for `RangeToInclusive`, found `..`") c!"2]" :=
  ⟨.range .stopClosed, .seq (.item (n := n) (ts := []) (vs := []) (p := []) (.nil .nil) trivial ⟨fun c r h => by cases h; exact ⟨by decide, by decide⟩, by decide⟩
    (.range (.lastOpen (v := c!"2]") (.inl rfl) fun w h => by cases h)))⟩

/-- A bound that the type does not take; `b'x'` is a number. -/
example (D : Nat → Ty) (n : Nat) (r : Text) :
    BadTy D {} 2 (.struct c!"RangeTo" false [(c!"end", .bool)]) n (c!"..b'x'" ++ r) (.invalidValueForType [] []) r :=
  .bound (es := [(c!"end", .int .u8 120)]) (.stop (.byte (t := c!"b'x'") (k := 120) rfl (.plain (c := 'x') (by decide) (by decide))))
    ⟨rfl, [], _, [], [], _, [], [], rfl, rfl, trivial, .plain (fun i h => by cases h) fun v h => by cases h⟩

/-- Something after the value: for `C65_trailing`. -/
example (D : Nat → Ty) : ItemAt D {} 1 .unit 0 c!"() // done\n }" c!"}" :=
  .whole (l := c!" // done\n ") (.closed (t := c!"()") .unit ⟨rfl, rfl⟩ (by decide) (by decide) (by decide))
    (.ws (by decide) (.line (b := c!" done") (by decide) (.ws (by decide) .nil))) fun c r h => by cases h; exact ⟨by decide, by decide⟩

/-- Such documents, with the positions: the third line, the eighth column. -/
example : fromStr {} (deTy (fun _ => .unit) 3 (.seq (.tuple [.bool, .unit]))) c!"[\n  (true, ()),\n  (true)]" =
    .error (.expectedDifferentLength c!"tuple" 1, ⟨⟨3, 8⟩, ⟨3, 8⟩⟩) := by decide +kernel

/-- The name in an error need not be the name of what is missing there: an item of a tuple struct that has no parentheses is reported as if
the tuple struct itself were missing. -/
theorem C65_name_fails :
    (∃ sp, fromStr {} (deTy (fun _ => .unit) 3 (.tupleStruct c!"Line" [.tuple [.bool], .tuple [.bool]])) c!"Line((true), true)" =
      .error (.expectedNamedStructLike c!"Line", sp) ∧ sp.stop = Position.after c!"Line((true), ") :=
  ⟨⟨⟨1, 14⟩, ⟨1, 14⟩⟩, by decide +kernel, by decide +kernel⟩

end

end Ron
