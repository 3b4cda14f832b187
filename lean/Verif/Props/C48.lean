import Verif.Lemmas.LangDoc
import Verif.Lemmas.Witness
import Verif.Lemmas.Deq
/-!
# C48: a document reads as a `Value` exactly if it is a text of the language, and to what it denotes there

The language is `LangX` of `Spec/Lang.lean`: with `implicit_some` the parentheses after `Some` may be left out, without it the language is
`Lang`.  Not claimed: documents in which `unwrap_variant_newtypes` is enabled, and that a line comment which the end of the document
ends is skipped (the first direction).
-/

namespace Ron

section
variable [Env]

/-- Every document of the language is read, whatever its layout and its attributes, to the value that it denotes. -/
theorem C48_reads (o : Options) (e : Exts) (t : Text) (v : Value) (hx : (e.union o.defaultExtensions).unwrapVariantNewtypes = false)
    (h : DocX o e t v) : fromStr o deValue t = .ok v := by
  obtain ⟨l, hdr, w, l', n, rfl, h1, h2, h3, h4, h5⟩ := h
  exact doc_reads (langX_reads_value hx h3) h1 h2 rfl h4 h5

/-- Nothing else is read: a document that is read begins with layout and attributes, and unless `unwrap_variant_newtypes` is enabled the
rest is a text of the language, which denotes the value, and layout.  With a limit `m` the text needs no more than `m` levels. -/
theorem C48_only (o : Options) (t : Text) (v : Value) (h : fromStr o deValue t = .ok v) :
    ∃ l hdr e r, t = l ++ (hdr ++ r) ∧ Layout l ∧ Attrs hdr e ∧ ((e.union o.defaultExtensions).unwrapVariantNewtypes = false →
      ∃ n w u, r = w ++ u ∧ LangX (e.union o.defaultExtensions).implicitSome n w v ∧ (∀ m, o.recursionLimit = some m → n ≤ m) ∧ Trail u) := fromStr_sound h

/-- Both, for a document that does not begin with an attribute and that ends with a line break. -/
theorem C48 (o : Options) (hx : o.defaultExtensions.unwrapVariantNewtypes = false) (l r : Text) (v : Value) (hl : Layout l) (hr : NoLayoutStart r)
    (hh : ∀ u, r ≠ '#' :: u) (he : ∃ u, r = u ++ ['\n']) :
    fromStr o deValue (l ++ r) = .ok v ↔
      ∃ n w l', r = w ++ l' ∧ LangX o.defaultExtensions.implicitSome n w v ∧ (∀ m, o.recursionLimit = some m → n ≤ m) ∧ Layout l' := by
  constructor
  · intro h
    obtain ⟨l1, hdr, e, r1, g1, g2, g3, g4⟩ := fromStr_sound h
    have key : hdr = [] ∧ e = ⟨false, false, false, false⟩ := by
      cases g3 with
      | nil => exact ⟨rfl, rfl⟩
      | @cons a t e e' ha ht =>
        exfalso
        have : ∃ u, a = '#' :: u := by
          cases ha with
          | enable h => cases h; exact ⟨_, rfl⟩
          | info h => cases h; exact ⟨_, rfl⟩
        obtain ⟨u, rfl⟩ := this
        have g1' : l ++ r = l1 ++ '#' :: (u ++ t ++ r1) := by simpa using g1
        obtain ⟨-, e2⟩ := layout_unique hl g2 (.inl hr) (.inl fun c r' h => by cases h; exact ⟨by decide, by decide⟩) g1'
        exact hh _ e2
    obtain ⟨rfl, rfl⟩ := key
    have hu : (⟨false, false, false, false⟩ : Exts).union o.defaultExtensions = o.defaultExtensions := by
      cases o.defaultExtensions; simp [Exts.union]
    rw [hu] at g4
    obtain ⟨n, w, u, k1, k2, k3, k4⟩ := g4 hx
    rw [List.nil_append, k1] at g1
    have hw : NoLayoutStart (w ++ u) := (langX_reads_value hx k2).1.noLayout u
    obtain ⟨-, e2⟩ := layout_unique hl g2 (.inl hr) (.inl hw) g1
    refine ⟨n, w, u, e2, k2, k3, ?_⟩
    rcases k4 with h | ⟨l2, o2, -, ⟨b, rfl, hb⟩, rfl⟩
    · exact h
    · exfalso
      obtain ⟨x, hx⟩ := he
      rw [hx] at e2
      have : (x ++ ['\n']).getLast? = (w ++ (l2 ++ '/' :: '/' :: b)).getLast? := by rw [e2]
      have e3 : w ++ (l2 ++ '/' :: '/' :: b) = (w ++ l2 ++ ['/']) ++ ('/' :: b) := by simp
      rw [List.getLast?_append, e3, List.getLast?_append] at this
      simp only [List.getLast?_singleton, Option.some_or] at this
      rw [List.getLast?_eq_some_getLast (List.cons_ne_nil _ _), Option.some_or] at this
      have hm := List.getLast_mem (List.cons_ne_nil '/' b)
      rw [← Option.some.inj this] at hm
      rcases List.mem_cons.mp hm with h | h
      · cases h
      · exact hb h
  · rintro ⟨n, w, l', rfl, h3, h4, h5⟩
    exact C48_reads o _ _ v (by simpa [Exts.union] using hx)
      ⟨l, [], w, l', n, by simp, hl, .nil, by simpa [Exts.union] using h3, h4, h5⟩

/-- Without `implicit_some` this is the language of `Spec/Ron.lean`; with it, it is larger by the texts in which the parentheses of an
option are left out. -/
theorem C48_plain (n : Nat) (w : Text) (v : Value) : (LangX false n w v ↔ Lang n w v) ∧ (Lang n w v → LangX true n w v) :=
  ⟨langX_plain, langX_of⟩

/-- The language is not ambiguous: a text denotes one value. -/
theorem C48_one (i : Bool) (n m : Nat) (w : Text) (v v' : Value) (h : LangX i n w v) (h' : LangX i m w v') : v = v' := by
  have a := C48_reads { recursionLimit := none, defaultExtensions := ⟨false, i, false, false⟩ } ⟨false, false, false, false⟩ w v rfl
    ⟨[], [], w, [], n, by simp, .nil, .nil, by simpa [Exts.union] using h, fun _ h => (nomatch h), .nil⟩
  have b := C48_reads { recursionLimit := none, defaultExtensions := ⟨false, i, false, false⟩ } ⟨false, false, false, false⟩ w v' rfl
    ⟨[], [], w, [], m, by simp, .nil, .nil, by simpa [Exts.union] using h', fun _ h => (nomatch h), .nil⟩
  rw [a] at b
  exact Except.ok.inj b

end

/-- The text of the example. -/
def textC48 : Text := c!"Foo(a: [1,\t'x',], /*c*/ b: {\"k\": Some(None)})"

/-- The value of the example. -/
def valueC48 : Value :=
  .map [(.str c!"a", .seq [.num (.int .u8 1), .char 'x']), (.str c!"b", .map [(.str c!"k", .some .none)])]

/-- A struct with a sequence and a map is a text of the language: the right side of `C48` is met (by the left side, which is
evaluated). -/
example :
    let _ : Env := asciiEnv true true
    ∃ n w l', textC48 ++ ['\n'] = w ++ l' ∧ LangX false n w valueC48 ∧ (∀ m, some 128 = some m → n ≤ m) ∧ Layout l' := by
  intro _
  refine (C48 { recursionLimit := some 128 } rfl [] (textC48 ++ ['\n']) valueC48 .nil ?_ ?_ ⟨textC48, rfl⟩).mp (by decide +kernel)
  · intro c r h
    cases h
    exact ⟨by decide, by decide⟩
  · intro u h
    cases h

/-- The same text needs five levels; with a limit of four it is not a document. -/
example :
    let _ : Env := asciiEnv true true
    ∀ v, ¬ ∃ n w l', textC48 ++ ['\n'] = w ++ l' ∧ LangX false n w v ∧ (∀ m, some 4 = some m → n ≤ m) ∧ Layout l' := by
  intro _ v h
  have := (C48 { recursionLimit := some 4 } rfl [] (textC48 ++ ['\n']) v .nil
    (fun c r h => by cases h; exact ⟨by decide, by decide⟩) (fun u h => by cases h) ⟨textC48, rfl⟩).mpr h
  have e : (fromStr { recursionLimit := some 4 } deValue ([] ++ (textC48 ++ ['\n']))).toOption = none := by decide +kernel
  rw [this] at e
  cases e

/-- With `implicit_some` an option may be written without parentheses, also as an item, around a word and around an option; not around
what would begin with a parenthesis. -/
example :
    let _ : Env := asciiEnv true true
    (∃ n w l', c!"[Some 1, Some\"a\", Some/**/Some Foo]\n" = w ++ l' ∧
      LangX true n w (.seq [.some (.num (.int .u8 1)), .some (.str c!"a"), .some (.some .unit)]) ∧ (∀ m, some 128 = some m → n ≤ m) ∧ Layout l') ∧
    ∀ n, ¬ LangX true n c!"Some1" (.some (.num (.int .u8 1))) := by
  intro _
  refine ⟨(C48 { recursionLimit := some 128, defaultExtensions := ⟨false, true, false, false⟩ } rfl [] _ _ .nil ?_ ?_
    ⟨c!"[Some 1, Some\"a\", Some/**/Some Foo]", rfl⟩).mp (by decide +kernel), fun n h => ?_⟩
  · intro c r h
    cases h
    exact ⟨by decide, by decide⟩
  · intro u h
    cases h
  · have := C48_reads { recursionLimit := none, defaultExtensions := ⟨false, true, false, false⟩ } ⟨false, false, false, false⟩ c!"Some1" _ rfl
      ⟨[], [], c!"Some1", [], n, by simp, .nil, .nil, h, fun _ h => (nomatch h), .nil⟩
    have e : (fromStr { recursionLimit := none, defaultExtensions := ⟨false, true, false, false⟩ } deValue c!"Some1").toOption = some .unit := by
      decide +kernel
    rw [this] at e
    cases e

end Ron
