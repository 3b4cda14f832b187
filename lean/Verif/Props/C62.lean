import Verif.Lemmas.TyLangReads
import Verif.Lemmas.TyLangDoc
import Verif.Lemmas.Witness
import Verif.Lemmas.Deq
/-!
# C62: a document reads as data of a type exactly if it is a text of the type, and to the data that it denotes

The texts of a type are `TyLang` of `Spec/TyLang.lean`; those of the ranges of the standard library include the range notation.  Not
claimed: documents in which `unwrap_variant_newtypes` is enabled, raw values, and that a line comment which the end of the document ends
is skipped.
-/

namespace Ron

section
variable [Env]

/-- Every text of a type is read, whatever the layout and the attributes around it, to the data that it denotes.  (No condition on the
type.) -/
theorem C62_reads (o : Options) (D : Nat → Ty) (f : Nat) (T : Ty) (e : Exts) (l hdr w l' : Text) (n : Nat) (v : SVal)
    (hx : (e.union o.defaultExtensions).unwrapVariantNewtypes = false) (hl : Layout l) (hh : Attrs hdr e)
    (h : TyLang D (e.union o.defaultExtensions) f T n w v) (hn : ∀ m, o.recursionLimit = some m → n ≤ m) (hl' : Layout l') :
    fromStr o (deTy D f T) (l ++ (hdr ++ (w ++ l'))) = .ok v :=
  doc_reads (tyLang_reads hx f T n w v h) hl hh rfl hn hl'

/-- Nothing else is read: a document that is read begins with layout and attributes, and unless they enable `unwrap_variant_newtypes`
the rest is a text of the type, which denotes the data, and layout.  With a limit `m` the text needs no more than `m` levels. -/
theorem C62_only (o : Options) (D : Nat → Ty) (hD : ∀ i, (D i).Every Ty.Described) (f : Nat) (T : Ty) (hT : T.Every Ty.Described) (t : Text)
    (v : SVal) (h : fromStr o (deTy D f T) t = .ok v) :
    ∃ l hdr e r, t = l ++ (hdr ++ r) ∧ Layout l ∧ Attrs hdr e ∧ ((e.union o.defaultExtensions).unwrapVariantNewtypes = false →
      ∃ n w u, r = w ++ u ∧ TyLang D (e.union o.defaultExtensions) f T n w v ∧ (∀ m, o.recursionLimit = some m → n ≤ m) ∧ Trail u) := by
  obtain ⟨l, hdr, e, r, h1, h2, h3, -, h4⟩ := fromStr_typed_any hD hT h
  refine ⟨l, hdr, e, r, h1, h2, h3, fun hc => ?_⟩
  obtain ⟨n, w, u, k1, k2, k3, -, k4⟩ := h4 hc
  exact ⟨n, w, u, k1, k2, k3, k4⟩

/-- Both, for a document that does not begin with an attribute and that ends with a line break. -/
theorem C62 (o : Options) (hx : o.defaultExtensions.unwrapVariantNewtypes = false) (D : Nat → Ty) (hD : ∀ i, (D i).Every Ty.Described) (f : Nat) (T : Ty)
    (hT : T.Every Ty.Described) (l r : Text) (v : SVal) (hl : Layout l) (hr : NoLayoutStart r)
    (hh : ∀ u, r ≠ '#' :: u) (he : ∃ u, r = u ++ ['\n']) :
    fromStr o (deTy D f T) (l ++ r) = .ok v ↔
      ∃ n w l', r = w ++ l' ∧ TyLang D o.defaultExtensions f T n w v ∧ (∀ m, o.recursionLimit = some m → n ≤ m) ∧ Layout l' := by
  have hex : (⟨false, false, false, false⟩ : Exts).union o.defaultExtensions = o.defaultExtensions := by
    cases o.defaultExtensions; simp [Exts.union]
  constructor
  · intro h
    obtain ⟨l1, hdr, e, r1, g1, g2, g3, -, g4⟩ := fromStr_typed_any hD hT h
    have key : hdr = [] ∧ e = ⟨false, false, false, false⟩ := by
      cases g3 with
      | nil => exact ⟨rfl, rfl⟩
      | @cons a t e e' ha ht =>
        exfalso
        have : ∃ u, a = '#' :: u := by
          cases ha with
          | enable h => cases h; exact ⟨_, rfl⟩
          | info h => cases h; exact ⟨_, rfl⟩
        obtain ⟨u, rfl⟩ := this
        have g1' : l ++ r = l1 ++ '#' :: (u ++ t ++ r1) := by simpa using g1
        obtain ⟨-, e2⟩ := layout_unique hl g2 (.inl hr) (.inl fun c r' h => by cases h; exact ⟨by decide, by decide⟩) g1'
        exact hh _ e2
    obtain ⟨rfl, rfl⟩ := key
    obtain ⟨n, w, u, k1, k2, k3, k5, k4⟩ := g4 (hex.symm ▸ hx)
    rw [List.nil_append] at g1
    obtain ⟨-, e2⟩ := layout_unique hl g2 (.inl hr) (.inl k5) g1
    rw [k1] at e2
    rw [hex] at k2
    refine ⟨n, w, u, e2, k2, k3, ?_⟩
    rcases k4 with h | ⟨l2, o2, -, ⟨b, rfl, hb⟩, rfl⟩
    · exact h
    · exfalso
      obtain ⟨x, hx⟩ := he
      rw [hx] at e2
      have : (x ++ ['\n']).getLast? = (w ++ (l2 ++ '/' :: '/' :: b)).getLast? := by rw [e2]
      have e3 : w ++ (l2 ++ '/' :: '/' :: b) = (w ++ l2 ++ ['/']) ++ ('/' :: b) := by simp
      rw [List.getLast?_append, e3, List.getLast?_append] at this
      simp only [List.getLast?_singleton, Option.some_or] at this
      rw [List.getLast?_eq_some_getLast (List.cons_ne_nil _ _), Option.some_or] at this
      have hm := List.getLast_mem (List.cons_ne_nil '/' b)
      rw [← Option.some.inj this] at hm
      rcases List.mem_cons.mp hm with h | h
      · cases h
      · exact hb h
  · rintro ⟨n, w, l', rfl, h3, h4, h5⟩
    exact C62_reads o D f T ⟨false, false, false, false⟩ l [] w l' n v (hex.symm ▸ hx) hl .nil (hex.symm ▸ h3) h4 h5

/-- No text has two meanings for a type. -/
theorem C62_one (D : Nat → Ty) (x : Exts) (hx : x.unwrapVariantNewtypes = false) (f : Nat) (T : Ty) (n m : Nat) (w : Text) (v v' : SVal)
    (h : TyLang D x f T n w v) (h' : TyLang D x f T m w v') : v = v' := by
  have hex : (⟨false, false, false, false⟩ : Exts).union x = x := by cases x; simp [Exts.union]
  have key : ∀ n v, TyLang D x f T n w v → fromStr { recursionLimit := none, defaultExtensions := x } (deTy D f T) w = .ok v := fun n v h => by
    have := C62_reads { recursionLimit := none, defaultExtensions := x } D f T ⟨false, false, false, false⟩ [] [] w [] n v (hex.symm ▸ hx) .nil .nil
      (hex.symm ▸ h) (fun _ h => (nomatch h)) .nil
    simpa using this
  have := key n v h
  rw [key m v' h'] at this
  exact (Except.ok.inj this).symm

end

/-- The type of the example: `struct Foo { a: Vec<E>, b: Option<u8>, c: Option<bool> }` with
`enum E { A, B(u8, char), C { r#type: String } }`. -/
def tyC62 : Ty :=
  .struct c!"Foo" false [(c!"a", .seq (.enum c!"E" [(c!"A", .unit), (c!"B", .tuple [.int .u8, .char]),
    (c!"C", .struct true [(c!"type", .str)])])), (c!"b", .option (.int .u8)), (c!"c", .option .bool)]

/-- The text of the example: fields in another order, one that the struct ignores, one that is missing. -/
def textC62 : Text := c!"Foo(b: Some(0xff,), zz: {1: [], 2: ()}, a: [A, B(1, 'x'), r#C(r#type: \"t\")] /*c*/)"

/-- The data of the example. -/
def dataC62 : SVal :=
  .struct c!"Foo" [(c!"a", .seq (some 3) [.unitVariant c!"E" c!"A", .tupleVariant c!"E" c!"B" [.num (.int .u8 1), .char 'x'],
    .structVariant c!"E" c!"C" [(c!"type", .str c!"t")]]), (c!"b", .some (.num (.int .u8 255))), (c!"c", .none)]

theorem describedC62 : tyC62.Every Ty.Described := by
  simp [tyC62, Ty.Every, Ty.Parts, PartsAll, PartsFields, PartsVariants, Variant.Parts, Ty.Described]

/-- The text of the example is a text of the type: the right side of `C62` is met (by the left side, which is evaluated). -/
example :
    let _ : Env := asciiEnv true true
    ∃ n w l', textC62 ++ ['\n'] = w ++ l' ∧ TyLang (fun _ => .unit) {} 9 tyC62 n w dataC62 ∧ (∀ m, some 128 = some m → n ≤ m) ∧ Layout l' := by
  intro _
  refine (C62 { recursionLimit := some 128 } rfl (fun _ => .unit) (fun _ => ⟨trivial, trivial⟩) 9 tyC62 describedC62 []
    (textC62 ++ ['\n']) dataC62 .nil ?_ ?_ ⟨textC62, rfl⟩).mp (by decide +kernel)
  · intro c r h
    cases h
    exact ⟨by decide, by decide⟩
  · intro u h
    cases h

/-- The same text needs seven levels; with a limit of six it is not a document. -/
example :
    let _ : Env := asciiEnv true true
    ∀ v, ¬ ∃ n w l', textC62 ++ ['\n'] = w ++ l' ∧ TyLang (fun _ => .unit) {} 9 tyC62 n w v ∧ (∀ m, some 6 = some m → n ≤ m) ∧ Layout l' := by
  intro _ v h
  have := (C62 { recursionLimit := some 6 } rfl (fun _ => .unit) (fun _ => ⟨trivial, trivial⟩) 9 tyC62 describedC62 []
    (textC62 ++ ['\n']) v .nil
    (fun c r h => by cases h; exact ⟨by decide, by decide⟩) (fun u h => by cases h) ⟨textC62, rfl⟩).mpr h
  have e : (fromStr { recursionLimit := some 6 } (deTy (fun _ => .unit) 9 tyC62) ([] ++ (textC62 ++ ['\n']))).toOption = none := by decide +kernel
  rw [this] at e
  cases e

/-- Without `unwrap_newtypes` a newtype struct needs its parentheses; with it, it has none. -/
example :
    let _ : Env := asciiEnv true true
    (∃ n, TyLang (fun _ => .unit) {} 2 (.newtype c!"N" .bool) n c!"N(true)" (.newtypeStruct c!"N" (.bool true))) ∧
    (∃ n, TyLang (fun _ => .unit) { unwrapNewtypes := true } 2 (.newtype c!"N" .bool) n c!"true" (.newtypeStruct c!"N" (.bool true))) ∧
    ∀ n v, ¬ TyLang (fun _ => .unit) {} 2 (.newtype c!"N" .bool) n c!"true" v := by
  intro _
  refine ⟨⟨1, .bool true, rfl, ?_⟩, ⟨1, .bool true, rfl, ?_⟩, ?_⟩
  · exact ⟨c!"N", c!"(true)", rfl, .inr ⟨c!"N", [], ⟨⟨by decide, by decide⟩, .inr ⟨rfl, 'N', [], rfl, by decide, by decide⟩⟩, .nil, rfl⟩,
      [], c!"true", [], .nil, ⟨true, rfl, rfl⟩, .plain .nil, rfl⟩
  · exact ⟨true, rfl, rfl⟩
  · rintro n v h
    have := tyLang_reads (x := {}) rfl 2 _ n _ v h
    have := doc_reads (o := { recursionLimit := none }) this .nil .nil rfl (fun _ h => (nomatch h)) .nil
    have e : (fromStr { recursionLimit := none } (deTy (fun _ => .unit) 2 (.newtype c!"N" .bool)) ([] ++ ([] ++ (c!"true" ++ [])))).toOption = none := by
      decide +kernel
    rw [this] at e
    cases e

/-- With `implicit_some` the parentheses of `Some`, or all of `Some(..)`, may be left out; without it neither.  `None` stays `None`, also
where an option is in an option. -/
example :
    let _ : Env := asciiEnv true true
    let x : Exts := { implicitSome := true }
    let T : Ty := .option (.int .u8)
    let five : SVal := .some (.num (.int .u8 5))
    (∀ w ∈ [c!"5\n", c!"Some 5\n", c!"Some/**/5\n", c!"Some(5)\n"], ∃ n u l, w = u ++ l ∧ TyLang (fun _ => .unit) x 3 T n u five ∧ Layout l) ∧
    (∃ n u l, c!"5\n" = u ++ l ∧ TyLang (fun _ => .unit) x 4 (.option T) n u (.some five) ∧ Layout l) ∧
    (∃ n, TyLang (fun _ => .unit) x 4 (.option T) n c!"None" .none) ∧
    (∀ n, ¬ TyLang (fun _ => .unit) x 4 (.option T) n c!"None" (.some .none)) ∧
    ∀ w ∈ [c!"5", c!"Some 5"], ∀ n v, ¬ TyLang (fun _ => .unit) {} 3 T n w v := by
  intro _ x T five
  have yes : ∀ (f : Nat) (T : Ty) (w : Text) (v : SVal), T.Every Ty.Described → NoLayoutStart (w ++ ['\n']) → (∀ u, w ++ ['\n'] ≠ '#' :: u) →
      fromStr { recursionLimit := none, defaultExtensions := x } (deTy (fun _ => .unit) f T) ([] ++ (w ++ ['\n'])) = .ok v →
      ∃ n u l, w ++ ['\n'] = u ++ l ∧ TyLang (fun _ => .unit) x f T n u v ∧ Layout l := fun f T w v hT h1 h2 h => by
    obtain ⟨n, u, l, g1, g2, -, g3⟩ := (C62 { recursionLimit := none, defaultExtensions := x } rfl (fun _ => .unit) (fun _ => ⟨trivial, trivial⟩) f T hT []
      (w ++ ['\n']) v .nil h1 h2 ⟨w, rfl⟩).mp h
    exact ⟨n, u, l, g1, g2, g3⟩
  have hT : T.Every Ty.Described := by simp [T, Ty.Every, Ty.Parts, Ty.Described]
  refine ⟨?_, ?_, ?_, ?_, ?_⟩
  · intro w hw
    simp only [List.mem_cons, List.not_mem_nil, or_false] at hw
    rcases hw with rfl | rfl | rfl | rfl
    · exact yes 3 T c!"5" five hT (fun c r h => by cases h; exact ⟨by decide, by decide⟩) (fun u h => by cases h) (by decide +kernel)
    · exact yes 3 T c!"Some 5" five hT (fun c r h => by cases h; exact ⟨by decide, by decide⟩) (fun u h => by cases h) (by decide +kernel)
    · exact yes 3 T c!"Some/**/5" five hT (fun c r h => by cases h; exact ⟨by decide, by decide⟩) (fun u h => by cases h) (by decide +kernel)
    · exact yes 3 T c!"Some(5)" five hT (fun c r h => by cases h; exact ⟨by decide, by decide⟩) (fun u h => by cases h) (by decide +kernel)
  · exact yes 4 (.option T) c!"5" (.some five) (by simp [T, Ty.Every, Ty.Parts, Ty.Described])
      (fun c r h => by cases h; exact ⟨by decide, by decide⟩) (fun u h => by cases h) (by decide +kernel)
  · exact ⟨0, .inl ⟨rfl, rfl⟩⟩
  · intro n h
    have := C62_one _ x rfl _ _ _ _ _ _ _ h (.inl ⟨rfl, rfl⟩ : TyLang (fun _ => .unit) x 4 (.option T) 0 c!"None" .none)
    cases this
  · intro w hw n v h
    have := tyLang_reads (x := {}) rfl 3 _ n _ v h
    have := doc_reads (o := { recursionLimit := none }) this .nil .nil rfl (fun _ h => (nomatch h)) .nil
    have e : ∀ w ∈ [c!"5", c!"Some 5"], (fromStr { recursionLimit := none } (deTy (fun _ => .unit) 3 (.option (.int .u8)))
        ([] ++ ([] ++ (w ++ [])))).toOption = none := by
      decide +kernel
    have e := e w hw
    rw [this] at e
    cases e

/-- Ranges: `1..=300` is a `RangeInclusive<u16>`, `1..300` is not, `(start:1,end:300)` is; a bound that does not fit is refused. -/
example :
    let _ : Env := asciiEnv true true
    let T : Ty := .struct c!"RangeInclusive" false [(c!"start", .int .u16), (c!"end", .int .u16)]
    let v : SVal := .struct c!"RangeInclusive" [(c!"start", .num (.int .u16 1)), (c!"end", .num (.int .u16 300))]
    (∃ n, TyLang (fun _ => .unit) {} 3 T n c!"1..=300" v) ∧
    (∃ n u l, c!"(start:1,end:300)\n" = u ++ l ∧ TyLang (fun _ => .unit) {} 3 T n u v ∧ Layout l) ∧
    ∀ w ∈ [c!"1..300", c!"1..=70000", c!"-1..=3", c!"..=300"], ∀ n v, ¬ TyLang (fun _ => .unit) {} 3 T n w v := by
  intro _ T v
  refine ⟨⟨0, _, rfl, .inr ⟨[(c!"start", .int .u8 1), (c!"end", .int .u16 300)], ?_, ?_⟩⟩, ?_, ?_⟩
  · exact .inclusive (v := c!"300") (.inl rfl) (.inl ⟨_, _, rfl, .inl (by decide)⟩) (number_iff (s := St.init _) |>.1 ⟨_, rfl, rfl⟩)
      (number_iff (s := St.init _) |>.1 ⟨_, rfl, rfl⟩)
  · exact ⟨⟨rfl, rfl, .int (by decide) (by decide)⟩, ⟨rfl, rfl, .int (by decide) (by decide)⟩, trivial⟩
  · obtain ⟨n, u, l, g1, g2, -, g3⟩ := (C62 { recursionLimit := none } rfl (fun _ => .unit) (fun _ => ⟨trivial, trivial⟩) 3 T
      (by simp [T, Ty.Every, Ty.Parts, PartsFields, Ty.Described]) [] c!"(start:1,end:300)\n" v .nil
      (fun c r h => by cases h; exact ⟨by decide, by decide⟩) (fun u h => by cases h) ⟨c!"(start:1,end:300)", rfl⟩).mp (by decide +kernel)
    exact ⟨n, u, l, g1, g2, g3⟩
  · intro w hw n v h
    have := tyLang_reads (x := {}) rfl 3 _ n _ v h
    have := doc_reads (o := { recursionLimit := none }) this .nil .nil rfl (fun _ h => (nomatch h)) .nil
    have e : ∀ w ∈ [c!"1..300", c!"1..=70000", c!"-1..=3", c!"..=300"], (fromStr { recursionLimit := none } (deTy (fun _ => .unit) 3
        (.struct c!"RangeInclusive" false [(c!"start", .int .u16), (c!"end", .int .u16)])) ([] ++ ([] ++ (w ++ [])))).toOption = none := by
      decide +kernel
    have e := e w hw
    rw [this] at e
    cases e

end Ron
