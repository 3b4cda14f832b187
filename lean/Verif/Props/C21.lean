import Verif.Lemmas.TyDoc
import Verif.Lemmas.Witness
import Verif.Lemmas.Deq
/-!
# C21: struct names are optional but never wrong

The theorems speak of reading at an arbitrary place of an arbitrary text (a parser state whose remaining text is `s.rest`), so they
hold for whole documents and for every struct inside of them.  `s.nv` is set only inside a newtype variant under
`unwrap_variant_newtypes`, where a struct is written without name and parentheses.
-/

set_option linter.unusedSimpArgs false

namespace Ron

variable [Env]

/-! ### Accepted -/

/-- A struct is read from its fields in parentheses with its own name before them and, unless `explicit_struct_names` is enabled,
without the name, with the same result.  Here `q` is the text of the fields, in parentheses. -/
theorem C21_struct (o : Options) (D : Nat → Ty) (n f : Nat) (name : Text) (deny : Bool) (fields : List (Text × Ty))
    (fs : List (Text × SVal)) (hT : HasTy D n (.struct name deny fields) (.struct name fs)) (hf : n ≤ f)
    (sfx : Bool) (ts : List Text) (q : Text) (hts : RendFields o.defaultExtensions sfx fs ts) (hq : Delim '(' ')' ts q)
    (hk : ∀ m, o.recursionLimit = some m → (SVal.struct name fs).cost ≤ m) :
    (o.defaultExtensions.explicitStructNames = false → fromStr o (deTy D f (.struct name deny fields)) q = .ok (.struct name fs)) ∧
    ∀ tok l, NameTok name tok → Layout l →
      fromStr o (deTy D f (.struct name deny fields)) (tok ++ (l ++ q)) = .ok (.struct name fs) := by
  have key : ∀ p, OptName o.defaultExtensions name p →
      fromStr o (deTy D f (.struct name deny fields)) (p ++ q) = .ok (.struct name fs) := by
    intro p hp
    have hr : Rend o.defaultExtensions sfx false (.struct name fs) (p ++ q) := by
      simp only [Rend, Bool.false_eq_true, ↓reduceIte]
      exact .inl ⟨ts, hts, p, q, hp, hq, rfl⟩
    have := doc_reads ((ty_reads D n f _ _ hf hT).1 _ hr) (o := o) (l := []) (hdr := []) (l' := []) (e := {}) .nil .nil
      (by simp [Exts.union, Exts.empty]) hk .nil
    simpa using this
  refine ⟨fun h => by simpa using key [] (.inl ⟨h, rfl⟩), fun tok l ht hl => ?_⟩
  simpa using key (tok ++ l) (.inr ⟨tok, l, ht, hl, rfl⟩)

/-! ### Refused: what a successful read looked like -/

/-- What stands before the parentheses of a struct that was read: nothing or the very name. -/
def NamedBy (x : Exts) (name p : Text) : Prop :=
  (x.explicitStructNames = false ∧ p = []) ∨ (name ≠ [] ∧ (p = name ∨ p = 'r' :: '#' :: name))

theorem structName_sound {name : Text} {s s' : St} {b : Bool} (h : consumeStructName name s = .ok b s') :
    ∃ p, s.rest = p ++ s'.rest ∧ NamedBy s.exts name p ∧ (b = false ↔ p = []) ∧ s'.nv = s.nv := by
  unfold consumeStructName at h
  replace h := bind_ok h; obtain ⟨a, s1, h1, h⟩ := h
  rw [checkIdent_apply] at h1
  cases h1
  replace h := ite_inv h; rcases h with ⟨-, h⟩ | ⟨-, h⟩
  · rw [getSt_bind] at h
    replace h := ite_inv h; rcases h with ⟨-, h⟩ | ⟨he, h⟩
    · cases h
    · cases h
      exact ⟨[], rfl, .inl ⟨by simpa using he, rfl⟩, by simp, rfl⟩
  · replace h := bind_ok h; obtain ⟨a, s1, h1, h⟩ := h
    rw [attempt_apply] at h1
    cases hi : identifier s with
    | err e s2 =>
      rw [hi] at h1
      simp only [Res.ok.injEq] at h1
      obtain ⟨rfl, rfl⟩ := h1
      cases e <;> first | (cases h; done) | (replace h := ite_inv h; rcases h with ⟨-, h⟩ | ⟨-, h⟩ <;> cases h)
    | ok found s2 =>
      rw [hi] at h1
      simp only [Res.ok.injEq] at h1
      obtain ⟨rfl, rfl⟩ := h1
      replace h := ite_inv h; rcases h with ⟨-, h⟩ | ⟨-, h⟩
      · cases h
      replace h := ite_inv h; rcases h with ⟨-, h⟩ | ⟨hn, h⟩
      · cases h
      cases h
      simp only [ne_eq, Classical.not_not] at hn
      subst hn
      obtain ⟨tok, h1, h2, h3, h4⟩ := identifier_sound hi
      refine ⟨tok, h1, .inr ⟨h3, ?_⟩, ?_, h4.toKeeps.nv⟩
      · cases h2 <;> simp
      · cases h2 <;> simp [h3]

omit [Env] in
theorem consumeChar_sound {c : Char} {s s' : St} (h : consumeChar c s = .ok true s') : ∃ r, s.rest = c :: r := by
  rw [consumeChar_apply] at h
  split at h
  · next h' =>
    obtain ⟨u, hu⟩ := (startsWith_iff _ _).mp h'
    exact ⟨u, hu⟩
  · cases h

/-- Layout and an opening parenthesis. -/
theorem open_sound {s s1 s2 : St} {b : Bool} (h1 : skipWs s = .ok () s1) (h2 : consumeChar '(' s1 = .ok b s2) (hb : b = true) :
    ∃ l r, Layout l ∧ s.rest = l ++ '(' :: r := by
  subst hb
  obtain ⟨r, hr⟩ := consumeChar_sound h2
  obtain ⟨-, l, hl, hla, -⟩ := skipWs_inv_ne h1 (by rw [hr]; simp)
  exact ⟨l, r, hla, by rw [hl, hr]⟩

/-- The names of the six range types, whose compact notation begins with a number or dots. -/
def rangeNames : List Text := [c!"Range", c!"RangeInclusive", c!"RangeFrom", c!"RangeTo", c!"RangeToInclusive", c!"RangeFull"]

theorem rangeStruct_other {name : Text} (hn : name ∉ rangeNames) (fields : List Text) (s : St) :
    rangeStruct name fields s = .ok none s := by
  simp only [rangeNames, List.mem_cons, List.not_mem_nil, or_false, not_or] at hn
  unfold rangeStruct
  simp only [bind_apply, getSt_apply, hn, false_and, false_or, and_false, ↓reduceIte, pure_apply, ite_P]

/-- A named struct is read only if the text has the fields in parentheses, with the name of the struct or (unless
`explicit_struct_names` is enabled) with no name before them. -/
theorem C21_only_struct (D : Nat → Ty) (f : Nat) (name : Text) (deny : Bool) (fields : List (Text × Ty)) (s s' : St) (v : SVal)
    (hn : name ∉ rangeNames) (hs : s.nv = false) (h : deTy D f (.struct name deny fields) s = .ok v s') :
    ∃ p l r, s.rest = p ++ (l ++ '(' :: r) ∧ NamedBy s.exts name p ∧ Layout l := by
  cases f with
  | zero => cases h
  | succ f =>
    simp only [deTy] at h
    unfold deStruct at h
    rw [bind_apply, rangeStruct_other hn] at h
    simp only [getSt_bind, hs, Bool.not_false, ↓reduceIte] at h
    replace h := bind_ok h; obtain ⟨b, s1, h1, h⟩ := h
    obtain ⟨p, hp1, hp2, -, hn1⟩ := structName_sound h1
    replace h := bind_ok h; obtain ⟨_, s2, h2, h⟩ := h
    replace h := bind_ok h; obtain ⟨fs, s3, h3, h⟩ := h
    unfold structAfterName at h3
    rw [getSt_bind] at h3
    have hs1 : s2.nv = false := by
      rw [(skipWs_inv h2).1.nv, hn1, hs]
    simp only [hs1, Bool.false_eq_true, ↓reduceIte] at h3
    replace h3 := bind_ok h3; obtain ⟨b2, s4, h4, h3⟩ := h3
    replace h3 := ite_inv h3; rcases h3 with ⟨hb, -⟩ | ⟨-, h3⟩
    · obtain ⟨l, r, hl, hr⟩ := open_sound h2 h4 hb
      exact ⟨p, l, r, by rw [hp1, hr], hp2, hl⟩
    · replace h3 := ite_inv h3; rcases h3 with ⟨-, h3⟩ | ⟨-, h3⟩ <;> cases h3

/-- The same of a newtype struct, unless `unwrap_newtypes` is enabled. -/
theorem C21_only_newtype (D : Nat → Ty) (f : Nat) (name : Text) (T : Ty) (s s' : St) (v : SVal)
    (hs : s.nv = false) (hu : s.exts.unwrapNewtypes = false) (h : deTy D f (.newtype name T) s = .ok v s') :
    ∃ p l r, s.rest = p ++ (l ++ '(' :: r) ∧ NamedBy s.exts name p ∧ Layout l := by
  cases f with
  | zero => cases h
  | succ f =>
    simp only [deTy] at h
    replace h := bind_ok h; obtain ⟨u, s0, h, -⟩ := h
    unfold deNewtype at h
    simp only [getSt_bind, hs, hu, Bool.or_self, Bool.false_eq_true, ↓reduceIte] at h
    replace h := bind_ok h; obtain ⟨b, s1, h1, h⟩ := h
    obtain ⟨p, hp1, hp2, -, hn1⟩ := structName_sound h1
    replace h := bind_ok h; obtain ⟨_, s2, h2, h⟩ := h
    replace h := bind_ok h; obtain ⟨b2, s4, h4, h⟩ := h
    replace h := ite_inv h; rcases h with ⟨hb, -⟩ | ⟨-, h⟩
    · obtain ⟨l, r, hl, hr⟩ := open_sound h2 h4 hb
      exact ⟨p, l, r, by rw [hp1, hr], hp2, hl⟩
    · replace h := ite_inv h; rcases h with ⟨-, h⟩ | ⟨-, h⟩ <;> cases h

/-- The same of a tuple struct; no layout may stand between the name and the parenthesis. -/
theorem C21_only_tuple (D : Nat → Ty) (f : Nat) (name : Text) (Ts : List Ty) (s s' : St) (v : SVal)
    (hs : s.nv = false) (h : deTy D f (.tupleStruct name Ts) s = .ok v s') :
    ∃ p r, s.rest = p ++ '(' :: r ∧ NamedBy s.exts name p := by
  cases f with
  | zero => cases h
  | succ f =>
    simp only [deTy] at h
    replace h := bind_ok h; obtain ⟨u, s0, h, -⟩ := h
    unfold deTupleStruct at h
    simp only [getSt_bind, hs, Bool.not_false, ↓reduceIte] at h
    replace h := bind_ok h; obtain ⟨b, s1, h1, h⟩ := h
    obtain ⟨p, hp1, hp2, -, hn1⟩ := structName_sound h1
    rw [mapErr_apply] at h
    generalize hd : deTuple _ s1 = r at h
    cases r with
    | err e s2 => cases h
    | ok vs s2 =>
      unfold deTuple at hd
      simp only [getSt_bind, hn1, hs, Bool.false_eq_true, ↓reduceIte] at hd
      replace hd := bind_ok hd; obtain ⟨b2, s4, h4, hd⟩ := hd
      replace hd := ite_inv hd; rcases hd with ⟨hb, -⟩ | ⟨-, hd⟩
      · subst hb
        obtain ⟨r, hr⟩ := consumeChar_sound h4
        exact ⟨p, r, by rw [hp1, hr], hp2⟩
      · cases hd

/-- A unit struct is its name or, unless `explicit_struct_names` is enabled, `()`. -/
theorem C21_only_unit (D : Nat → Ty) (f : Nat) (name : Text) (s s' : St) (v : SVal) (hn : name ∉ rangeNames)
    (hs : s.nv = false) (h : deTy D f (.unitStruct name) s = .ok v s') :
    (s.exts.explicitStructNames = false ∧ ∃ r, s.rest = c!"()" ++ r) ∨
    (name ≠ [] ∧ ∃ r, s.rest = name ++ r ∨ s.rest = 'r' :: '#' :: (name ++ r)) := by
  cases f with
  | zero => cases h
  | succ f =>
    simp only [deTy] at h
    replace h := bind_ok h; obtain ⟨u, s0, h, -⟩ := h
    unfold deUnitStruct at h
    have hn' : name ≠ c!"RangeFull" := by rintro rfl; exact hn (by simp [rangeNames])
    simp only [hn', ↓reduceIte, pure_bind, Bool.false_eq_true, getSt_bind, hs] at h
    replace h := bind_ok h; obtain ⟨b, s1, h1, h⟩ := h
    simp only [pure_apply, Res.ok.injEq] at h1
    obtain ⟨rfl, rfl⟩ := h1
    simp only [Bool.false_eq_true, ↓reduceIte, getSt_bind, hs] at h
    replace h := bind_ok h; obtain ⟨b, s1, h1, h⟩ := h
    obtain ⟨p, hp1, hp2, hp3, hn1⟩ := structName_sound h1
    replace h := ite_inv h; rcases h with ⟨hb, -⟩ | ⟨hb, h⟩
    · right
      rcases hp2 with ⟨-, rfl⟩ | ⟨h2, rfl | rfl⟩
      · exact absurd (hp3.mpr rfl) (by simp [hb])
      · exact ⟨h2, _, .inl hp1⟩
      · exact ⟨h2, _, .inr (by simpa using hp1)⟩
    · obtain rfl := hp3.mp (by simpa using hb)
      left
      have he : s.exts.explicitStructNames = false := by
        rcases hp2 with ⟨h, -⟩ | ⟨h, h' | h'⟩
        · exact h
        · exact absurd h'.symm h
        · cases h'
      refine ⟨he, ?_⟩
      unfold deUnit at h
      simp only [getSt_bind, hn1, hs, Bool.false_eq_true, ↓reduceIte] at h
      replace h := bind_ok h; obtain ⟨b2, s4, h4, h⟩ := h
      replace h := ite_inv h; rcases h with ⟨hb, -⟩ | ⟨-, h⟩
      · subst hb
        rw [consumeStr_apply] at h4
        split at h4
        · next h5 =>
          obtain ⟨u, hu⟩ := (startsWith_iff _ _).mp h5
          exact ⟨u, by rw [hp1]; exact hu⟩
        · cases h4
      · cases h

/-! ### Refused: the errors -/

/-- The four kinds of types with a name of their own. -/
inductive NamedTy (name : Text) : Ty → Prop
  | struct (deny : Bool) (fields : List (Text × Ty)) : NamedTy name (.struct name deny fields)
  | newtype (T : Ty) : NamedTy name (.newtype name T)
  | tupleStruct (Ts : List Ty) : NamedTy name (.tupleStruct name Ts)
  | unitStruct : NamedTy name (.unitStruct name)

theorem structName_fails {T : Ty} {name : Text} (hT : NamedTy name T) {D : Nat → Ty} {f : Nat} {s : St} {e : Err} {s' : St}
    (hs : s.nv = false) (hu : s.exts.unwrapNewtypes = false) (hr : NotNum s.rest)
    (h : consumeStructName name s = .err e s') : deTy D (f + 1) T s = .err e s' := by
  cases hT with
  | struct deny fields =>
    simp only [deTy]
    unfold deStruct
    simp only [bind_apply, rangeStruct_none hr, getSt_apply, hs, Bool.not_false, ↓reduceIte, h]
  | newtype T =>
    simp only [deTy]
    unfold deNewtype
    simp only [bind_apply, getSt_apply, hs, hu, Bool.or_self, Bool.false_eq_true, ↓reduceIte, h]
  | tupleStruct Ts =>
    simp only [deTy]
    unfold deTupleStruct
    simp only [bind_apply, getSt_apply, hs, Bool.not_false, ↓reduceIte, h]
  | unitStruct =>
    simp only [deTy]
    unfold deUnitStruct
    have h0 : (if name = c!"RangeFull" then consumeStr c!".." else pure false : P Bool) s = .ok false s := by
      split
      · exact consumeStr_false hr.dots
      · rfl
    simp only [bind_apply, h0, getSt_apply, hs, Bool.false_eq_true, ↓reduceIte, h]

/-- Another name is refused, with an error that tells both names. -/
theorem C21_wrong_name (D : Nat → Ty) (f : Nat) (T : Ty) (name other tok r : Text) (s : St) (hT : NamedTy name T)
    (hname : name ≠ []) (ho : other ≠ name) (ht : NameTok other tok) (hr : IdentFollow r) (hs : s.nv = false)
    (hu : s.exts.unwrapNewtypes = false) (hrest : s.rest = tok ++ r) :
    ∃ s', deTy D (f + 1) T s = .err (.expectedDifferentStructName name other) s' := by
  obtain ⟨s', h1, h2, h3⟩ := ht.reads hr hrest
  have hc : checkIdent [] s = .ok false s := checkIdent_false (.inr (by simpa [hrest] using ht.head r))
  refine ⟨s', structName_fails hT hs hu (by rw [hrest]; exact ht.notNum hr) ?_⟩
  unfold consumeStructName
  have hne : name.isEmpty = false := by simpa using hname
  simp only [bind_apply, hc, Bool.false_eq_true, ↓reduceIte, attempt_apply, h1, hne, ne_eq, ho, not_false_eq_true]
  rfl

/-- With `explicit_struct_names` a missing name is refused, whatever stands in the parentheses. -/
theorem C21_missing_name (D : Nat → Ty) (f : Nat) (T : Ty) (name r : Text) (s : St) (hT : NamedTy name T)
    (hx : s.exts.explicitStructNames = true) (hs : s.nv = false) (hu : s.exts.unwrapNewtypes = false) (hrest : s.rest = '(' :: r) :
    deTy D (f + 1) T s = .err (.expectedStructName name) s := by
  refine structName_fails hT hs hu (by rw [hrest]; exact notNum_char (by decide) (by decide)) ?_
  have h : checkIdent [] s = .ok true s := checkIdent_true (r := '(' :: r) (by simpa using hrest) (parenOpen_follow _).xid
  unfold consumeStructName
  simp only [bind_apply, h, ↓reduceIte, getSt_apply, hx]
  rfl

/-- A whole document with another name. -/
theorem C21_wrong_document (o : Options) (D : Nat → Ty) (f : Nat) (T : Ty) (name other tok l r : Text) (hT : NamedTy name T)
    (hname : name ≠ []) (ho : other ≠ name) (ht : NameTok other tok) (hr : IdentFollow r) (hl : Layout l)
    (hu : o.defaultExtensions.unwrapNewtypes = false) :
    ∃ p, fromStr o (deTy D (f + 1) T) (l ++ (tok ++ r)) = .error p := by
  obtain ⟨s1, h1, r1, e1, -, n1, -, m1⟩ := parserNew_ok hl .nil (ht.tokStart.noLayout r) (ht.tokStart.noHash r)
    { St.init (l ++ (tok ++ r)) with limit := o.recursionLimit } (by simp [St.init])
  obtain ⟨s2, h2⟩ := C21_wrong_name D f T name other tok r { s1 with exts := s1.exts.union o.defaultExtensions } hT hname ho ht hr n1
    (by simp [e1, St.init, Exts.union, Exts.empty, hu]) r1
  unfold fromStr readDoc deNew deEnd
  simp only [bind_apply, modSt_apply, h1, h2]
  exact ⟨_, rfl⟩

/-- Non-vacuity: `Foo` with a field, a different name, a missing name. -/
example : let _ := asciiEnv true true
    let T : Ty := .struct c!"Foo" true [(c!"x", .bool)]
    let x : Options := { defaultExtensions := ⟨false, false, false, true⟩ }
    (fromStr {} (deTy (fun _ => .unit) 3 T) c!"Foo (x: true)").toOption = some (.struct c!"Foo" [(c!"x", .bool true)]) ∧
    (fromStr {} (deTy (fun _ => .unit) 3 T) c!"(x: true)").toOption = some (.struct c!"Foo" [(c!"x", .bool true)]) ∧
    (fromStr {} (deTy (fun _ => .unit) 3 T) c!"Foob(x: true)").toOption = none ∧
    (fromStr x (deTy (fun _ => .unit) 3 T) c!"(x: true)").toOption = none ∧
    (fromStr x (deTy (fun _ => .unit) 3 T) c!"r#Foo(x: true)").toOption = some (.struct c!"Foo" [(c!"x", .bool true)]) ∧
    NameTok c!"Foob" c!"Foob" ∧ c!"Foo" ∉ rangeNames := by
  refine ⟨?_, ?_, ?_, ?_, ?_, ⟨⟨by simp, by decide⟩, .inr ⟨rfl, ⟨_, _, rfl, by decide, by decide⟩, by decide⟩⟩, by decide⟩ <;> decide +kernel

end Ron
