import Verif.Lemmas.Broken
import Verif.Lemmas.Covered
import Verif.Lemmas.SafeTy
import Verif.Lemmas.Witness
import Verif.Lemmas.Deq
import Verif.Props.C48
import Verif.Props.C62
import Verif.Props.C65
/-!
# C66: every document is read, or refused for a defect it has

C62 says which documents are read, C65 how documents with certain defects are refused.  For the types of `Spec/Covered.lean`, among them structs and enums, there is nothing
else: every text is a text of the type, or has one of the defects of `BadTy`, or goes on after the value, or is one of `OddTy`: a comment in a
place between its parts is not complete, or a field that is ignored holds something that is no value.  Comments that are not complete are
refused with their own error (`C66_broken`), except a line comment after the value (`C66_after`).
-/

namespace Ron

section
variable [Env]

/-- A text that does not begin with layout: a text of the type is here, or it is defective, or it is odd: a comment in it is not complete, or an ignored field is no value. -/
theorem C66_sorted {s : Bool} (D : Nat → Ty) (x : Exts) (f : Nat) (T : Ty) (n : Nat) (u : Text) (hT : Covered D x s f T) (hn : 3 * f ≤ n) (hu : NoLayoutStart u) :
    (∃ q, ItemAt D x f T n u q) ∨ (∃ e r, BadTy D x f T n u e r) ∨ OddTy D x f T n u :=
  covered_total f T n u hT hn hu

/-- Documents: read as the data that the text denotes, or refused with the error of the defect where it is, or because they go on. -/
theorem C66 {s : Bool} (o : Options) (D : Nat → Ty) (f : Nat) (T : Ty) (ex : Exts) (l hdr u : Text)
    (hx : (ex.union o.defaultExtensions).unwrapVariantNewtypes = false) (hT : Covered D (ex.union o.defaultExtensions) s f T)
    (hk : ∀ m, o.recursionLimit = some m → 3 * f ≤ m) (hl : Layout l) (ha : Attrs hdr ex) (hn : NoLayoutStart u) (hh : u.head? ≠ some '#')
    (ht : ¬ OddTy D (ex.union o.defaultExtensions) f T (3 * f) u) :
    (∃ t l' v, u = t ++ l' ∧ TyLang D (ex.union o.defaultExtensions) f T (3 * f) t v ∧ Layout l' ∧ fromStr o (deTy D f T) (l ++ (hdr ++ u)) = .ok v) ∨
    (∃ e r p sp, BadTy D (ex.union o.defaultExtensions) f T (3 * f) u e r ∧ l ++ (hdr ++ u) = p ++ r ∧
      fromStr o (deTy D f T) (l ++ (hdr ++ u)) = .error (e, sp) ∧ sp.stop = Position.after p) ∨
    (∃ q p sp, ItemAt D (ex.union o.defaultExtensions) f T (3 * f) u q ∧ q ≠ [] ∧ l ++ (hdr ++ u) = p ++ q ∧
      fromStr o (deTy D f T) (l ++ (hdr ++ u)) = .error (.trailingCharacters, sp) ∧ sp.stop = Position.after p) := by
  rcases C66_sorted D _ f T (3 * f) u hT (Nat.le_refl _) hn with ⟨q, h⟩ | ⟨e, r, h⟩ | h
  · cases q with
    | nil =>
      obtain ⟨t, l', v, rfl, hl', hv⟩ := itemAt_text h (.inl rfl)
      simp only [List.append_nil] at h hn hh ht ⊢
      exact .inl ⟨t, l', v, rfl, hv, hl', C62_reads o D f T ex l hdr t l' (3 * f) v hx hl ha hv hk hl'⟩
    | cons c q =>
      obtain ⟨-, p, hp⟩ := itemAt_suffix h
      have e : l ++ (hdr ++ u) = (l ++ (hdr ++ p)) ++ c :: q := by rw [hp]; simp
      obtain ⟨sp, h1, h2⟩ := C65_trailing o D f T ex l hdr u (c :: q) _ (3 * f) hx hk hl ha hn hh h (by simp) e
      exact .inr (.inr ⟨c :: q, _, sp, h, by simp, e, h1, h2⟩)
  · have hs : r <:+ u := by
      obtain ⟨s', h1, rfl, -⟩ := badTy_errs hx f T _ u e r h _ (pre_init _ _ u) rfl
      have := deTy_out (φ := True) (D := D) f T { St.init u with exts := ex.union o.defaultExtensions } ⟨List.suffix_refl _, List.suffix_refl _, List.suffix_refl _⟩ (.inr trivial)
      rw [h1] at this
      exact this.1.rest
    obtain ⟨p, rfl⟩ := hs
    have e' : l ++ (hdr ++ (p ++ r)) = (l ++ (hdr ++ p)) ++ r := by simp
    obtain ⟨sp, h1, h2⟩ := C65 o D f T ex l hdr (p ++ r) r _ (3 * f) e hx hk hl ha hn hh h e'
    exact .inr (.inl ⟨e, r, _, sp, h, e', h1, h2⟩)
  · exact absurd h ht

/-- The errors of such documents: `TrailingCharacters`, or that of a defect. -/
theorem C66_refused {s : Bool} (o : Options) (D : Nat → Ty) (f : Nat) (T : Ty) (ex : Exts) (l hdr u : Text) (e : Err) (sp : Span)
    (hx : (ex.union o.defaultExtensions).unwrapVariantNewtypes = false) (hT : Covered D (ex.union o.defaultExtensions) s f T)
    (hk : ∀ m, o.recursionLimit = some m → 3 * f ≤ m) (hl : Layout l) (ha : Attrs hdr ex) (hn : NoLayoutStart u) (hh : u.head? ≠ some '#')
    (ht : ¬ OddTy D (ex.union o.defaultExtensions) f T (3 * f) u) (h : fromStr o (deTy D f T) (l ++ (hdr ++ u)) = .error (e, sp)) :
    ∃ r, (BadTy D (ex.union o.defaultExtensions) f T (3 * f) u e r ∨ (e = .trailingCharacters ∧ r ≠ [] ∧ ItemAt D (ex.union o.defaultExtensions) f T (3 * f) u r)) ∧
      ∃ p, l ++ (hdr ++ u) = p ++ r ∧ sp.stop = Position.after p := by
  rcases C66 o D f T ex l hdr u hx hT hk hl ha hn hh ht with ⟨t, l', v, -, -, -, g⟩ | ⟨e', r, p, sp', h1, h2, h3, h4⟩ | ⟨q, p, sp', h1, h2, h3, h4, h5⟩
  · rw [h] at g; cases g
  · rw [h] at h3; cases h3
    exact ⟨r, .inl h1, p, h2, h4⟩
  · rw [h] at h4; cases h4
    exact ⟨q, .inr ⟨rfl, h2, h1⟩, p, h3, h5⟩

/-- A comment can only be incomplete where there is a slash, and where no fields are ignored there is no other oddity. -/
theorem C66_no_slash (D : Nat → Ty) (x : Exts) : ∀ (f : Nat) (T : Ty) (n : Nat) (u : Text), Covered D x true f T → '/' ∉ u → ¬ OddTy D x f T n u := by
  have hT : ∀ u, Torn u → '/' ∈ u := by
    rintro u ⟨l, w, rfl, -⟩
    simp
  have hI : ∀ f T n u c r, ItemAt D x f T n u (c :: r) → Torn r → '/' ∈ u := by
    intro f T n u c r h ht
    obtain ⟨-, p, rfl⟩ := itemAt_suffix h
    simp [hT r ht]
  intro f
  induction f with
  | zero => exact fun _ _ _ _ _ h => h
  | succ f ih =>
    have ih' : ∀ T n u, Covered D x true f T → OddTy D x f T n u → '/' ∈ u := fun T n u hC h => Classical.byContradiction fun hu => ih T n u hC hu h
    have hTup : ∀ Ts n u, (∀ T ∈ Ts, Covered D x true f T) → OddTuple (TyLang D x f) (ItemAt D x f) (OddTy D x f) Ts n u → '/' ∈ u := by
      intro Ts n u hC h
      cases h with
      | opening h => simp [hT _ h]
      | item _ _ _ h => simp [ih' _ _ _ (hC _ (by simp)) h]
      | comma _ _ _ h ht => simp [hI _ _ _ _ _ _ h ht]
    have hPar : ∀ T n u, Covered D x true f T → OddParens (ItemAt D x f T) (OddTy D x f T) n u → '/' ∈ u := by
      intro T n u hC h
      cases h with
      | opening h => simp [hT _ h]
      | item _ _ h => simp [ih' _ _ _ hC h]
      | comma _ _ h ht => simp [hI _ _ _ _ _ _ h ht]
    have hFld : ∀ deny fields n u, deny = true → (∀ F ∈ fields, Covered D x true f F.2) → OddFields x.implicitSome (TyLang D x f) (ItemAt D x f) (OddTy D x f) deny fields n u → '/' ∈ u := by
      intro deny fields n u hD hC h
      cases h with
      | opening h => simp [hT _ h]
      | key _ _ _ _ h => simp [hT _ h]
      | colon _ _ _ _ _ h => simp [hT _ h]
      | value _ _ _ _ hf _ _ _ h => simp [ih' _ _ _ (hC _ (List.mem_of_find?_eq_some hf)) h]
      | comma _ _ _ _ _ _ _ _ h ht => simp [hI _ _ _ _ _ _ h ht]
      | ignored _ _ _ _ _ hd => rw [hD] at hd; cases hd
      | ignoredComma _ _ _ _ _ hd => rw [hD] at hd; cases hd
    intro T n u hC hu h
    apply hu
    cases h with
    | after h ht =>
      obtain ⟨p, rfl⟩ := wholeAt_suffix h
      simp [hT _ ht]
    | seq h =>
      cases hC with | seq hC =>
      cases h with
      | opening h => simp [hT _ h]
      | item _ _ _ h => simp [ih' _ _ _ hC h]
      | comma _ _ _ h ht => simp [hI _ _ _ _ _ _ h ht]
    | byteList h =>
      cases hC with | bytes =>
      cases h with
      | opening h => simp [hT _ h]
      | item _ _ _ h => simp [ih' _ _ _ (.int (by rintro (h | h) <;> cases h)) h]
      | comma _ _ _ h ht => simp [hI _ _ _ _ _ _ h ht]
    | tuple h => cases hC with | tuple hC => exact hTup _ _ _ hC h
    | map h =>
      cases hC with | map hK hV =>
      cases h with
      | opening h => simp [hT _ h]
      | key _ _ _ h => simp [ih' _ _ _ hK h]
      | colon _ _ _ h ht => simp [hI _ _ _ _ _ _ h ht]
      | value _ _ _ _ _ _ h => simp [ih' _ _ _ hV h]
      | comma _ _ _ _ _ _ h ht => simp [hI _ _ _ _ _ _ h ht]
    | someWord _ h => simp [hT _ h]
    | some _ h => cases hC with | option hC => simp [hPar _ _ _ hC h]
    | implicit _ _ _ h => cases hC with | option hC => simp [ih' _ _ _ hC h]
    | tupleStruct _ h => cases hC with | tupleStruct hC => simp [hTup _ _ _ hC h]
    | newtypeName _ h => simp [hT _ h]
    | newtype _ h => cases hC with | newtype hC => simp [hPar _ _ _ hC h]
    | unwrapped _ h => cases hC with | newtype hC => exact ih' _ _ _ hC h
    | structName _ h => simp [hT _ h]
    | struct _ h => cases hC with | struct hD hC => simp [hFld _ _ _ _ (hD rfl) hC h]
    | variant _ _ h => simp [hT _ h]
    | data _ hf _ h =>
      cases hC with | enum hD hC =>
      have hm := List.mem_of_find?_eq_some hf
      have hC := hC _ hm
      have hD := hD rfl _ hm
      cases h with
      | newtype h => simp [hPar _ _ _ (hC _ (by simp [Variant.types])) h]
      | tuple h => simp [hTup _ _ _ (fun T hT => hC T hT) h]
      | struct h => simp [hFld _ _ _ _ hD (fun F hF => hC F.2 (List.mem_map.mpr ⟨F, hF, rfl⟩)) h]
    | ref h => cases hC with | ref hC => exact ih' _ _ _ hC h

/-- Documents without a slash: exactly those are read that are a text of the type and layout. -/
theorem C66_reads (o : Options) (D : Nat → Ty) (f : Nat) (T : Ty) (ex : Exts) (l hdr u : Text) (v : SVal)
    (hx : (ex.union o.defaultExtensions).unwrapVariantNewtypes = false) (hT : Covered D (ex.union o.defaultExtensions) true f T)
    (hk : ∀ m, o.recursionLimit = some m → 3 * f ≤ m) (hl : Layout l) (ha : Attrs hdr ex) (hn : NoLayoutStart u) (hh : u.head? ≠ some '#') (hs : '/' ∉ u) :
    fromStr o (deTy D f T) (l ++ (hdr ++ u)) = .ok v ↔ ∃ t l', u = t ++ l' ∧ TyLang D (ex.union o.defaultExtensions) f T (3 * f) t v ∧ Layout l' := by
  constructor
  · intro h
    rcases C66 o D f T ex l hdr u hx hT hk hl ha hn hh (C66_no_slash D _ f T _ u hT hs) with ⟨t, l', v', h1, h2, h3, g⟩ | ⟨e, r, p, sp, -, -, g, -⟩ | ⟨q, p, sp, -, -, -, g, -⟩
    · rw [h] at g
      cases g
      exact ⟨t, l', h1, h2, h3⟩
    · rw [h] at g; cases g
    · rw [h] at g; cases g
  · rintro ⟨t, l', rfl, h2, h3⟩
    exact C62_reads o D f T ex l hdr t l' (3 * f) v hx hl ha h2 hk h3

/-- Incomplete comments are of two kinds: a line comment that the end of the document ends, or one of `BrokenComment`. -/
theorem C66_torn (r : Text) (h : Torn r) : ∃ l w, r = l ++ w ∧ Layout l ∧ (OpenLine w ∨ ∃ e, BrokenComment w e) := by
  obtain ⟨l, w, rfl, hl, hw⟩ := h
  rcases skipWs_cases (St.init ('/' :: w)) with ⟨l', r, e, hl', hr, -⟩ | ⟨l', u, e, hl', hu, -⟩ | ⟨l', u, er, e, hl', hu, -⟩
  · have e' : '/' :: w = l' ++ r := e
    rw [hw l' r e' hl'] at e'
    subst e'
    exact hr.not_slash.elim
  · have e' : '/' :: w = l' ++ u := e
    rw [hw l' u e' hl'] at e'
    exact ⟨l, '/' :: w, rfl, hl, .inl (by rw [e']; exact hu)⟩
  · have e' : '/' :: w = l' ++ u := e
    rw [hw l' u e' hl'] at e'
    exact ⟨l, '/' :: w, rfl, hl, .inr ⟨er, by rw [e']; exact hu⟩⟩

/-- After the value of the document: a line comment need not be closed, any other incomplete comment is refused with its own error. -/
theorem C66_after (o : Options) (D : Nat → Ty) (f : Nat) (T : Ty) (ex : Exts) (l hdr u l' w : Text) (n : Nat)
    (hx : (ex.union o.defaultExtensions).unwrapVariantNewtypes = false) (hk : ∀ m, o.recursionLimit = some m → n ≤ m)
    (hl : Layout l) (ha : Attrs hdr ex) (hn : NoLayoutStart u) (hh : u.head? ≠ some '#')
    (h : WholeAt D (ex.union o.defaultExtensions) f T n u (l' ++ w)) (hl' : Layout l') :
    (OpenLine w → ∃ v, fromStr o (deTy D f T) (l ++ (hdr ++ u)) = .ok v) ∧
    (∀ e, BrokenComment w e → ∃ sp, fromStr o (deTy D f T) (l ++ (hdr ++ u)) = .error (e, sp)) := by
  obtain ⟨s1, h1, r1, e1, c1, n1, -, m1⟩ := parserNew_ok hl ha hn (head_ne hh)
    { St.init (l ++ (hdr ++ u)) with limit := o.recursionLimit } (by simp [St.init])
  obtain ⟨v, s2, h2, h3, h4⟩ := wholeAt_runs hx h { s1 with exts := s1.exts.union o.defaultExtensions }
    ⟨n1, by simp [e1, St.init, Exts.union, Exts.empty], fun m hm => hk m (m1.symm.trans hm)⟩ r1
  refine ⟨fun hw => ⟨v, ?_⟩, fun e hw => ?_⟩
  · obtain ⟨s3, h5, h6, -⟩ := skipWs_openLine h3 hl' hw
    have he : s3.rest.isEmpty = true := by simp [h6]
    unfold fromStr readDoc deNew deEnd
    simp only [bind_apply, modSt_apply, h1, h2, h5, getSt_apply, ite_P, he, ↓reduceIte]
    rfl
  · obtain ⟨s3, h5⟩ := skipWs_error h3 hl' hw
    refine ⟨s3.span, ?_⟩
    unfold fromStr readDoc deNew deEnd
    simp only [bind_apply, modSt_apply, h1, h2, h5]
    rfl

/-- A comment that is broken between the parts of a document's value, at any depth, or after it: the document is refused, with the error of that comment. -/
theorem C66_broken (o : Options) (D : Nat → Ty) (f : Nat) (T : Ty) (ex : Exts) (l hdr u : Text) (n : Nat) (e : Err)
    (hx : (ex.union o.defaultExtensions).unwrapVariantNewtypes = false) (hk : ∀ m, o.recursionLimit = some m → n ≤ m)
    (hl : Layout l) (ha : Attrs hdr ex) (hn : NoLayoutStart u) (hh : u.head? ≠ some '#')
    (h : BrokenTy D (ex.union o.defaultExtensions) f T n u e) : ∃ sp, fromStr o (deTy D f T) (l ++ (hdr ++ u)) = .error (e, sp) := by
  obtain ⟨s1, h1, r1, e1, c1, n1, -, m1⟩ := parserNew_ok hl ha hn (head_ne hh)
    { St.init (l ++ (hdr ++ u)) with limit := o.recursionLimit } (by simp [St.init])
  rcases brokenTy_breaks hx f T n u e h { s1 with exts := s1.exts.union o.defaultExtensions }
    ⟨n1, by simp [e1, St.init, Exts.union, Exts.empty], fun m hm => hk m (m1.symm.trans hm)⟩ r1 with ⟨r, s2, h2, -⟩ | ⟨v, s2, h2, h3, h4⟩
  · refine ⟨s2.span, ?_⟩
    unfold fromStr readDoc deNew deEnd
    simp only [bind_apply, modSt_apply, h1, h2]
    rfl
  · obtain ⟨r, s3, h5, -⟩ := broken_skip h4
    refine ⟨s3.span, ?_⟩
    unfold fromStr readDoc deNew deEnd
    simp only [bind_apply, modSt_apply, h1, h2, h5]
    rfl

theorem covered_listed (D : Nat → Ty) (x : Exts) : ∀ (f : Nat) (T : Ty), Listed D x f T → Covered D x true f T
  | 0, _, h => nomatch h
  | f + 1, _, h => by
    have ih := covered_listed D x f
    cases h with
    | bool => exact .bool
    | int h => exact .int h
    | f32 => exact .f32
    | f64 => exact .f64
    | char => exact .char
    | str => exact .str
    | bytes => exact .bytes
    | unit => exact .unit
    | unitStruct => exact .unitStruct
    | option h => exact .option (ih _ h)
    | seq h => exact .seq (ih _ h)
    | tuple h => exact .tuple fun T hT => ih _ (h T hT)
    | tupleStruct h => exact .tupleStruct fun T hT => ih _ (h T hT)
    | map h h' => exact .map (ih _ h) (ih _ h')
    | newtype _ h => exact .newtype (ih _ h)
    | enum h h' =>
      refine .enum (fun _ e he => ?_) fun e he T hT => ih _ (h' e he T hT)
      have := h e he
      cases hk : e.2 <;> simp_all [Variant.Denies, Variant.Unnamed]
    | ref h => exact .ref (ih _ h)

/-- What is odd about a text of these types is a broken comment, unless a line comment runs to its end. -/
theorem C66_odd (D : Nat → Ty) (x : Exts) : ∀ (f : Nat) (T : Ty) (n : Nat) (u : Text), Listed D x f T → 3 * f ≤ n → NoOpenLine u → OddTy D x f T n u →
    ∃ e, BrokenTy D x f T n u e := by
  have hS : ∀ p u, NoOpenLine (p ++ u) → NoOpenLine u := fun p u h q w e => h (p ++ q) w (by rw [e, List.append_assoc])
  have hS1 : ∀ c u, NoOpenLine (c :: u) → NoOpenLine u := fun c u h => hS [c] u h
  have hT : ∀ u, NoOpenLine u → Torn u → ∃ e, Broken u e := by
    intro u hu h
    obtain ⟨l, w, rfl, hl, h | ⟨e, h⟩⟩ := C66_torn u h
    · exact absurd h (hu l w rfl)
    · exact ⟨e, l, w, rfl, hl, h⟩
  have hF : ∀ u, Torn u → IdentFollow u := by
    rintro u ⟨l, w, rfl, hl, -⟩
    exact layout_follow hl fun c r e => (follow_cons (by decide) (by decide) (by decide) (by decide) (by decide) : IdentFollow ('/' :: w)) c r e
  have hI : ∀ f T n u c r, NoOpenLine u → ItemAt D x f T n u (c :: r) → Torn r → ∃ e, Broken r e := by
    intro f T n u c r hu h ht
    obtain ⟨-, p, rfl⟩ := itemAt_suffix h
    exact hT r (hS1 _ _ (hS _ _ hu)) ht
  intro f
  induction f with
  | zero => exact fun _ _ _ _ _ _ h => h.elim
  | succ f ih =>
    have hTup : ∀ Ts n u, (∀ T ∈ Ts, Listed D x f T) → 3 * f + 2 ≤ n → NoOpenLine u → OddTuple (TyLang D x f) (ItemAt D x f) (OddTy D x f) Ts n u →
        ∃ e, BrokenTuple (TyLang D x f) (ItemAt D x f) (BrokenTy D x f) Ts n u e := by
      intro Ts n u hC hn hu h
      cases h with
      | opening h =>
        obtain ⟨m, rfl⟩ : ∃ m, n = m + 1 := ⟨n - 1, by omega⟩
        obtain ⟨e, h⟩ := hT _ (hS1 _ _ hu) h
        exact ⟨e, .opening h⟩
      | item h1 h2 h3 h =>
        obtain ⟨e, h⟩ := ih _ _ _ (hC _ (by simp)) (by omega) (hS _ _ (hS1 _ _ hu)) h
        exact ⟨e, .item h1 h2 h3 (.inside h)⟩
      | comma h1 h2 h3 h ht =>
        obtain ⟨e, ht⟩ := hI _ _ _ _ _ _ (hS _ _ (hS1 _ _ hu)) h ht
        exact ⟨e, .item h1 h2 h3 (.comma h ht)⟩
    have hPar : ∀ T n u, Listed D x f T → 3 * f + 2 ≤ n → NoOpenLine u → OddParens (ItemAt D x f T) (OddTy D x f T) n u →
        ∃ e, BrokenParens (ItemAt D x f T) (BrokenTy D x f T) n u e := by
      intro T n u hC hn hu h
      cases h with
      | opening h =>
        obtain ⟨e, h⟩ := hT _ (hS1 _ _ hu) h
        exact ⟨e, .opening h⟩
      | item h1 h2 h =>
        obtain ⟨e, h⟩ := ih _ _ _ hC (by omega) (hS _ _ (hS1 _ _ hu)) h
        exact ⟨e, .item h1 h2 (.inside h)⟩
      | comma h1 h2 h ht =>
        obtain ⟨e, ht⟩ := hI _ _ _ _ _ _ (hS _ _ (hS1 _ _ hu)) h ht
        exact ⟨e, .item h1 h2 (.comma h ht)⟩
    intro T n u hC hn hu h
    replace h : OddLevel x (WholeAt D x (f + 1)) (TyLang D x f) (ItemAt D x f) (OddTy D x f) D T n u := h
    suffices ∃ e, BrokenLevel x (WholeAt D x (f + 1)) (TyLang D x f) (ItemAt D x f) (BrokenTy D x f) D T n u e from this
    cases h with
    | after h ht =>
      obtain ⟨p, rfl⟩ := wholeAt_suffix h
      obtain ⟨e, ht⟩ := hT _ (hS _ _ hu) ht
      exact ⟨e, .after h ht⟩
    | seq h =>
      cases hC with | seq hC =>
      cases h with
      | opening h =>
        obtain ⟨m, rfl⟩ : ∃ m, n = m + 1 := ⟨n - 1, by omega⟩
        obtain ⟨e, h⟩ := hT _ (hS1 _ _ hu) h
        exact ⟨e, .seqOpening h⟩
      | item h1 h2 h3 h =>
        obtain ⟨e, h⟩ := ih _ _ _ hC (by omega) (hS _ _ (hS1 _ _ hu)) h
        exact ⟨e, .seqItem h1 h2 h3 (.inside h)⟩
      | comma h1 h2 h3 h ht =>
        obtain ⟨e, ht⟩ := hI _ _ _ _ _ _ (hS _ _ (hS1 _ _ hu)) h ht
        exact ⟨e, .seqItem h1 h2 h3 (.comma h ht)⟩
    | tuple h =>
      cases hC with | tuple hC =>
      obtain ⟨e, h⟩ := hTup _ _ _ hC (by omega) hu h
      exact ⟨e, .tuple h⟩
    | tupleStruct h1 h =>
      cases hC with | tupleStruct hC =>
      obtain ⟨e, h⟩ := hTup _ _ _ hC (by omega) (hS _ _ hu) h
      exact ⟨e, .tupleStruct h1 h⟩
    | map h =>
      cases hC with | map hK hV =>
      cases h with
      | opening h =>
        obtain ⟨m, rfl⟩ : ∃ m, n = m + 1 := ⟨n - 1, by omega⟩
        obtain ⟨e, h⟩ := hT _ (hS1 _ _ hu) h
        exact ⟨e, .mapOpening h⟩
      | key h1 h2 h3 h =>
        obtain ⟨e, h⟩ := ih _ _ _ hK (by omega) (hS _ _ (hS1 _ _ hu)) h
        exact ⟨e, .mapKey h1 h2 h3 h⟩
      | colon h1 h2 h3 h ht =>
        obtain ⟨e, ht⟩ := hI _ _ _ _ _ _ (hS _ _ (hS1 _ _ hu)) h ht
        exact ⟨e, .mapColon h1 h2 h3 h ht⟩
      | value h1 h2 h3 h4 h5 h6 h =>
        obtain ⟨e, h⟩ := ih _ _ _ hV (by omega) (hS _ _ (hS1 _ _ (hS _ _ (hS _ _ (hS _ _ (hS1 _ _ hu)))))) h
        exact ⟨e, .mapValue h1 h2 h3 h4 h5 h6 (.inside h)⟩
      | comma h1 h2 h3 h4 h5 h6 h ht =>
        obtain ⟨e, ht⟩ := hI _ _ _ _ _ _ (hS _ _ (hS1 _ _ (hS _ _ (hS _ _ (hS _ _ (hS1 _ _ hu)))))) h ht
        exact ⟨e, .mapValue h1 h2 h3 h4 h5 h6 (.comma h ht)⟩
    | someWord h1 h =>
      obtain ⟨e, h⟩ := hT _ (hS _ _ hu) h
      exact ⟨e, .someWord h1 h⟩
    | some h1 h =>
      cases hC with | option hC =>
      obtain ⟨e, h⟩ := hPar _ _ _ hC (by omega) (hS _ _ (hS _ _ hu)) h
      exact ⟨e, .some h1 h⟩
    | implicit h1 h2 h3 h =>
      cases hC with | option hC =>
      obtain ⟨e, h⟩ := ih _ _ _ hC (by omega) (hS _ _ hu) h
      exact ⟨e, .implicit h1 h2 h3 h⟩
    | ref h =>
      cases hC with | ref hC =>
      obtain ⟨e, h⟩ := ih _ _ _ hC (by omega) hu h
      exact ⟨e, .ref h⟩
    | byteList h =>
      cases hC with | bytes =>
      cases h with
      | opening h =>
        obtain ⟨m, rfl⟩ : ∃ m, n = m + 1 := ⟨n - 1, by omega⟩
        obtain ⟨e, h⟩ := hT _ (hS1 _ _ hu) h
        exact ⟨e, .byteOpening h⟩
      | item h1 h2 h3 h =>
        obtain ⟨e, h⟩ := ih _ _ _ (.int (by rintro (h | h) <;> cases h)) (by omega) (hS _ _ (hS1 _ _ hu)) h
        exact ⟨e, .byteItem h1 h2 h3 (.inside h)⟩
      | comma h1 h2 h3 h ht =>
        obtain ⟨e, ht⟩ := hI _ _ _ _ _ _ (hS _ _ (hS1 _ _ hu)) h ht
        exact ⟨e, .byteItem h1 h2 h3 (.comma h ht)⟩
    | newtypeName h1 h =>
      cases hC with | newtype hun hC =>
      obtain ⟨e, h'⟩ := hT _ (hS _ _ hu) h
      exact ⟨e, .newtypeName hun h1 (.of_follow h1 (hF _ h)) h'⟩
    | newtype h1 h =>
      cases hC with | newtype hun hC =>
      obtain ⟨e, h⟩ := hPar _ _ _ hC (by omega) (hS _ _ hu) h
      exact ⟨e, .newtype hun h1 h⟩
    | unwrapped h1 h =>
      cases hC with | newtype hun hC =>
      rw [hun] at h1; cases h1
    | structName => cases hC
    | struct => cases hC
    | @variant _ name vid tok z variants h1 h2 h =>
      cases hC with | enum hN hC =>
      obtain ⟨m, rfl⟩ : ∃ m, n = m + 2 := ⟨n - 2, by omega⟩
      obtain ⟨e, h'⟩ := hT _ (hS _ _ hu) h
      have hz := NameEnds.of_follow h1 (hF _ h)
      obtain ⟨F, hF1, hF2⟩ := List.mem_map.mp h2
      obtain ⟨⟨i, k⟩, hf⟩ : ∃ F, variants.find? (fun e => e.1 = vid) = some F :=
        Option.isSome_iff_exists.mp (List.find?_isSome.mpr ⟨F, hF1, by simpa using hF2⟩)
      have hi := List.find?_some hf
      simp only [decide_eq_true_eq] at hi
      subst hi
      cases k with
      | unit => exact ⟨e, .after (.variant h1 hf hz) h'⟩
      | newtype T => exact ⟨e, .variant h1 hf trivial hz h'⟩
      | tuple Ts => exact ⟨e, .variant h1 hf trivial hz h'⟩
      | struct d fs => exact (hN _ (List.mem_of_find?_eq_some hf)).elim
    | data h1 hf hl h =>
      cases hC with | enum hN hC =>
      have hm := List.mem_of_find?_eq_some hf
      have hC := hC _ hm
      have hN := hN _ hm
      have hu' := hS _ _ (hS _ _ hu)
      cases h with
      | newtype h =>
        obtain ⟨e, h⟩ := hPar _ _ _ (hC _ (by simp [Variant.types])) (by omega) hu' h
        refine ⟨e, .data h1 hf (.of_follow h1 (layout_follow hl ?_)) hl (.newtype h)⟩
        cases h <;> exact parenOpen_follow _
      | tuple h =>
        obtain ⟨e, h⟩ := hTup _ _ _ (fun T hT => hC T hT) (by omega) hu' h
        refine ⟨e, .data h1 hf (.of_follow h1 (layout_follow hl ?_)) hl (.tuple h)⟩
        cases h <;> exact parenOpen_follow _
      | struct h => exact hN.elim

/-- So for these types nothing is left out but documents that end in a line comment: a document is read, as what it denotes, or refused with the error of its
defect, or because it goes on, or with the error of its broken comment. -/
theorem C66_total (o : Options) (D : Nat → Ty) (f : Nat) (T : Ty) (ex : Exts) (l hdr u : Text)
    (hx : (ex.union o.defaultExtensions).unwrapVariantNewtypes = false) (hT : Listed D (ex.union o.defaultExtensions) f T)
    (hk : ∀ m, o.recursionLimit = some m → 3 * f ≤ m) (hl : Layout l) (ha : Attrs hdr ex) (hn : NoLayoutStart u) (hh : u.head? ≠ some '#') (hu : NoOpenLine u) :
    (∃ t l' v, u = t ++ l' ∧ TyLang D (ex.union o.defaultExtensions) f T (3 * f) t v ∧ Layout l' ∧ fromStr o (deTy D f T) (l ++ (hdr ++ u)) = .ok v) ∨
    (∃ e r p sp, BadTy D (ex.union o.defaultExtensions) f T (3 * f) u e r ∧ l ++ (hdr ++ u) = p ++ r ∧
      fromStr o (deTy D f T) (l ++ (hdr ++ u)) = .error (e, sp) ∧ sp.stop = Position.after p) ∨
    (∃ q p sp, ItemAt D (ex.union o.defaultExtensions) f T (3 * f) u q ∧ q ≠ [] ∧ l ++ (hdr ++ u) = p ++ q ∧
      fromStr o (deTy D f T) (l ++ (hdr ++ u)) = .error (.trailingCharacters, sp) ∧ sp.stop = Position.after p) ∨
    (∃ e sp, BrokenTy D (ex.union o.defaultExtensions) f T (3 * f) u e ∧ fromStr o (deTy D f T) (l ++ (hdr ++ u)) = .error (e, sp)) := by
  by_cases ht : OddTy D (ex.union o.defaultExtensions) f T (3 * f) u
  · obtain ⟨e, h⟩ := C66_odd D _ f T _ u hT (Nat.le_refl _) hu ht
    obtain ⟨sp, g⟩ := C66_broken o D f T ex l hdr u _ e hx hk hl ha hn hh h
    exact .inr (.inr (.inr ⟨e, sp, h, g⟩))
  · rcases C66 o D f T ex l hdr u hx (covered_listed D _ f T hT) hk hl ha hn hh ht with h | h | h
    · exact .inl h
    · exact .inr (.inl h)
    · exact .inr (.inr (.inl h))

/-- So such a document is read exactly if it is a text of the type and layout. -/
theorem C66_total_reads (o : Options) (D : Nat → Ty) (f : Nat) (T : Ty) (ex : Exts) (l hdr u : Text) (v : SVal)
    (hx : (ex.union o.defaultExtensions).unwrapVariantNewtypes = false) (hT : Listed D (ex.union o.defaultExtensions) f T)
    (hk : ∀ m, o.recursionLimit = some m → 3 * f ≤ m) (hl : Layout l) (ha : Attrs hdr ex) (hn : NoLayoutStart u) (hh : u.head? ≠ some '#') (hu : NoOpenLine u) :
    fromStr o (deTy D f T) (l ++ (hdr ++ u)) = .ok v ↔ ∃ t l', u = t ++ l' ∧ TyLang D (ex.union o.defaultExtensions) f T (3 * f) t v ∧ Layout l' := by
  constructor
  · intro h
    rcases C66_total o D f T ex l hdr u hx hT hk hl ha hn hh hu with ⟨t, l', v', h1, h2, h3, g⟩ | ⟨e, r, p, sp, -, -, g, -⟩ | ⟨q, p, sp, -, -, -, g, -⟩ | ⟨e, sp, -, g⟩
    · rw [h] at g
      cases g
      exact ⟨t, l', h1, h2, h3⟩
    all_goals rw [h] at g; cases g
  · rintro ⟨t, l', rfl, h2, h3⟩
    exact C62_reads o D f T ex l hdr t l' (3 * f) v hx hl ha h2 hk h3

/-- For types without newtype variants, options and self-describing data the same holds where `unwrap_variant_newtypes` is enabled by the options. -/
theorem C66_unwrap_variant_newtypes {s : Bool} (o : Options) (D : Nat → Ty) (hD : ∀ i, (D i).NoVariant) (f : Nat) (T : Ty) (hV : T.NoVariant) (ex : Exts) (l hdr u : Text)
    (hx : ex.unwrapVariantNewtypes = false) (hT : Covered D (ex.union { o.defaultExtensions with unwrapVariantNewtypes := false }) s f T)
    (hk : ∀ m, o.recursionLimit = some m → 3 * f ≤ m) (hl : Layout l) (ha : Attrs hdr ex) (hn : NoLayoutStart u) (hh : u.head? ≠ some '#')
    (ht : ¬ OddTy D (ex.union { o.defaultExtensions with unwrapVariantNewtypes := false }) f T (3 * f) u) :
    (∃ t l' v, u = t ++ l' ∧ TyLang D (ex.union { o.defaultExtensions with unwrapVariantNewtypes := false }) f T (3 * f) t v ∧ Layout l' ∧
      fromStr o (deTy D f T) (l ++ (hdr ++ u)) = .ok v) ∨
    (∃ e r p sp, BadTy D (ex.union { o.defaultExtensions with unwrapVariantNewtypes := false }) f T (3 * f) u e r ∧ l ++ (hdr ++ u) = p ++ r ∧
      fromStr o (deTy D f T) (l ++ (hdr ++ u)) = .error (e, sp) ∧ sp.stop = Position.after p) ∨
    (∃ q p sp, ItemAt D (ex.union { o.defaultExtensions with unwrapVariantNewtypes := false }) f T (3 * f) u q ∧ q ≠ [] ∧ l ++ (hdr ++ u) = p ++ q ∧
      fromStr o (deTy D f T) (l ++ (hdr ++ u)) = .error (.trailingCharacters, sp) ∧ sp.stop = Position.after p) := by
  rw [← C58_unwrap_variant_newtypes o D hD f T hV false]
  exact C66 { o with defaultExtensions := { o.defaultExtensions with unwrapVariantNewtypes := false } } D f T ex l hdr u
    (by simp [Exts.union, hx]) hT hk hl ha hn hh ht

end

/-! ### Cases -/

/-- A type of the theorem. -/
def tyC66 : Ty := .struct c!"Config" true [(c!"size", .map .str (.seq (.tuple [.int .u8, .bool]))),
  (c!"mode", .option (.enum c!"Mode" [(c!"Fast", .unit), (c!"Custom", .struct true [(c!"level", .int .u8)])]))]

theorem covered_tyC66 [Env] (D : Nat → Ty) : Covered D {} true 6 tyC66 := by
  have hi : ∀ f, Covered D {} true (f + 1) (.int .u8) := fun f => .int (by rintro (h | h) <;> cases h)
  refine .struct (fun _ => rfl) fun F h => ?_
  simp only [List.mem_cons, List.not_mem_nil, or_false] at h
  rcases h with rfl | rfl
  · refine .map .str (.seq (.tuple fun T h => ?_))
    simp only [List.mem_cons, List.not_mem_nil, or_false] at h
    rcases h with rfl | rfl
    · exact hi _
    · exact .bool
  · refine .option (.enum (fun _ e h => ?_) fun e h T hT => ?_) <;> simp only [List.mem_cons, List.not_mem_nil, or_false] at h
    · rcases h with rfl | rfl <;> trivial
    · rcases h with rfl | rfl
      · cases hT
      · simp only [Variant.types, List.map_cons, List.map_nil, List.mem_cons, List.not_mem_nil, or_false] at hT
        subst hT
        exact hi _

/-- Documents of that type without slashes: the hypotheses of `C66` are met, and each of its cases occurs. -/
example : let _ : Env := asciiEnv true true
    (fromStr {} (deTy (fun _ => .unit) 6 tyC66) c!"Config(size: {\"a\": [(1, true)]}, mode: Some(Custom(level: 3)))").toOption.isSome = true ∧
    fromStr {} (deTy (fun _ => .unit) 6 tyC66) c!"(size: {}, mode: Some(Custom(level 3)))" = .error (.expectedMapColon, ⟨⟨1, 35⟩, ⟨1, 36⟩⟩) ∧
    fromStr {} (deTy (fun _ => .unit) 6 tyC66) c!"(size: {}, mode: Some(Slow))" = .error (.noSuchEnumVariant [c!"Fast", c!"Custom"] c!"Slow" (some c!"Mode"), ⟨⟨1, 23⟩, ⟨1, 27⟩⟩) ∧
    fromStr {} (deTy (fun _ => .unit) 6 tyC66) c!"b\"Config\"" = .error (.expectedNamedStructLike c!"Config", ⟨⟨1, 1⟩, ⟨1, 1⟩⟩) ∧
    fromStr {} (deTy (fun _ => .unit) 6 tyC66) c!"(size: {}) {}" = .error (.trailingCharacters, ⟨⟨1, 11⟩, ⟨1, 12⟩⟩) := by
  decide +kernel

/-- A slash that begins no comment, after an item. -/
example : let _ : Env := asciiEnv true true
    OddTy (fun _ => .unit) {} 2 (.seq .unit) 4 c!"[() /]" := by
  intro _
  refine .seq (.item (n := 2) (ts := []) (vs := []) (p := []) (.nil .nil) trivial ⟨fun c r h => by cases h; exact ⟨by decide, by decide⟩, by decide⟩
    (.after (.closed (t := c!"()") (v := .unit) .unit ⟨rfl, rfl⟩ (by decide) (by decide) (by decide)) ⟨c!" ", c!"]", rfl, .ws (by decide) .nil, fun l r e hl => ?_⟩))
  cases hl with
  | nil => rfl
  | ws hc => injection e with e _; subst e; exact absurd hc (by decide)
  | line => injection e with _ e; injection e with e _; exact absurd e (by decide)
  | block => injection e with _ e; injection e with e _; exact absurd e (by decide)

/-- Incomplete comments after the value. -/
example : let _ : Env := asciiEnv true true
    WholeAt (fun _ => .unit) {} 2 (.int .u8) 4 c!"1 // x" c!" // x" ∧ OpenLine c!"// x" ∧ BrokenComment c!"/* x" .unclosedBlockComment ∧
    fromStr {} (deTy (fun _ => .unit) 2 (.int .u8)) c!"1 // x" = .ok (.num (.int .u8 1)) ∧
    fromStr {} (deTy (fun _ => .unit) 2 (.int .u8)) c!"1 /* x" = .error (.unclosedBlockComment, ⟨⟨1, 5⟩, ⟨1, 7⟩⟩) ∧
    fromStr {} (deTy (fun _ => .unit) 2 (.int .u8)) c!"1 /x" = .error (.unexpectedChar 'x', ⟨⟨1, 3⟩, ⟨1, 5⟩⟩) := by
  intro _
  refine ⟨.int (i := 1) (by rintro (h | h) <;> cases h) (fun r h => by cases h) ?_, ⟨c!" x", rfl, by decide⟩, .inl ⟨c!" x", rfl, ?_, rfl⟩, by decide +kernel, by decide +kernel,
    by decide +kernel⟩
  · exact (C60_reads (St.init c!"1 // x") .u8 1 c!" // x" (fun r h => by cases h)).mp
      ⟨{ St.init c!"1 // x" with rest := c!" // x", prev := c!"1 // x" }, by decide +kernel, rfl⟩
  · intro b r h hb
    have key : ∀ (k : Nat) (b : Text), BlockTail k b → 0 < k → '*' ∈ b := by
      intro k b hb
      induction hb with
      | done => intro h; cases h
      | opens => intro _; simp
      | closes => intro _; simp
      | other _ _ _ ih => intro _; exact List.mem_cons_of_mem _ (ih (by omega))
    have : '*' ∈ c!" x" := by rw [h]; exact List.mem_append_left _ (key _ _ hb (by decide))
    exact absurd this (by decide)

/-- Broken comments inside a value: between two items, after the name of a field, and after that of a variant. -/
example : let _ : Env := asciiEnv true true
    BrokenTy (fun _ => .unit) {} 2 (.seq .unit) 4 c!"[(), /x]" (.unexpectedChar 'x') ∧
    BrokenTy (fun _ => .unit) {} 3 (.struct c!"S" true [(c!"a", .seq .unit)]) 6 c!"(a: [(), /x])" (.unexpectedChar 'x') ∧
    BrokenTy (fun _ => .unit) {} 2 (.struct c!"S" true [(c!"a", .unit)]) 4 c!"(a /x: ())" (.unexpectedChar 'x') ∧
    BrokenTy (fun _ => .unit) {} 2 (.enum c!"E" [(c!"A", .newtype .unit)]) 4 c!"A /x(())" (.unexpectedChar 'x') ∧
    fromStr {} (deTy (fun _ => .unit) 2 (.seq .unit)) c!"[(), /x]" = .error (.unexpectedChar 'x', ⟨⟨1, 6⟩, ⟨1, 8⟩⟩) ∧
    fromStr {} (deTy (fun _ => .unit) 3 (.struct c!"S" true [(c!"a", .seq .unit)])) c!"(a: [(), /x])" = .error (.unexpectedChar 'x', ⟨⟨1, 10⟩, ⟨1, 12⟩⟩) ∧
    fromStr {} (deTy (fun _ => .unit) 2 (.struct c!"S" true [(c!"a", .unit)])) c!"(a /x: ())" = .error (.unexpectedChar 'x', ⟨⟨1, 4⟩, ⟨1, 6⟩⟩) ∧
    fromStr {} (deTy (fun _ => .unit) 2 (.enum c!"E" [(c!"A", .newtype .unit)])) c!"A /x(())" = .error (.unexpectedChar 'x', ⟨⟨1, 3⟩, ⟨1, 5⟩⟩) := by
  intro _
  have hb : ∀ t, Broken (c!" /x" ++ t) (.unexpectedChar 'x') := fun t =>
    ⟨c!" ", c!"/x" ++ t, rfl, .ws (by decide) .nil, .inr (.inr ⟨'x', t, rfl, by decide, by decide, rfl⟩)⟩
  have h1 : ∀ t, BrokenTy (fun _ => .unit) {} 2 (.seq .unit) 4 (c!"[(), /x]" ++ t) (.unexpectedChar 'x') := fun t =>
    .seqItem (n := 2) (ts := []) (vs := []) (p := []) (u := c!"(), /x]" ++ t) (.nil .nil) trivial ⟨fun c r h => by cases h; exact ⟨by decide, by decide⟩, by simp⟩
      (.comma (r := c!" /x]" ++ t) (.delim (l := []) (t := c!"()") (v := .unit) ⟨rfl, rfl⟩ .nil (.inr ⟨_, _, rfl, by decide⟩)) (hb _))
  refine ⟨h1 [], ?_, ?_, ?_, by decide +kernel, by decide +kernel, by decide +kernel, by decide +kernel⟩
  · exact .struct (p := []) (.inl ⟨rfl, rfl⟩) (.value (n := 4) (es := []) (gs := []) (p := []) (kt := c!"a") (m := []) (m' := c!" ") (T := .seq .unit) (.nil .nil) trivial .nil
      keyTok_a (by simp) rfl .nil (.ws (by decide) .nil) (fun c r h => by cases h; exact ⟨by decide, by decide⟩) (.inside (h1 c!")")))
  · exact .struct (p := []) (.inl ⟨rfl, rfl⟩) (.key (n := 2) (es := []) (gs := []) (p := []) (kt := c!"a") (z := c!" /x: ())") (.nil .nil) trivial .nil
      keyTok_a (by simp) (by simp) (nameEnds_cons (by decide) (by decide) (by decide)) (hb _))
  · exact .variant (n := 2) (tok := c!"A") (z := c!" /x(())") (k := .newtype .unit) ⟨⟨by decide, by decide⟩, .inr ⟨rfl, 'A', [], rfl, by decide, by simp⟩⟩ rfl trivial (nameEnds_cons (by decide) (by decide) (by decide)) (hb _)

/-- A way to see `NoOpenLine`. -/
def closedLines : Text → Bool
  | [] => true
  | c :: u => (!(c!"//").isPrefixOf (c :: u) || u.contains '\n') && closedLines u

theorem noOpenLine : ∀ u : Text, closedLines u = true → NoOpenLine u
  | [], _, p, w, e, ⟨b, hb, _⟩ => by subst hb; simp at e
  | c :: u, h, p, w, e, hw => by
    simp only [closedLines, Bool.and_eq_true] at h
    cases p with
    | nil =>
      obtain ⟨b, rfl, hb⟩ := hw
      simp only [List.nil_append, List.cons.injEq] at e
      obtain ⟨rfl, rfl⟩ := e
      have := h.1
      simp [List.isPrefixOf, hb] at this
    | cons d p =>
      simp only [List.cons_append, List.cons.injEq] at e
      exact noOpenLine u h.2 p w e.2 hw

/-- A type and documents of `C66_total`: one that is read, one with a defect, one that goes on, one with a broken comment. -/
example : let _ : Env := asciiEnv true true
    Listed (fun _ => .unit) {} 3 (.seq (.option .bool)) ∧ NoOpenLine c!"[Some(true), /x None]" ∧ NoOpenLine c!"[None /* // */] // y\n" ∧
    fromStr {} (deTy (fun _ => .unit) 3 (.seq (.option .bool))) c!"[None /* // */] // y\n" = .ok (.seq (some 1) [.none]) ∧
    fromStr {} (deTy (fun _ => .unit) 3 (.seq (.option .bool))) c!"[None /* // */ None]" = .error (.expectedComma, ⟨⟨1, 16⟩, ⟨1, 16⟩⟩) ∧
    fromStr {} (deTy (fun _ => .unit) 3 (.seq (.option .bool))) c!"[None] None" = .error (.trailingCharacters, ⟨⟨1, 7⟩, ⟨1, 8⟩⟩) ∧
    fromStr {} (deTy (fun _ => .unit) 3 (.seq (.option .bool))) c!"[Some(true), /x None]" = .error (.unexpectedChar 'x', ⟨⟨1, 14⟩, ⟨1, 16⟩⟩) := by
  intro _
  refine ⟨.seq (.option .bool), noOpenLine _ (by decide), noOpenLine _ (by decide), ?_⟩
  decide +kernel

/-- A struct that ignores unknown fields. -/
def lenientC66 : Ty := .struct c!"P" false [(c!"a", .bool)]

theorem covered_lenientC66 [Env] (D : Nat → Ty) (x : Exts) : Covered D x false 2 lenientC66 := by
  refine .struct (fun h => by cases h) fun F h => ?_
  simp only [List.mem_cons, List.not_mem_nil, or_false] at h
  subst h
  exact .bool

example : let _ : Env := asciiEnv true true
    (fromStr {} (deTy (fun _ => .unit) 2 lenientC66) c!"(b: [1, 'x'], a: true)").toOption.isSome = true ∧
    fromStr {} (deTy (fun _ => .unit) 2 lenientC66) c!"(a: true, b true)" = .error (.expectedMapColon, ⟨⟨1, 12⟩, ⟨1, 13⟩⟩) := by
  decide +kernel

/-- Bytes, as a byte string and as a list. -/
example : let _ : Env := asciiEnv true true
    fromStr {} (deTy (fun _ => .unit) 2 .bytes) c!"b\"a\\x00\"" = .ok (.bytes [97, 0]) ∧
    fromStr {} (deTy (fun _ => .unit) 2 .bytes) c!"[97, b'\\0',]" = .ok (.bytes [97, 0]) ∧
    fromStr {} (deTy (fun _ => .unit) 2 .bytes) c!"[97, 256]" = .error (.integerOutOfBounds, ⟨⟨1, 6⟩, ⟨1, 9⟩⟩) := by
  decide +kernel

/-- Options of which `Some` may be left out. -/
theorem covered_optionsC66 [Env] (D : Nat → Ty) (x : Exts) : Covered D x true 5 (.seq (.option (.seq (.option (.int .u8))))) :=
  .seq (.option (.seq (.option (.int (by rintro (h | h) <;> cases h)))))

example : let _ : Env := asciiEnv true true
    let o : Options := { defaultExtensions := { implicitSome := true } }
    let T : Ty := .seq (.option (.seq (.option (.int .u8))))
    (fromStr o (deTy (fun _ => .unit) 5 T) c!"[[1, None, Some(2), Some 3], Some [4], None]").toOption.isSome = true ∧
    fromStr o (deTy (fun _ => .unit) 5 T) c!"[[1], Some [x]]" = .error (.expectedInteger, ⟨⟨1, 13⟩, ⟨1, 13⟩⟩) ∧
    fromStr o (deTy (fun _ => .unit) 5 T) c!"[Nothing]" = .error (.expectedArray, ⟨⟨1, 2⟩, ⟨1, 2⟩⟩) ∧
    fromStr o (deTy (fun _ => .unit) 5 T) c!"[[1] 2]" = .error (.expectedComma, ⟨⟨1, 6⟩, ⟨1, 6⟩⟩) := by
  decide +kernel

/-- The hypotheses of `C66_unwrap_variant_newtypes` are met by a struct with an enum, and the extension is enabled. -/
example : let _ : Env := asciiEnv true true
    let o : Options := { defaultExtensions := { unwrapVariantNewtypes := true } }
    let T : Ty := .struct c!"P" true [(c!"a", .seq .bool), (c!"b", .enum c!"E" [(c!"A", .unit), (c!"B", .tuple [.str, .char])])]
    T.NoVariant ∧ Covered (fun _ => .unit) {} true 4 T ∧
    (fromStr o (deTy (fun _ => .unit) 4 T) c!"P(a: [true], b: B(\"x\", 'y'))").toOption.isSome = true ∧
    fromStr o (deTy (fun _ => .unit) 4 T) c!"P(a: [maybe], b: A)" = .error (.expectedBoolean, ⟨⟨1, 7⟩, ⟨1, 7⟩⟩) := by
  intro _ o T
  refine ⟨?_, .struct (fun _ => rfl) fun F h => ?_, by decide +kernel, by decide +kernel⟩
  · simp [T, Ty.NoVariant, NoVariantFields, NoVariantVariants, Variant.NoVariant, NoVariants]
  · simp only [List.mem_cons, List.not_mem_nil, or_false] at h
    rcases h with rfl | rfl
    · exact .seq .bool
    · refine .enum (fun _ e h => ?_) fun e h T hT => ?_ <;> simp only [List.mem_cons, List.not_mem_nil, or_false] at h
      · rcases h with rfl | rfl <;> trivial
      · rcases h with rfl | rfl
        · cases hT
        · simp only [Variant.types, List.mem_cons, List.not_mem_nil, or_false] at hT
          rcases hT with rfl | rfl
          · exact .str
          · exact .char

/-- The full range. -/
example : let _ : Env := asciiEnv true true
    fromStr {} (deTy (fun _ => .unit) 2 (.seq (.unitStruct c!"RangeFull"))) c!"[.., RangeFull, ()]" =
      .ok (.seq (some 3) [.unitStruct c!"RangeFull", .unitStruct c!"RangeFull", .unitStruct c!"RangeFull"]) ∧
    fromStr {} (deTy (fun _ => .unit) 2 (.seq (.unitStruct c!"RangeFull"))) c!"[..=]" = .error (.expectedComma, ⟨⟨1, 4⟩, ⟨1, 4⟩⟩) := by
  decide +kernel

/-- Ranges. -/
theorem covered_rangesC66 [Env] (D : Nat → Ty) (x : Exts) : Covered D x false 3 (.seq (.struct c!"Range" false [(c!"start", .int .u8), (c!"end", .int .u8)])) := by
  refine .seq (.struct (fun h => by cases h) fun F h => ?_)
  simp only [List.mem_cons, List.not_mem_nil, or_false] at h
  rcases h with rfl | rfl <;> exact .int (by rintro (h | h) <;> cases h)

example : let _ : Env := asciiEnv true true
    let T : Ty := .seq (.struct c!"Range" false [(c!"start", .int .u8), (c!"end", .int .u8)])
    (fromStr {} (deTy (fun _ => .unit) 3 T) c!"[1..2, (start: 3, end: 4), Range(start: 5, end: 6)]").toOption.isSome = true ∧
    fromStr {} (deTy (fun _ => .unit) 3 T) c!"[1..2, 3..=4]" = .error (.message c!"expected `..` for `Range`, found `..=`", ⟨⟨1, 9⟩, ⟨1, 12⟩⟩) ∧
    fromStr {} (deTy (fun _ => .unit) 3 T) c!"[1..2, 3, 4]" = .error (.expectedRangeSyntax, ⟨⟨1, 8⟩, ⟨1, 9⟩⟩) ∧
    fromStr {} (deTy (fun _ => .unit) 3 T) c!"[1..300]" = .error (.invalidValueForType [] [], ⟨⟨1, 5⟩, ⟨1, 8⟩⟩) ∧
    fromStr {} (deTy (fun _ => .unit) 3 T) c!"[1..2 3..4]" = .error (.expectedComma, ⟨⟨1, 7⟩, ⟨1, 7⟩⟩) := by
  decide +kernel

/-- An ignored field that is no value. -/
example : let _ : Env := asciiEnv true true
    OddTy (fun _ => .unit) {} 2 lenientC66 6 c!"(b: ])" := by
  intro _
  refine .struct (p := []) (.inl ⟨rfl, rfl⟩) (.ignored (n := 4) (es := []) (gs := []) (p := []) (key := c!"b") (kt := c!"b") (m := []) (m' := c!" ") (u := c!"])")
    (.nil .nil) trivial (by simp) ⟨⟨by decide, by decide⟩, .inr ⟨rfl, 'b', [], rfl, by decide, by simp⟩⟩ (by decide) rfl .nil (.ws (by decide) .nil) (fun c r h => by cases h; exact ⟨by decide, by decide⟩) fun t V l c q e ht hl => ?_)
  exfalso
  obtain ⟨c', t', rfl⟩ := List.exists_cons_of_ne_nil (langX_reads_value (x := {}) rfl ht).1.ne
  injection e with e1 e2
  subst e1
  have ht' : t' = [] := by
    cases t' with
    | nil => rfl
    | cons a t' => injection e2 with _ e2; simp at e2
  subst ht'
  have := (C48 { recursionLimit := none } rfl [] c!"]\n" V .nil (fun c r h => by cases h; exact ⟨by decide, by decide⟩) (fun u h => by cases h) ⟨c!"]", rfl⟩).mpr
    ⟨4, c!"]", c!"\n", rfl, ht, by simp, .ws (by decide) .nil⟩
  have e : (fromStr { recursionLimit := none } deValue ([] ++ c!"]\n")).toOption = none := by decide +kernel
  rw [this] at e
  cases e

end Ron
