import Verif.Lemmas.Repeated
import Verif.Lemmas.Buffer
import Verif.Lemmas.Named
import Verif.Lemmas.Witness
import Verif.Lemmas.Deq
import Verif.Props.C52
/-! C51: untagged enums, and everything else that serde buffers as `Content`.  Data written by `to_string` is buffered as the content it
stands for, is read from there as it was, and an untagged enum gives the first variant that takes the content.  Partial: the extension
`unwrap_variant_newtypes` is excluded, and so are the data that the negations below show to be lost (newtype structs without
`unwrap_newtypes`, structs with `explicit_struct_names`, units in options with `implicit_some`, tuple variants with one field, empty tuples
and structs, 128-bit integers). -/

set_option linter.unusedSectionVars false

namespace Ron

/-- The type whose data a variant of an untagged enum holds. -/
def untaggedTy (name : Text) : Variant → Ty
  | .unit => .unit
  | .newtype t => t
  | .tuple ts => .tuple ts
  | .struct deny fields => .struct name deny fields

/-- `n` newtype variants around a number. -/
def deepText : Nat → Text
  | 0 => c!"1"
  | n + 1 => c!"A(" ++ (deepText n ++ c!")")

/-- `n` newtype variants around a number. -/
def deepContent : Nat → Content
  | 0 => .num (.int .u8 1)
  | n + 1 => .map [(.str c!"A", deepContent n)]

section
variable [Env]

/-- A text of RON, with white space anywhere, is buffered as the content that it stands for: names of variants are kept, other names are
not. -/
theorem C51_buffered (o : Options) (c : Content) (w hdr l l' : Text) (e : Exts) (hw : CText c w) (hl : Layout l) (hl' : Layout l')
    (hh : Attrs hdr e) (hx : (e.union o.defaultExtensions).unwrapVariantNewtypes = false)
    (hk : ∀ m, o.recursionLimit = some m → c.levels ≤ m) : fromStr o deContent (l ++ (hdr ++ (w ++ l'))) = .ok c :=
  doc_reads (deContent_reads hx hw) hl hh rfl hk hl'

theorem attrs_none : Attrs [] {} := .nil

theorem deUntagged_reads {x : Exts} {k : Nat} {c : Content} {w : Text} {D : Nat → Ty} {f : Nat} {name : Text} {ks : List Variant} {r : Nat × SVal}
    (h : Reads x k deContent w c) (hr : untaggedFrom D f name c 0 ks = .ok r) : Reads x k (deUntagged D f name ks) w r := by
  refine ⟨h.1, fun d l q hp hd hl hq => ?_⟩
  obtain ⟨s', l', h1, h2⟩ := h.2 d l q hp hd hl hq
  refine ⟨s', l', ?_, h2⟩
  unfold deUntagged
  rw [bind_apply, h1]
  simp only [hr]
  rfl

/-- Data that `to_string` wrote, inside arbitrary layout, is buffered as its content, and from there it is read as what it was. -/
theorem C51_roundtrip_partial (o : Options) (D : Nat → Ty) (n f : Nat) (T : Ty) (v : SVal) (t l l' : Text) (hf : n ≤ f) (hT : HasTy D n T v)
    (hu : o.defaultExtensions.unwrapVariantNewtypes = false) (hv : v.Buffers o.defaultExtensions)
    (hk : ∀ m, o.recursionLimit = some m → (v.content o.defaultExtensions).levels ≤ m) (ht : toText o none v = .ok t) (hl : Layout l) (hl' : Layout l') :
    fromStr o deContent (l ++ (t ++ l')) = .ok (v.content o.defaultExtensions) ∧ (v.content o.defaultExtensions).into false D f T = .ok v := by
  refine ⟨?_, into_content false D n f T v hf hT hv⟩
  have hc := compact_ctext D hu n T v hT hv (toText_named ht)
  rw [C52_text o v t ht]
  have hx : ({} : Exts).union o.defaultExtensions = o.defaultExtensions := by simp [Exts.union]
  exact C51_buffered o _ _ [] l l' {} hc hl hl' .nil (by rw [hx]; exact hu) hk

theorem untaggedAs_ok {D : Nat → Ty} {x : Exts} {n f : Nat} {name : Text} {k : Variant} {v : SVal} (hf : n ≤ f) (h : HasTy D n (untaggedTy name k) v)
    (hv : v.Buffers x) : untaggedAs D f name k (v.content x) = .ok v := by
  cases n with
  | zero => simp [HasTy] at h
  | succ n =>
    obtain ⟨f, rfl⟩ : ∃ m, f = m + 1 := ⟨f - 1, by omega⟩
    have h0 := into_content false D (n + 1) (f + 1) _ v hf h hv
    have hmono : ∀ T u, HasTy D n T u → u.Buffers x → Content.into false D (f + 1) T (u.content x) = .ok u :=
      fun T u h hb => into_content false D n (f + 1) T u (by omega) h hb
    cases k with
    | unit => cases h; rfl
    | newtype t => exact h0
    | tuple ts =>
      obtain ⟨vs, rfl, h1⟩ := h
      simp only [SVal.Buffers] at hv
      simp only [SVal.content, untaggedAs, contentTuple_ok h1 fun t v hm h => hmono t v h (buffersAll_mem hv.2 v hm)]
      rfl
    | struct deny fields =>
      obtain ⟨fs, rfl, hn, h1⟩ := h
      simp only [SVal.Buffers] at hv
      have := contentStructOf_ok (isOption := fieldOf D (f + 1)) (rec := Content.into false D (f + 1)) (deny := deny) hn h1 fun t v hm h => by
        obtain ⟨d, hd, rfl⟩ := List.mem_map.mp hm
        exact hmono t d.2 h (buffersFields_mem hv.2 d hd)
      simp only [SVal.content, untaggedAs, this]
      rfl

/-- The first variant that takes the content. -/
theorem untaggedFrom_first {D : Nat → Ty} {f : Nat} {name : Text} {c : Content} {v : SVal} : ∀ {ks : List Variant} {i j : Nat} {k : Variant},
    ks[i]? = some k → untaggedAs D f name k c = .ok v → (∀ i' k' u, i' < i → ks[i']? = some k' → untaggedAs D f name k' c ≠ .ok u) →
    untaggedFrom D f name c j ks = .ok (j + i, v)
  | [], i, j, k, h, _, _ => by simp at h
  | a :: ks, 0, j, k, h, hv, _ => by
    simp only [List.getElem?_cons_zero, Option.some.injEq] at h
    subst h
    simp only [untaggedFrom, hv, Nat.add_zero]
  | a :: ks, i + 1, j, k, h, hv, hn => by
    have ih := untaggedFrom_first (ks := ks) (i := i) (j := j + 1) (k := k) (by simpa using h) hv
      (fun i' k' u hi' hk' => hn (i' + 1) k' u (by omega) (by simpa using hk'))
    have h0 : ∀ u, untaggedAs D f name a c ≠ .ok u := fun u => hn 0 a u (by omega) rfl
    rw [untaggedFrom]
    cases ha : untaggedAs D f name a c with
    | ok u => exact absurd ha (h0 u)
    | error e => simp only [ih]; rw [show j + 1 + i = j + (i + 1) by omega]

/-- An untagged enum reads what `to_string` wrote for its variant `i` as this variant, with the same data, provided no earlier variant
takes the same content. -/
theorem C51_untagged_partial (o : Options) (D : Nat → Ty) (n f : Nat) (name : Text) (ks : List Variant) (i : Nat) (k : Variant) (v : SVal)
    (t l l' : Text) (hf : n ≤ f) (hki : ks[i]? = some k) (hT : HasTy D n (untaggedTy name k) v)
    (hfirst : ∀ i' k' u, i' < i → ks[i']? = some k' → untaggedAs D f name k' (v.content o.defaultExtensions) ≠ .ok u)
    (hu : o.defaultExtensions.unwrapVariantNewtypes = false) (hv : v.Buffers o.defaultExtensions)
    (hk : ∀ m, o.recursionLimit = some m → (v.content o.defaultExtensions).levels ≤ m) (ht : toText o none v = .ok t) (hl : Layout l) (hl' : Layout l') :
    fromStr o (deUntagged D f name ks) (l ++ (t ++ l')) = .ok (i, v) := by
  have hc := compact_ctext D hu n _ v hT hv (toText_named ht)
  rw [C52_text o v t ht]
  have hx : ({} : Exts).union o.defaultExtensions = o.defaultExtensions := by simp [Exts.union]
  have hr := untaggedFrom_first (j := 0) hki (untaggedAs_ok hf hT hv) hfirst
  rw [Nat.zero_add] at hr
  exact doc_reads (hdr := []) (deUntagged_reads (deContent_reads hu hc) hr) hl .nil hx hk hl'

/-- Whatever an untagged enum gives was taken by the variant it names, from the content that the text was buffered as, and no earlier
variant takes it. -/
theorem C51_first (o : Options) (D : Nat → Ty) (f : Nat) (name : Text) (ks : List Variant) (t : Text) (i : Nat) (v : SVal)
    (h : fromStr o (deUntagged D f name ks) t = .ok (i, v)) :
    ∃ c k, fromStr o deContent t = .ok c ∧ ks[i]? = some k ∧ untaggedAs D f name k c = .ok v ∧
      ∀ i' k' u, i' < i → ks[i']? = some k' → untaggedAs D f name k' c ≠ .ok u := by
  have key : ∀ {c : Content} {ks : List Variant} {j : Nat}, untaggedFrom D f name c j ks = .ok (i, v) →
      ∃ m k, i = j + m ∧ ks[m]? = some k ∧ untaggedAs D f name k c = .ok v ∧
        ∀ i' k' u, i' < m → ks[i']? = some k' → untaggedAs D f name k' c ≠ .ok u := by
    intro c ks
    induction ks with
    | nil => intro j h; simp [untaggedFrom] at h
    | cons a ks ih =>
      intro j h
      rw [untaggedFrom] at h
      cases ha : untaggedAs D f name a c with
      | ok u =>
        rw [ha] at h
        simp only [Except.ok.injEq, Prod.mk.injEq] at h
        obtain ⟨rfl, rfl⟩ := h
        exact ⟨0, a, rfl, rfl, ha, fun i' _ _ hi' => by omega⟩
      | error e =>
        rw [ha] at h
        obtain ⟨m, k, h1, h2, h3, h4⟩ := ih h
        refine ⟨m + 1, k, by omega, by simpa using h2, h3, fun i' k' u hi' hk' => ?_⟩
        cases i' with
        | zero =>
          simp only [List.getElem?_cons_zero, Option.some.injEq] at hk'
          subst hk'
          rw [ha]
          simp
        | succ i' => exact h4 i' k' u (by omega) (by simpa using hk')
  unfold fromStr readDoc deUntagged at h
  unfold fromStr readDoc
  simp only [bind_apply] at h ⊢
  cases h1 : deNew o (St.init t) with
  | err e s => rw [h1] at h; cases h
  | ok _ s1 =>
    rw [h1] at h
    simp only at h ⊢
    cases h2 : deContent s1 with
    | err e s => rw [h2] at h; cases h
    | ok c s2 =>
      rw [h2] at h
      simp only at h ⊢
      cases h3 : untaggedFrom D f name c 0 ks with
      | error e => rw [h3] at h; cases h
      | ok r =>
        rw [h3] at h
        simp only [liftE, pure_apply] at h
        cases h4 : deEnd s2 with
        | err e s => rw [h4] at h; cases h
        | ok _ s3 =>
          rw [h4] at h
          cases h
          obtain ⟨m, k, g1, g2⟩ := key h3
          rw [Nat.zero_add] at g1
          subst g1
          exact ⟨c, k, rfl, g2⟩

/-- A struct is not read from buffered data that name one of its fields twice. -/
theorem C51_repeated (own : Bool) (D : Nat → Ty) (f : Nat) (name : Text) (deny : Bool) (fields : List (Text × Ty)) (key : Text)
    (hk : key ∈ fields.map Prod.fst) (a b d : List (Content × Content)) (c c' : Content) (v : SVal) :
    Content.into own D (f + 1) (.struct name deny fields) (.map (a ++ (.str key, c) :: (b ++ (.str key, c') :: d))) ≠ .ok v := by
  intro h
  simp only [Content.into, contentStructOf] at h
  cases hg : contentFields (Content.into own D f) deny fields (a ++ (.str key, c) :: (b ++ (.str key, c') :: d)) (fun _ => none) with
  | error e => rw [hg] at h; cases h
  | ok got =>
    have := contentFields_taken hk _ _ _ hg
    simp [NamesField] at this
    omega

theorem nameA : NameTok c!"A" c!"A" := 
  ⟨⟨by simp, by intro c hc; rw [List.mem_singleton] at hc; subst hc; rw [isIdentRaw_ascii (by decide)]; decide⟩,
    .inr ⟨rfl, ⟨'A', [], rfl, by simp [isIdentFirst, Env.xidStart_ascii 'A' (by decide)]; decide, by simp⟩, by decide⟩⟩

theorem deep_ctext : ∀ n, CText (deepContent n) (deepText n)
  | 0 => by
    simp only [deepContent, deepText, CText]
    refine ⟨by simp [Number.Small, IntTy.bits], .int .u8 1, false, ⟨fun h => (by rcases h with h | h <;> cases h), ?_⟩, rfl, rfl⟩
    constructor <;> decide
  | n + 1 => by
    simp only [deepContent, deepText, CText, CTextVariant]
    exact .inr (.inr ⟨c!"A", c!"A", [], _, rfl, nameA, blank_nil, rfl, .inl ⟨[], _, [], blank_nil, deep_ctext n, blank_nil, by simp⟩⟩)

theorem deep_reads {x : Exts} (hx : x.unwrapVariantNewtypes = false) : ∀ (n f : Nat), 2 * n + 1 < f →
    Reads x 0 (contentAny f false) (deepText n) (deepContent n)
  | 0, f, hf => ctext_reads hx _ _ f (deep_ctext 0) (by simp [deepText]; omega)
  | n + 1, f, hf => by
    obtain ⟨f, rfl⟩ : ∃ g, f = g + 2 := ⟨f - 2, by omega⟩
    have ih := deep_reads hx n f (by omega)
    have hpl := ctext_plainly _ _ (deep_ctext n)
    rw [contentAny]
    refine content_lift (ctext_plainly _ _ (deep_ctext (n + 1))).start fun d r hp hd hf _ => ?_
    have hd' : d.rest = c!"A" ++ ([] ++ '(' :: ([] ++ (deepText n ++ ([] ++ ')' :: r)))) := by simpa [deepText] using hd
    refine contentPlain_variant nameA hd' .nil (fun d1 h1 => ?_) fun d1 hk1 hd1 => ?_
    · obtain ⟨ty, h1, h2, -⟩ := struct_imprecise hpl h1 .nil blank_nil (.close (r := r))
      exact ⟨ty, h1, h2⟩
    have hp1 := hp.keep hk1
    rw [contentAny, contentBody_plain hp1.nv, contentPlain_open hd1 (by rw [hd1]; exact open_notUnit blank_nil hpl.start)]
    exact contentStruct_newtype ih hpl hp1 hd1 .nil blank_nil

/-- The recursion limit does not bound the nesting: with the limit 0, newtype variants nested to any depth are buffered. -/
theorem C51_limit_fails (n : Nat) : fromStr { recursionLimit := some 0 } deContent (deepText n) = .ok (deepContent n) := by
  have hx : ({} : Exts).unwrapVariantNewtypes = false := rfl
  have h : Reads {} 0 deContent (deepText n) (deepContent n) := by
    refine ⟨(deep_reads hx n _ (Nat.lt_succ_self _)).1, fun d l q hp hd hl hq => ?_⟩
    have hlen : ∀ n, (deepText n).length = 3 * n + 1 := by
      intro n
      induction n with
      | zero => rfl
      | succ n ih => simp [deepText, ih]; omega
    have hf : 2 * n + 1 < 2 * d.rest.length + 2 := by rw [hd, List.length_append, hlen]; omega
    obtain ⟨s', l', h1, h2⟩ := (deep_reads hx n _ hf).2 d l q hp hd hl hq
    refine ⟨s', l', ?_, h2⟩
    unfold deContent
    rw [bind_apply, getSt_apply]
    exact h1
  have := doc_reads (o := { recursionLimit := some 0 }) (l := []) (hdr := []) (l' := []) h .nil .nil rfl (fun m hm => by omega) .nil
  simpa using this

end

/-! ### What does not survive the buffer -/

/-- An enum with all kinds of variants. -/
def C51_enum : Ty := .enum c!"E" [(c!"A", .newtype (.int .u8)), (c!"B", .tuple [.int .u8]), (c!"C", .tuple []), (c!"S", .struct false []),
  (c!"U", .unit), (c!"T", .tuple [.int .u8, .bool]), (c!"R", .struct false [(c!"a", .int .u8)])]

/-- The outcome of reading the text by way of the buffer, unless it cannot be buffered. -/
def C51_through [Env] (o : Options) (T : Ty) (t : Text) : Option (Except Err SVal) :=
  match fromStr o deContent t with
  | .ok c => some (c.into false (fun _ => .unit) 8 T)
  | .error _ => none

/-- Reading the text directly. -/
def C51_direct [Env] (o : Options) (T : Ty) (t : Text) : Option SVal :=
  match fromStr o (deTy (fun _ => .unit) 8 T) t with
  | .ok v => some v
  | .error _ => none

/-- A tuple variant with one field is read directly, but not through the buffer (where it looks like a newtype variant); an empty tuple or
struct variant looks like a variant with a unit. -/
theorem C51_one_field_fails : let _ : Env := asciiEnv true true
    toText {} none (.tupleVariant c!"E" c!"B" [.num (.int .u8 1)]) = .ok c!"B(1)" ∧
    C51_direct {} C51_enum c!"B(1)" = some (.tupleVariant c!"E" c!"B" [.num (.int .u8 1)]) ∧
    C51_through {} C51_enum c!"B(1)" = some (.error (.invalidValueForType [] [])) ∧
    C51_direct {} C51_enum c!"C()" = some (.tupleVariant c!"E" c!"C" []) ∧
    C51_through {} C51_enum c!"C()" = some (.error (.invalidValueForType [] [])) ∧
    C51_direct {} C51_enum c!"S()" = some (.structVariant c!"E" c!"S" []) ∧
    C51_through {} C51_enum c!"S()" = some (.error (.invalidValueForType [] [])) := by decide +kernel

/-- Without `unwrap_newtypes` a newtype struct does not survive the buffer: it looks like a tuple.  Nor does a struct with its name: it looks
like a variant. -/
theorem C51_newtype_fails : let _ : Env := asciiEnv true true
    toText {} none (.newtypeStruct c!"N" (.num (.int .u8 1))) = .ok c!"(1)" ∧
    C51_direct {} (.newtype c!"N" (.int .u8)) c!"(1)" = some (.newtypeStruct c!"N" (.num (.int .u8 1))) ∧
    C51_through {} (.newtype c!"N" (.int .u8)) c!"(1)" = some (.error (.invalidValueForType [] [])) ∧
    C51_direct {} (.struct c!"P" true [(c!"a", .int .u8)]) c!"P(a:1)" = some (.struct c!"P" [(c!"a", .num (.int .u8 1))]) ∧
    C51_through {} (.struct c!"P" true [(c!"a", .int .u8)]) c!"P(a:1)" = some (.error (.noSuchStructField [c!"a"] c!"P" none)) := by
  decide +kernel

/-- Nor do empty tuples and structs, and 128-bit integers. -/
theorem C51_empty_fails : let _ : Env := asciiEnv true true
    C51_direct {} (.tuple []) c!"()" = some (.tuple []) ∧ C51_through {} (.tuple []) c!"()" = some (.error (.invalidValueForType [] [])) ∧
    C51_direct {} (.struct c!"P" false []) c!"()" = some (.struct c!"P" []) ∧
    C51_through {} (.struct c!"P" false []) c!"()" = some (.error (.invalidValueForType [] [])) ∧
    C51_direct {} (.int .u128) c!"1" = some (.num (.int .u128 1)) ∧
    C51_through {} (.int .u128) c!"1" = some (.error (.message c!"u128 is not supported")) := by decide +kernel

/-- A trailing comma inside a newtype variant is fine for the direct reader and an error for the buffer, and a comment after a string
inside of one misleads the look-ahead. -/
theorem C51_comma_fails : let _ : Env := asciiEnv true true
    C51_direct {} C51_enum c!"A(1,)" = some (.newtypeVariant c!"E" c!"A" (.num (.int .u8 1))) ∧ C51_through {} C51_enum c!"A(1,)" = none ∧
    C51_direct {} (.enum c!"E" [(c!"A", .newtype .str)]) c!"A(\"x\"/*\"*/)" = some (.newtypeVariant c!"E" c!"A" (.str c!"x")) ∧
    C51_through {} (.enum c!"E" [(c!"A", .newtype .str)]) c!"A(\"x\"/*\"*/)" = none := by decide +kernel

/-- The buffer accepts a document whose parentheses do not match: the closing parenthesis of a newtype variant is optional
(src/de/mod.rs:216-223). -/
theorem C51_unbalanced_fails : let _ : Env := asciiEnv true true
    C51_direct {} (.seq C51_enum) c!"(A(1,)" = none ∧ C51_direct {} (.tuple [C51_enum]) c!"(A(1,)" = none ∧
    C51_through {} (.tuple [C51_enum]) c!"(A(1,)" = some (.ok (.tuple [.newtypeVariant c!"E" c!"A" (.num (.int .u8 1))])) := by decide +kernel

/-- With `implicit_some` the data `Some(())` is written `()` and comes out of the buffer as `None`. -/
theorem C51_implicit_fails : let _ : Env := asciiEnv true true
    toText { defaultExtensions := ⟨false, true, false, false⟩ } none (.some .unit) = .ok c!"()" ∧
    C51_direct { defaultExtensions := ⟨false, true, false, false⟩ } (.option .unit) c!"()" = some (.some .unit) ∧
    C51_through { defaultExtensions := ⟨false, true, false, false⟩ } (.option .unit) c!"()" = some (.ok .none) := by decide +kernel

/-! ### The theorems apply -/

/-- The data: a struct that holds a tuple variant and an option. -/
def C51_data : SVal := .struct c!"X" [(c!"a", .tupleVariant c!"E" c!"T" [.num (.int .u8 7), .bool true]), (c!"b", .some (.str c!"z"))]
/-- An untagged enum: a string, a tuple, or a struct with two fields. -/
def C51_variants : List Variant := [.newtype .str, .tuple [.int .u8, .int .u8], .struct true [(c!"a", C51_enum), (c!"b", .option .str)]]

example : let _ : Env := asciiEnv true true
    fromStr {} (deUntagged (fun _ => .unit) 8 c!"X" C51_variants) c!" (a:T(7,true),b:Some(\"z\")) " = .ok (2, C51_data) := by
  intro _
  refine C51_untagged_partial {} (fun _ => .unit) 8 8 c!"X" C51_variants 2 _ C51_data c!"(a:T(7,true),b:Some(\"z\"))" [' '] [' '] (by decide) rfl
    ?_ ?_ rfl ?_ ?_ (by decide +kernel) (.ws (by simp [ronWhitespace]) .nil) (.ws (by simp [ronWhitespace]) .nil)
  · refine ⟨_, rfl, by decide, ⟨rfl, ⟨c!"T", .tuple [.int .u8, .bool], by simp, by decide, _, rfl, ⟨7, rfl, ?_, by decide⟩, ⟨true, rfl⟩, trivial⟩⟩,
      ⟨rfl, .inr ⟨_, rfl, ⟨_, rfl⟩⟩⟩, trivial⟩
    intro h; rcases h with h | h <;> cases h
  · intro i' k' u hi' hk'
    match i', hi' with
    | 0, _ => cases hk'; simp [untaggedAs, C51_data, SVal.content, Content.into, badContent]
    | 1, _ => cases hk'; simp [untaggedAs, C51_data, SVal.content, badContent]
  · simp [C51_data, SVal.Buffers, BuffersFields, BuffersAll, Number.Small, Number.Keeps, IntTy.bits]
  · intro m hm; cases hm; decide

/-- The same with `implicit_some`: the option is written without `Some`. -/
example : let _ : Env := asciiEnv true true
    let o : Options := { defaultExtensions := ⟨false, true, false, false⟩ }
    fromStr o (deUntagged (fun _ => .unit) 8 c!"X" C51_variants) c!"(a:T(7,true),b:\"z\")" = .ok (2, C51_data) := by
  intro _ o
  refine C51_untagged_partial o (fun _ => .unit) 8 8 c!"X" C51_variants 2 _ C51_data c!"(a:T(7,true),b:\"z\")" [] [] (by decide) rfl
    ?_ ?_ rfl ?_ ?_ (by decide +kernel) .nil .nil
  · refine ⟨_, rfl, by decide, ⟨rfl, ⟨c!"T", .tuple [.int .u8, .bool], by simp, by decide, _, rfl, ⟨7, rfl, ?_, by decide⟩, ⟨true, rfl⟩, trivial⟩⟩,
      ⟨rfl, .inr ⟨_, rfl, ⟨_, rfl⟩⟩⟩, trivial⟩
    intro h; rcases h with h | h <;> cases h
  · intro i' k' u hi' hk'
    match i', hi' with
    | 0, _ => cases hk'; simp [untaggedAs, C51_data, SVal.content, Content.into, badContent]
    | 1, _ => cases hk'; simp [untaggedAs, C51_data, SVal.content, badContent]
  · simp [C51_data, SVal.content, SVal.Buffers, BuffersFields, BuffersAll, Number.Small, Number.Keeps, IntTy.bits, o]
  · intro m hm; cases hm; decide

example : let _ : Env := asciiEnv true true
    fromStr {} (deUntagged (fun _ => .unit) 8 c!"X" C51_variants) c!"U" = .ok (0, .str c!"U") := by decide +kernel
example : let _ : Env := asciiEnv true true
    C51_through {} C51_enum c!"R ( a : 1 , )" = some (.ok (.structVariant c!"E" c!"R" [(c!"a", .num (.int .u8 1))])) := by decide +kernel

end Ron
