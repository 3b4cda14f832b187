import Verif.Lemmas.TaggedSer
import Verif.Lemmas.Witness
import Verif.Lemmas.Deq
/-! C53: internally tagged enums.  The tag may stand anywhere in the struct or map, with or without a name in front; a missing, repeated or
unknown tag is an error that says so; what `to_string` wrote is read back.  Partial: the extension
`unwrap_variant_newtypes` is excluded, and so are data that do not survive serde's buffer (see C51) and data that have a field of their own
called like the tag. -/

set_option linter.unusedSectionVars false

namespace Ron

section
variable [Env]

theorem deInternal_reads {x : Exts} {k : Nat} {tag id : Text} {c : Content} {w : Text} {D : Nat → Ty} {f : Nat} {name : Text} {variants : List (Text × Variant)}
    {v : SVal} (h : Reads x k (deTagged tag (variants.map Prod.fst)) w (id, c)) (hv : taggedFrom D f name variants id c = .ok v) :
    Reads x k (deInternal D f tag name variants) w v := by
  refine ⟨h.1, fun d l q hp hd hl hq => ?_⟩
  obtain ⟨s', l', h1, h2⟩ := h.2 d l q hp hd hl hq
  refine ⟨s', l', ?_, h2⟩
  unfold deInternal
  rw [bind_apply, h1]
  simp only [hv]
  rfl

theorem deInternal_fails {x : Exts} {k : Nat} {tag : Text} {w : Text} {D : Nat → Ty} {f : Nat} {name : Text} {variants : List (Text × Variant)}
    {e : Err} (h : FailsAt x k (deTagged tag (variants.map Prod.fst)) w e) : FailsAt x k (deInternal D f tag name variants) w e := by
  refine ⟨h.1, fun d r hp hd => ?_⟩
  obtain ⟨s', h1⟩ := h.2 d r hp hd
  refine ⟨s', ?_⟩
  unfold deInternal
  rw [bind_apply, h1]

/-- A struct (with or without a name) or a map with the tag among its items: the tag selects the variant, which is read from the other
items, in their order.  The tag may stand anywhere. -/
theorem C53_anywhere (o : Options) (D : Nat → Ty) (f : Nat) (tag name id : Text) (variants : List (Text × Variant))
    (its : List (Option (Content × Content))) (w hdr l l' : Text) (e : Exts) (v : SVal) (hw : TagText tag id its w)
    (hone : its.countP Option.isNone = 1) (hid : id ∈ variants.map Prod.fst)
    (hv : taggedFrom D f name variants id (.map (its.filterMap fun i => i)) = .ok v)
    (hl : Layout l) (hl' : Layout l') (hh : Attrs hdr e) (hx : (e.union o.defaultExtensions).unwrapVariantNewtypes = false)
    (hk : ∀ m, o.recursionLimit = some m → tagLevels its ≤ m) :
    fromStr o (deInternal D f tag name variants) (l ++ (hdr ++ (w ++ l'))) = .ok v :=
  doc_reads (deInternal_reads (tagText_reads hx hid hw hone) hv) hl hh rfl hk hl'

/-- A struct variant: its fields and the tag may stand in any order. -/
theorem C53_struct (o : Options) (D : Nat → Ty) (n f : Nat) (tag name id : Text) (variants : List (Text × Variant)) (deny : Bool)
    (fields : List (Text × Ty)) (fs ds : List (Text × SVal)) (x : Exts)
    (a b : List (Text × SVal)) (w hdr l l' : Text) (e : Exts) (hk0 : (id, .struct deny fields) ∈ variants)
    (hT : HasTy D (n + 1) (.enum name variants) (.structVariant name id fs)) (hf : n ≤ f) (hb : BuffersFields x fs) (hp : ds.Perm fs)
    (hds : ds = a ++ b) (hw : TagText tag id ((contentFieldsOf x a).map some ++ none :: (contentFieldsOf x b).map some) w)
    (hl : Layout l) (hl' : Layout l') (hh : Attrs hdr e) (hx : (e.union o.defaultExtensions).unwrapVariantNewtypes = false)
    (hk : ∀ m, o.recursionLimit = some m → clevelsEntries ((.unit, .unit) :: contentFieldsOf x ds) ≤ m) :
    fromStr o (deInternal D f tag name variants) (l ++ (hdr ++ (w ++ l'))) = .ok (.structVariant name id fs) := by
  have hit : ((contentFieldsOf x a).map some ++ none :: (contentFieldsOf x b).map some).filterMap (fun i => i) = contentFieldsOf x ds := by
    rw [List.filterMap_append, List.filterMap_cons, filterMap_some, filterMap_some, hds, contentFieldsOf_map, contentFieldsOf_map, contentFieldsOf_map,
      List.map_append]
  refine C53_anywhere o D f tag name id variants _ w hdr l l' e _ hw ?_ (List.mem_map_of_mem (f := Prod.fst) hk0) ?_ hl hl' hh hx ?_
  · rw [List.countP_append, List.countP_cons, countP_some, countP_some]; rfl
  · rw [hit]
    obtain ⟨id', k, hk1, hn, h⟩ := hT
    have hfind := find_field hn hk0
    simp only at hfind
    have hid : id' = id := by
      cases k with
      | unit => cases h
      | newtype => obtain ⟨_, h, -⟩ := h; cases h
      | tuple => obtain ⟨_, h, -⟩ := h; cases h
      | struct => obtain ⟨_, h, -⟩ := h; cases h; rfl
    subst hid
    have hfind' := find_field hn hk1
    simp only at hfind'
    rw [hfind] at hfind'
    cases hfind'
    obtain ⟨fs', e', hn', h1⟩ := h
    cases e'
    have := contentStructOf_perm (isOption := fieldOf D f) (rec := Content.into true D f) (deny := deny) hp hn' h1 fun t v hm h => by
      obtain ⟨d, hd, rfl⟩ := List.mem_map.mp hm
      exact into_content true D n f t d.2 hf h (buffersFields_mem hb d hd)
    simp only [taggedFrom, hfind, taggedAs, this]
    rfl
  · intro m hm
    unfold tagLevels
    rw [hit]
    exact hk m hm

/-- Data that `to_string` wrote for an internally tagged enum, inside arbitrary layout, are read back. -/
theorem C53_roundtrip_partial (o : Options) (D : Nat → Ty) (n f : Nat) (tag name : Text) (variants : List (Text × Variant)) (v u : SVal) (t l l' : Text)
    (hf : n ≤ f) (hT : HasTy D n (.enum name variants) v) (hw : taggedSer tag v = some u) (ht : toText o none u = .ok t)
    (hu : o.defaultExtensions.unwrapVariantNewtypes = false) (hb : TagBuffers o.defaultExtensions u) (honce : TagOnce o.defaultExtensions tag u)
    (hk : ∀ m, o.recursionLimit = some m → (u.content o.defaultExtensions).levels ≤ m) (hl : Layout l) (hl' : Layout l') :
    fromStr o (deInternal D f tag name variants) (l ++ (t ++ l')) = .ok v := by
  obtain ⟨id, es, h1, h2, h3, h4⟩ := taggedSer_text hu hf hT hw hb (toText_named ht) honce
  rw [C52_text o u t ht]
  have hx : ({} : Exts).union o.defaultExtensions = o.defaultExtensions := by simp [Exts.union]
  refine C53_anywhere o D f tag name id variants _ _ [] l l' {} v h2 ?_ h1 ?_ hl hl' .nil (by rw [hx]; exact hu) (by rw [h4]; exact hk)
  · rw [List.countP_cons, countP_some]; rfl
  · rw [List.filterMap_cons, filterMap_some]; exact h3

/-- Every value of an internally tagged enum that serde accepts for writing is written as a struct or map whose first entry is the tag. -/
theorem C53_written (x : Exts) (D : Nat → Ty) (n : Nat) (tag name : Text) (variants : List (Text × Variant)) (v u : SVal)
    (hT : HasTy D n (.enum name variants) v) (hw : taggedSer tag v = some u) :
    ∃ id es, id ∈ variants.map Prod.fst ∧ u.content x = .map ((.str tag, .str id) :: es) := by
  obtain ⟨id, h1, ⟨nm, fs, rfl, -⟩ | ⟨m, kvs, rfl, -⟩⟩ := taggedSer_form hT hw
  · exact ⟨id, contentFieldsOf x fs, h1, by simp [SVal.content, contentFieldsOf]⟩
  · exact ⟨id, contentEntries x kvs, h1, by simp [SVal.content, contentEntries]⟩

/-- No tag: the error names the missing field. -/
theorem C53_missing (o : Options) (D : Nat → Ty) (f : Nat) (tag name id : Text) (variants : List (Text × Variant))
    (its : List (Option (Content × Content))) (w hdr l r : Text) (e : Exts) (hw : TagText tag id its w) (hno : none ∉ its)
    (hl : Layout l) (hh : Attrs hdr e) (hx : (e.union o.defaultExtensions).unwrapVariantNewtypes = false)
    (hk : ∀ m, o.recursionLimit = some m → tagLevels its ≤ m) :
    ∃ sp, fromStr o (deInternal D f tag name variants) (l ++ (hdr ++ (w ++ r))) = .error (.missingStructField tag none, sp) := by
  obtain ⟨k, hk1, hlev⟩ := tagLevels_two its
  exact doc_fails (deInternal_fails (tagText_fails hx rfl hw (tagFails_missing hx hlev hno))) hl hh rfl (hk1 ▸ hk)

/-- More than one tag: the error names the repeated field, even if the tags agree. -/
theorem C53_twice (o : Options) (D : Nat → Ty) (f : Nat) (tag name id : Text) (variants : List (Text × Variant))
    (its : List (Option (Content × Content))) (w hdr l r : Text) (e : Exts) (hw : TagText tag id its w) (htwo : 2 ≤ its.countP Option.isNone)
    (hid : id ∈ variants.map Prod.fst)
    (hl : Layout l) (hh : Attrs hdr e) (hx : (e.union o.defaultExtensions).unwrapVariantNewtypes = false)
    (hk : ∀ m, o.recursionLimit = some m → tagLevels its ≤ m) :
    ∃ sp, fromStr o (deInternal D f tag name variants) (l ++ (hdr ++ (w ++ r))) = .error (.duplicateStructField tag none, sp) := by
  obtain ⟨k, hk1, hlev⟩ := tagLevels_two its
  exact doc_fails (deInternal_fails (tagText_fails hx rfl hw (tagFails_twice hid hlev htwo))) hl hh rfl (hk1 ▸ hk)

/-- A tag that names no variant: the error lists the variants and what was found. -/
theorem C53_unknown (o : Options) (D : Nat → Ty) (f : Nat) (tag name id : Text) (variants : List (Text × Variant))
    (its : List (Option (Content × Content))) (w hdr l r : Text) (e : Exts) (hw : TagText tag id its w) (hin : none ∈ its)
    (hid : id ∉ variants.map Prod.fst)
    (hl : Layout l) (hh : Attrs hdr e) (hx : (e.union o.defaultExtensions).unwrapVariantNewtypes = false)
    (hk : ∀ m, o.recursionLimit = some m → tagLevels its ≤ m) :
    ∃ sp, fromStr o (deInternal D f tag name variants) (l ++ (hdr ++ (w ++ r))) =
      .error (.noSuchEnumVariant (variants.map Prod.fst) id none, sp) := by
  obtain ⟨k, hk1, hlev⟩ := tagLevels_two its
  exact doc_fails (deInternal_fails (tagText_fails hx rfl hw (tagFails_unknown hid hlev hin))) hl hh rfl (hk1 ▸ hk)

end

/-! ### What is not read back -/

/-- `#[serde(tag = "t")] enum E { A { x: u8, y: bool }, B(S), C, D(()), F(R), G(E2) }` with `struct S { x: u8 }`, `struct R { t: String }` and
`enum E2 { P(u8,), Q }` (`P` a tuple variant with one field). -/
def taggedCase : List (Text × Variant) :=
  [(c!"A", .struct false [(c!"x", .int .u8), (c!"y", .bool)]), (c!"B", .newtype (.struct c!"S" false [(c!"x", .int .u8)])), (c!"C", .unit),
    (c!"D", .newtype .unit), (c!"F", .newtype (.struct c!"R" false [(c!"t", .str)])),
    (c!"G", .newtype (.enum c!"E2" [(c!"P", .tuple [.int .u8]), (c!"Q", .unit)]))]

/-- Reading it. -/
def readCase [Env] (t : Text) : Spanned SVal := fromStr {} (deInternal (fun _ => .unit) 8 c!"t" c!"E" taggedCase) t

/-- What writing gives. -/
def writeCase [Env] (v : SVal) : Option (Except Err Text) := (taggedSer c!"t" v).map (toText {} none)

/-- A newtype variant whose data have a field called like the tag is written, with that field twice, and not read back. -/
theorem C53_field_fails : let _ : Env := asciiEnv true true
    writeCase (.newtypeVariant c!"E" c!"F" (.struct c!"R" [(c!"t", .str c!"z")])) = some (.ok c!"(t:\"F\",t:\"z\")") ∧
    readCase c!"(t:\"F\",t:\"z\")" = .error (.duplicateStructField c!"t" none, ⟨⟨1, 8⟩, ⟨1, 9⟩⟩) := by decide +kernel

/-- The tag of a struct has to be written as a string; as an identifier, as variants are written everywhere else, it is an error.  In a
sequence it is the other way around. -/
theorem C53_identifier_fails : let _ : Env := asciiEnv true true
    readCase c!"(t:\"A\",x:1,y:true)" = .ok (.structVariant c!"E" c!"A" [(c!"x", .num (.int .u8 1)), (c!"y", .bool true)]) ∧
    readCase c!"(t:A,x:1,y:true)" = .error (.expectedString, ⟨⟨1, 4⟩, ⟨1, 4⟩⟩) ∧
    readCase c!"[A,1,true]" = .ok (.structVariant c!"E" c!"A" [(c!"x", .num (.int .u8 1)), (c!"y", .bool true)]) ∧
    readCase c!"[\"A\",1,true]" = .error (.expectedIdentifier, ⟨⟨1, 2⟩, ⟨1, 2⟩⟩) := by decide +kernel

/-- With `implicit_some` a field that holds `Some(())` comes back as `None`, although a struct read directly keeps it. -/
theorem C53_implicit_fails : let _ : Env := asciiEnv true true
    let o : Options := { defaultExtensions := ⟨false, true, false, false⟩ }
    let variants : List (Text × Variant) := [(c!"A", .struct false [(c!"x", .option .unit)])]
    (taggedSer c!"t" (.structVariant c!"E" c!"A" [(c!"x", .some .unit)])).map (toText o none) = some (.ok c!"(t:\"A\",x:())") ∧
    fromStr o (deInternal (fun _ => .unit) 8 c!"t" c!"E" variants) c!"(t:\"A\",x:())" = .ok (.structVariant c!"E" c!"A" [(c!"x", .none)]) := by
  decide +kernel

/-! ### The theorems apply -/

example : let _ : Env := asciiEnv true true
    readCase c!" (t:\"B\",x:1) " = .ok (.newtypeVariant c!"E" c!"B" (.struct c!"S" [(c!"x", .num (.int .u8 1))])) := by
  intro _
  refine C53_roundtrip_partial {} (fun _ => .unit) 8 8 c!"t" c!"E" taggedCase (.newtypeVariant c!"E" c!"B" (.struct c!"S" [(c!"x", .num (.int .u8 1))]))
    _ c!"(t:\"B\",x:1)" [' '] [' '] (by decide) ?_ rfl (by decide +kernel) rfl ?_ ?_ ?_ (.ws (by simp [ronWhitespace]) .nil)
    (.ws (by simp [ronWhitespace]) .nil)
  · exact ⟨c!"B", _, List.mem_cons_of_mem _ (List.mem_cons_self ..), by decide, _, rfl, _, rfl, by decide,
      ⟨rfl, 1, rfl, fun h => (by rcases h with h | h <;> cases h), by decide⟩, trivial⟩
  · simp [TagBuffers, SVal.Buffers, BuffersFields, Number.Small, Number.Keeps, IntTy.bits]
  · refine ⟨_, _, rfl, fun k c h => ?_⟩
    simp only [contentFieldsOf, List.mem_singleton, Prod.mk.injEq] at h
    obtain ⟨rfl, -⟩ := h
    exact ⟨by simp, by simp⟩
  · intro m hm; cases hm; decide

/-- The same with `explicit_struct_names`: the struct is written with its name. -/
example : let _ : Env := asciiEnv true true
    let o : Options := { defaultExtensions := ⟨false, true, false, true⟩ }
    fromStr o (deInternal (fun _ => .unit) 8 c!"t" c!"E" taggedCase) c!"S(t:\"B\",x:1)" = .ok (.newtypeVariant c!"E" c!"B" (.struct c!"S" [(c!"x", .num (.int .u8 1))])) := by
  intro _ o
  refine C53_roundtrip_partial o (fun _ => .unit) 8 8 c!"t" c!"E" taggedCase (.newtypeVariant c!"E" c!"B" (.struct c!"S" [(c!"x", .num (.int .u8 1))]))
    _ c!"S(t:\"B\",x:1)" [] [] (by decide) ?_ rfl (by decide +kernel) rfl ?_ ?_ ?_ .nil .nil
  · exact ⟨c!"B", _, List.mem_cons_of_mem _ (List.mem_cons_self ..), by decide, _, rfl, _, rfl, by decide,
      ⟨rfl, 1, rfl, fun h => (by rcases h with h | h <;> cases h), by decide⟩, trivial⟩
  · simp [TagBuffers, SVal.Buffers, BuffersFields, Number.Small, Number.Keeps, IntTy.bits]
  · refine ⟨_, _, rfl, fun k c h => ?_⟩
    simp only [contentFieldsOf, List.mem_singleton, Prod.mk.injEq] at h
    obtain ⟨rfl, -⟩ := h
    exact ⟨by simp, by simp⟩
  · intro m hm; cases hm; decide

/-- A struct with a name, and the tag in between. -/
theorem taggedCase_text : let _ : Env := asciiEnv true true
    TagText c!"t" c!"A" [some (.str c!"y", .bool true), none, some (.str c!"x", .num (.int .u8 1))] c!"E (y:true,t:\"A\",x:1)" := by
  intro _
  have hn : ∀ t ∈ [c!"E", c!"y", c!"t", c!"x"], NameTok t t := by
    intro t ht
    have : RawName t ∧ PlainName t ∧ t ∉ reservedNames := by
      simp only [List.mem_cons, List.not_mem_nil, or_false] at ht
      rcases ht with rfl | rfl | rfl | rfl <;> exact ⟨⟨by simp, by simp; decide⟩, ⟨_, _, rfl, by decide, by simp⟩, by decide⟩
    exact ⟨this.1, .inr ⟨rfl, this.2⟩⟩
  refine .inl ⟨[c!"y:true", c!"t:\"A\"", c!"x:1"], c!"(y:true,t:\"A\",x:1)", ⟨?_, ?_, ?_, trivial⟩, by simp,
    (commas_delim '(' ')' [c!"y:true", c!"t:\"A\"", c!"x:1"]).delim, .inr ⟨c!"E", c!"E", [' '], hn _ (by simp), .ws (by simp [ronWhitespace]) .nil, rfl⟩⟩
  · exact ⟨c!"y", c!"y", c!"true", rfl, by decide, (hn _ (by simp)).keyTok, rfl, .mk (l := []) (l' := []) .nil .nil⟩
  · exact ⟨c!"t", c!"\"A\"", (hn _ (by simp)).keyTok, compact_strLit {} c!"A", .mk (l := []) (l' := []) .nil .nil⟩
  · exact ⟨c!"x", c!"x", c!"1", rfl, by decide, (hn _ (by simp)).keyTok, ⟨by simp [Number.Small, IntTy.bits], .int .u8 1, false,
      ⟨fun h => (by rcases h with h | h <;> cases h), by decide⟩, by decide +kernel, by decide +kernel⟩, .mk (l := []) (l' := []) .nil .nil⟩

example : let _ : Env := asciiEnv true true
    readCase c!"E (y:true,t:\"A\",x:1)" = .ok (.structVariant c!"E" c!"A" [(c!"x", .num (.int .u8 1)), (c!"y", .bool true)]) := by
  intro _
  have := C53_anywhere {} (fun _ => .unit) 8 c!"t" c!"E" c!"A" taggedCase _ _ [] [] [] {} 
    (.structVariant c!"E" c!"A" [(c!"x", .num (.int .u8 1)), (c!"y", .bool true)]) taggedCase_text rfl (by decide) (by decide +kernel)
    .nil .nil .nil rfl (fun m hm => by cases hm; decide)
  simpa [readCase] using this

example : let _ : Env := asciiEnv true true
    ∃ sp, readCase c!"(t:\"A\",x:1,t:\"A\")" = .error (.duplicateStructField c!"t" none, sp) := ⟨⟨⟨1, 12⟩, ⟨1, 13⟩⟩, by decide +kernel⟩

end Ron
