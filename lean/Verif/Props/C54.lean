import Verif.Lemmas.FlattenErr
import Verif.Lemmas.Witness
import Verif.Lemmas.Deq
/-! C54: structs with flattened fields.  Such a struct is a map with strings as keys; its entries may stand in any order, and what
`to_string` wrote is read back.  A plain field or a field of a flattened struct that is missing or repeated is an error.  Partial: for the
round trip the extension `unwrap_variant_newtypes` is excluded; so are data in flattened fields that do not survive serde's buffer (see C51),
data that use a key twice, and flattened fields after a flattened map. -/

set_option linter.unusedSectionVars false

namespace Ron

section
variable [Env]

/-- The entries of a struct with flattened fields may stand in any order, in any layout; entries that no field takes are ignored.  Only the
entries of a flattened map keep their order. -/
theorem C54_any_order (o : Options) (D : Nat → Ty) (n f : Nat) (name : Text) (fields : List (Text × FlatTy)) (fs : List (Text × SVal))
    (its ds : List (Text × FlatItem)) (extra : List (Text × Content)) (x : Exts) (sfx : Bool) (ts : List Text) (w hdr l l' : Text) (e : Exts)
    (hf : n ≤ f) (hH : FlatHas x D n fields fs its) (hb : FlatBuffers x fields fs)
    (hp : ds.Perm (its ++ extra.map fun e => (e.1, .buffered e.2)))
    (hn : (its.map Prod.fst).Nodup) (hex : ∀ e ∈ extra, e.1 ∉ its.map Prod.fst) (hm : MapLast fields) (hno : extra = [] ∨ NoMap fields)
    (hs : (mapItems x fields fs).Sublist ds) (hE : All2 (FlatText (e.union o.defaultExtensions) sfx) ts ds) (hD : Delim '{' '}' ts w)
    (hl : Layout l) (hl' : Layout l') (hh : Attrs hdr e) (hx : (e.union o.defaultExtensions).unwrapVariantNewtypes = false)
    (hk : ∀ m, o.recursionLimit = some m → flatLevels ds + 1 ≤ m) :
    fromStr o (deFlat D f name fields) (l ++ (hdr ++ (w ++ l'))) = .ok (.struct name fs) :=
  doc_reads (flat_anyOrder hx hf hH hb hp hn hex hm hno hs hE hD) hl hh rfl hk hl'

/-- What `to_string` wrote for a struct with flattened fields, inside arbitrary layout, is read back. -/
theorem C54_roundtrip_partial (o : Options) (D : Nat → Ty) (n f : Nat) (name : Text) (fields : List (Text × FlatTy)) (fs : List (Text × SVal))
    (its : List (Text × FlatItem)) (u : SVal) (t l l' : Text) (hf : n ≤ f) (hH : FlatHas o.defaultExtensions D n fields fs its)
    (hw : flatSer fields (.struct name fs) = some u) (ht : toText o none u = .ok t)
    (hu : o.defaultExtensions.unwrapVariantNewtypes = false) (hb : FlatBuffers o.defaultExtensions fields fs)
    (hn : (its.map Prod.fst).Nodup) (hm : MapLast fields) (hk : ∀ m, o.recursionLimit = some m → flatLevels its + 1 ≤ m)
    (hl : Layout l) (hl' : Layout l') :
    fromStr o (deFlat D f name fields) (l ++ (t ++ l')) = .ok (.struct name fs) := by
  rw [C52_text o u t ht]
  have hN := toText_named ht
  simp only [flatSer, Option.map_eq_some_iff] at hw
  obtain ⟨kvs, hw, rfl⟩ := hw
  simp only [SVal.Named] at hN
  have hx : ({} : Exts).union o.defaultExtensions = o.defaultExtensions := by simp [Exts.union]
  have hE := flat_compact hu fields fs its kvs hH hb hw hN
  have hD := (commas_delim '{' '}' (compactEntries o.defaultExtensions kvs)).delim
  have hc : compact o.defaultExtensions false 0 (.map none kvs) = '{' :: (commas (compactEntries o.defaultExtensions kvs) ++ ['}']) := by
    simp [compact]
  rw [hc]
  have hE' : All2 (FlatText (({} : Exts).union o.defaultExtensions) false) (compactEntries o.defaultExtensions kvs) its := by rw [hx]; exact hE
  have hu' : (({} : Exts).union o.defaultExtensions).unwrapVariantNewtypes = false := by rw [hx]; exact hu
  exact C54_any_order o D n f name fields fs its its [] o.defaultExtensions false _
    ('{' :: (commas (compactEntries o.defaultExtensions kvs) ++ ['}'])) [] l l' {} hf hH hb (by simp) hn (by simp) hm (.inl rfl)
    (flat_mapItems fields fs its hH) hE' hD hl hl' .nil hu' hk

/-- Every such struct is written, as a map: a plain field is an entry with its name, a field of a flattened struct an entry with the name of
that field, an entry of a flattened map is itself an entry. -/
theorem C54_written (x : Exts) (D : Nat → Ty) (n : Nat) (name : Text) : ∀ (fields : List (Text × FlatTy)) (fs : List (Text × SVal)) (its : List (Text × FlatItem)),
    FlatHas x D n fields fs its → ∃ kvs, flatSer fields (.struct name fs) = some (.map none kvs) ∧
      All2 (fun kv it => kv.1 = .str it.1 ∧ ((∃ T, it.2 = .typed T kv.2) ∨ it.2 = .buffered (kv.2.content x))) kvs its := by
  have buf : ∀ vs : List (Text × SVal), All2 (fun (kv : SVal × SVal) (it : Text × FlatItem) => kv.1 = .str it.1 ∧ ((∃ T, it.2 = .typed T kv.2) ∨
      it.2 = .buffered (kv.2.content x))) (vs.map fun e => (.str e.1, e.2)) (vs.map fun e => (e.1, .buffered (e.2.content x))) := by
    intro vs
    induction vs with
    | nil => trivial
    | cons v vs ih => exact ⟨⟨rfl, .inr rfl⟩, ih⟩
  have main : ∀ (fields : List (Text × FlatTy)) (fs : List (Text × SVal)) (its : List (Text × FlatItem)), FlatHas x D n fields fs its →
      ∃ kvs, flatEntries fields fs = some kvs ∧
        All2 (fun kv it => kv.1 = .str it.1 ∧ ((∃ T, it.2 = .typed T kv.2) ∨ it.2 = .buffered (kv.2.content x))) kvs its := by
    intro fields
    induction fields with
    | nil =>
      intro fs its h
      cases fs with
      | nil => simp only [FlatHas] at h; subst h; exact ⟨[], rfl, trivial⟩
      | cons => simp [FlatHas] at h
    | cons F fields ih =>
      intro fs its h
      obtain ⟨k, F⟩ := F
      cases fs with
      | nil => cases F <;> simp [FlatHas] at h
      | cons v fs =>
        obtain ⟨k', v⟩ := v
        cases F with
        | plain T =>
          simp only [FlatHas] at h
          obtain ⟨rfl, h1, r, rfl, h2⟩ := h
          obtain ⟨kvs, g1, g2⟩ := ih fs r h2
          exact ⟨(.str k, v) :: kvs, by simp only [flatEntries, g1, Option.map_some], ⟨rfl, .inl ⟨T, rfl⟩⟩, g2⟩
        | struct nm gs =>
          simp only [FlatHas] at h
          obtain ⟨rfl, vs, r, rfl, hg, hT, rfl, h2⟩ := h
          obtain ⟨kvs, g1, g2⟩ := ih fs r h2
          exact ⟨_, by simp only [flatEntries, g1, Option.map_some], (buf vs).append g2⟩
        | map K V =>
          simp only [FlatHas] at h
          obtain ⟨rfl, vs, r, rfl, hT, rfl, h2⟩ := h
          obtain ⟨kvs, g1, g2⟩ := ih fs r h2
          exact ⟨_, by simp only [flatEntries, g1, Option.map_some], (buf vs).append g2⟩
  intro fields fs its h
  obtain ⟨kvs, h1, h2⟩ := main fields fs its h
  exact ⟨kvs, by simp only [flatSer, h1, Option.map_some], h2⟩

/-- A plain field that is not optional and does not occur: the error names it (if it is the first such field). -/
theorem C54_missing (o : Options) (D : Nat → Ty) (n f : Nat) (name : Text) (fields : List (Text × FlatTy)) (ds : List (Text × FlatItem)) (sfx : Bool)
    (ts : List Text) (w hdr l r : Text) (e : Exts) (pre post : List (Text × Ty)) (k : Text) (T : Ty)
    (hf : n ≤ f) (hpl : flatPlain fields = pre ++ (k, T) :: post) (hfit : ∀ it ∈ ds, FlatFits D n (flatPlain fields) it) (hn : (ds.map Prod.fst).Nodup)
    (hpre : ∀ p ∈ pre, p.1 ∈ ds.map Prod.fst ∨ fieldOf D f p.2 = true) (hk0 : k ∉ ds.map Prod.fst) (hT : fieldOf D f T = false)
    (hE : All2 (FlatText (e.union o.defaultExtensions) sfx) ts ds) (hD : Delim '{' '}' ts w)
    (hl : Layout l) (hh : Attrs hdr e) (hx : (e.union o.defaultExtensions).unwrapVariantNewtypes = false)
    (hk : ∀ m, o.recursionLimit = some m → flatLevels ds + 1 ≤ m) :
    ∃ sp, fromStr o (deFlat D f name fields) (l ++ (hdr ++ (w ++ r))) = .error (.missingStructField k none, sp) := by
  have hkn := hn.sublist (flatTyped_keys ds)
  refine doc_fails (flat_failsAfter hx hf hE hD hfit hkn ?_) hl hh rfl hk
  have hsome : ∀ p ∈ flatPlain fields, p.1 ∈ ds.map Prod.fst → ((gotOf (flatTyped ds) fun _ => none) p.1).isSome := by
    intro p hp hm
    obtain ⟨⟨j, it⟩, hit, hj⟩ := List.mem_map.mp hm
    have hj : j = p.1 := hj
    rw [← hj]
    have h := hfit _ hit
    cases it with
    | buffered c => exact absurd (hj ▸ List.mem_map_of_mem (f := Prod.fst) hp) h
    | typed U v =>
      rw [gotOf_mem _ _ j v hkn (List.mem_map.mpr ⟨_, hit, rfl⟩)]
      rfl
  rw [hpl]
  have hmiss : (gotOf (flatTyped ds) fun _ => none) k = none := gotOf_not _ _ _ fun h => hk0 ((flatTyped_keys ds).subset h)
  have := collectFields_lacks (isOption := fieldOf D f) (post := post) hmiss hT pre fun p hp => by
    rcases hpre p hp with h | h
    · exact .inl (hsome p (by rw [hpl]; simp [hp]) h)
    · exact .inr h
  rw [this]
  rfl

/-- A plain field that occurs a second time: the error names it, whatever its value is there and whatever follows. -/
theorem C54_twice (o : Options) (D : Nat → Ty) (n f : Nat) (name : Text) (fields : List (Text × FlatTy)) (a b : List (Text × FlatItem)) (it : FlatItem) (sfx : Bool)
    (ts : List Text) (w hdr l r : Text) (e : Exts) (k : Text)
    (hf : n ≤ f) (hk0 : k ∈ (flatPlain fields).map Prod.fst) (hfit : ∀ it ∈ a, FlatFits D n (flatPlain fields) it) (hn : (a.map Prod.fst).Nodup)
    (hka : k ∈ a.map Prod.fst) (hE : All2 (FlatText (e.union o.defaultExtensions) sfx) ts (a ++ (k, it) :: b)) (hD : Delim '{' '}' ts w)
    (hl : Layout l) (hh : Attrs hdr e) (hx : (e.union o.defaultExtensions).unwrapVariantNewtypes = false)
    (hk : ∀ m, o.recursionLimit = some m → flatLevels a + 1 ≤ m) :
    ∃ sp, fromStr o (deFlat D f name fields) (l ++ (hdr ++ (w ++ r))) = .error (.duplicateStructField k none, sp) := by
  have hkn := hn.sublist (flatTyped_keys a)
  have hpos : 1 ≤ flatLevels a := by
    obtain ⟨i, hi, -⟩ := List.mem_map.mp hka
    have := flatLevels_mem i hi
    omega
  have hin : k ∈ keysOf (flatTyped a) := by
    obtain ⟨⟨j, it⟩, hit, rfl⟩ := List.mem_map.mp hka
    have h := hfit _ hit
    cases it with
    | buffered c => exact absurd hk0 h
    | typed U v => exact List.mem_map.mpr ⟨(j, v), List.mem_filterMap.mpr ⟨some (j, v), List.mem_map.mpr ⟨_, hit, rfl⟩, rfl⟩, rfl⟩
  refine doc_fails (k := flatLevels a - 1 + 2) (flat_fails hD (flat_foldFails hx hf hk0 a ts b _ _ hE hfit (fun i hi => by
    have := flatLevels_mem i hi; omega) hkn (fun _ _ => rfl) (.inr hin))) hl hh rfl fun m hm => ?_
  have := hk m hm
  omega

/-- If the struct is read at all, each field of a flattened struct stood there once, or it is optional and did not occur (unless an earlier
flattened struct has a field of that name, which then takes the entry). -/
theorem C54_inner_once (o : Options) (D : Nat → Ty) (n f : Nat) (name : Text) (pre post : List (Text × FlatTy)) (k nm : Text) (gs : List (Text × Ty))
    (ds : List (Text × FlatItem)) (sfx : Bool) (ts : List Text) (w hdr l r : Text) (e : Exts) (v : SVal) (j : Text) (T : Ty)
    (hf : n ≤ f) (hfit : ∀ it ∈ ds, FlatFits D n (flatPlain (pre ++ (k, .struct nm gs) :: post)) it)
    (htyp : (keysOf (flatTyped ds)).Nodup) (hj : (j, T) ∈ gs) (hpre : ∀ k' nm' gs', (k', .struct nm' gs') ∈ pre → j ∉ gs'.map Prod.fst)
    (hE : All2 (FlatText (e.union o.defaultExtensions) sfx) ts ds) (hD : Delim '{' '}' ts w)
    (hl : Layout l) (hh : Attrs hdr e) (hx : (e.union o.defaultExtensions).unwrapVariantNewtypes = false)
    (hk : ∀ m, o.recursionLimit = some m → flatLevels ds + 1 ≤ m)
    (hv : fromStr o (deFlat D f name (pre ++ (k, .struct nm gs) :: post)) (l ++ (hdr ++ (w ++ r))) = .ok v) :
    keyCount j (flatBufs ds) = 1 ∨ (fieldOf D f T = true ∧ keyCount j (flatBufs ds) = 0) := by
  cases hr : (do
      let ps ← collectFields (fieldOf D f) (gotOf (flatTyped ds) fun _ => none) (flatPlain (pre ++ (k, .struct nm gs) :: post))
      flatWalk D f (pre ++ (k, .struct nm gs) :: post) ps (flatRest ds) : Except Err _) with
  | error err =>
    obtain ⟨sp, h⟩ := doc_fails (l' := r) (flat_failsAfter (name := name) hx hf hE hD hfit htyp hr) hl hh rfl hk
    rw [h] at hv
    cases hv
  | ok fs =>
    cases hps : collectFields (fieldOf D f) (gotOf (flatTyped ds) fun _ => none) (flatPlain (pre ++ (k, .struct nm gs) :: post)) with
    | error err => rw [hps] at hr; cases hr
    | ok ps =>
      rw [hps] at hr
      have hw : flatWalk D f (pre ++ (k, .struct nm gs) :: post) ps (flatRest ds) = .ok fs := hr
      rw [flatRest_bufs] at hw
      exact flatWalk_once hj pre ps fs _ hpre hw

/-- Only a map is read as such a struct, not the syntax of structs. -/
theorem C54_struct_syntax (o : Options) (D : Nat → Ty) (f : Nat) (name : Text) (fields : List (Text × FlatTy)) (c : Char) (w hdr l : Text) (e : Exts)
    (hw : TokStart (c :: w)) (hc : c ≠ '{') (hl : Layout l) (hh : Attrs hdr e) :
    ∃ sp, fromStr o (deFlat D f name fields) (l ++ (hdr ++ (c :: w))) = .error (.expectedMap, sp) := by
  have hf : FailsAt (e.union o.defaultExtensions) 0 (deFlat D f name fields) (c :: w) .expectedMap := by
    refine ⟨hw, fun d r hp hd => ?_⟩
    have h : consumeChar '{' { d with nv := false } = .ok false { d with nv := false } := by
      refine consumeChar_false ?_
      show startsWith d.rest ['{'] = false
      rw [hd]
      simpa [startsWith, List.isPrefixOf] using Ne.symm hc
    unfold deFlat deMap
    simp only [bind_apply, setNv_apply, h, Bool.false_eq_true, ↓reduceIte]
    exact ⟨_, rfl⟩
  have := doc_fails (l' := []) hf hl hh rfl (fun _ _ => Nat.zero_le _)
  simpa using this

end

/-! ### What is not read back -/

/-- `struct S { a: u8, #[serde(flatten)] p: P, b: Option<bool>, #[serde(flatten)] m: BTreeMap<String, u8> }` with
`struct P { x: u8, y: bool }`. -/
def flatCase : List (Text × FlatTy) :=
  [(c!"a", .plain (.int .u8)), (c!"p", .struct c!"P" [(c!"x", .int .u8), (c!"y", .bool)]), (c!"b", .plain (.option .bool)),
    (c!"m", .map .str (.int .u8))]

/-- The same with the flattened map first. -/
def flatCase2 : List (Text × FlatTy) :=
  [(c!"m", .map .str (.int .u8)), (c!"p", .struct c!"P" [(c!"x", .int .u8)])]

/-- Reading it. -/
def readFlat [Env] (fields : List (Text × FlatTy)) (t : Text) : Spanned SVal := fromStr {} (deFlat (fun _ => .unit) 8 c!"S" fields) t

/-- What writing gives. -/
def writeFlat [Env] (fields : List (Text × FlatTy)) (fs : List (Text × SVal)) : Option (Except Err Text) :=
  (flatSer fields (.struct c!"S" fs)).map (toText {} none)

/-- A flattened map that stands before a flattened struct also gets the fields of that struct. -/
theorem C54_map_first_fails : let _ : Env := asciiEnv true true
    writeFlat flatCase2 [(c!"m", .map (some 0) []), (c!"p", .struct c!"P" [(c!"x", .num (.int .u8 1))])] = some (.ok c!"{\"x\":1}") ∧
    readFlat flatCase2 c!"{\"x\":1}" = .ok (.struct c!"S" [(c!"m", .map (some 1) [(.str c!"x", .num (.int .u8 1))]),
      (c!"p", .struct c!"P" [(c!"x", .num (.int .u8 1))])]) := by decide +kernel

/-- A flattened map may hold a key that is the name of a plain field: it is written and not read back.  If it is the name of a field of a
flattened struct, it is not read back either. -/
theorem C54_collision_fails : let _ : Env := asciiEnv true true
    let s (k : Text) : List (Text × SVal) := [(c!"a", .num (.int .u8 7)), (c!"p", .struct c!"P" [(c!"x", .num (.int .u8 1)), (c!"y", .bool true)]),
      (c!"b", .none), (c!"m", .map (some 1) [(.str k, .num (.int .u8 3))])]
    writeFlat flatCase (s c!"a") = some (.ok c!"{\"a\":7,\"x\":1,\"y\":true,\"b\":None,\"a\":3}") ∧
    readFlat flatCase c!"{\"a\":7,\"x\":1,\"y\":true,\"b\":None,\"a\":3}" = .error (.duplicateStructField c!"a" none, ⟨⟨1, 33⟩, ⟨1, 35⟩⟩) ∧
    writeFlat flatCase (s c!"x") = some (.ok c!"{\"a\":7,\"x\":1,\"y\":true,\"b\":None,\"x\":3}") ∧
    readFlat flatCase c!"{\"a\":7,\"x\":1,\"y\":true,\"b\":None,\"x\":3}" = .error (.duplicateStructField c!"x" none, ⟨⟨1, 37⟩, ⟨1, 37⟩⟩) := by
  decide +kernel

/-- A flattened map whose keys are not strings is written and not read back. -/
theorem C54_key_fails : let _ : Env := asciiEnv true true
    let fields : List (Text × FlatTy) := [(c!"m", .map (.int .u8) (.int .u8))]
    writeFlat fields [(c!"m", .map (some 1) [(.num (.int .u8 1), .num (.int .u8 2))])] = some (.ok c!"{1:2}") ∧
    readFlat fields c!"{1:2}" = .error (.expectedString, ⟨⟨1, 2⟩, ⟨1, 2⟩⟩) := by decide +kernel

/-- Keys have to be strings; the names of the fields, as structs have them everywhere else, are errors. -/
theorem C54_identifier_fails : let _ : Env := asciiEnv true true
    readFlat flatCase2 c!"{x:1}" = .error (.expectedString, ⟨⟨1, 2⟩, ⟨1, 2⟩⟩) ∧
    readFlat flatCase2 c!"(x:1)" = .error (.expectedMap, ⟨⟨1, 1⟩, ⟨1, 1⟩⟩) := by decide +kernel

/-- With `implicit_some` a plain field keeps `Some(())` and a field of a flattened struct loses it. -/
theorem C54_implicit_fails : let _ : Env := asciiEnv true true
    let o : Options := { defaultExtensions := ⟨false, true, false, false⟩ }
    let fields : List (Text × FlatTy) := [(c!"a", .plain (.option .unit)), (c!"p", .struct c!"P" [(c!"x", .option .unit)])]
    (flatSer fields (.struct c!"S" [(c!"a", .some .unit), (c!"p", .struct c!"P" [(c!"x", .some .unit)])])).map (toText o none) =
      some (.ok c!"{\"a\":(),\"x\":()}") ∧
    fromStr o (deFlat (fun _ => .unit) 8 c!"S" fields) c!"{\"a\":(),\"x\":()}" =
      .ok (.struct c!"S" [(c!"a", .some .unit), (c!"p", .struct c!"P" [(c!"x", .none)])]) := by decide +kernel

/-! ### The theorems apply -/

/-- Data of the struct above. -/
def flatData : List (Text × SVal) :=
  [(c!"a", .num (.int .u8 7)), (c!"p", .struct c!"P" [(c!"x", .num (.int .u8 1)), (c!"y", .bool true)]), (c!"b", .none),
    (c!"m", .map (some 1) [(.str c!"k", .num (.int .u8 3))])]

/-- The entries they amount to. -/
def flatItems : List (Text × FlatItem) :=
  [(c!"a", .typed (.int .u8) (.num (.int .u8 7))), (c!"x", .buffered (.num (.int .u8 1))), (c!"y", .buffered (.bool true)),
    (c!"b", .typed (.option .bool) .none), (c!"k", .buffered (.num (.int .u8 3)))]

theorem flatData_has : let _ : Env := asciiEnv true true
    FlatHas {} (fun _ => .unit) 8 flatCase flatData flatItems := by
  intro _
  have h8 : ∀ i : Int, IntTy.InRange .u8 i → HasTy (fun _ => .unit) 8 (.int .u8) (.num (.int .u8 i)) := fun i hi =>
    ⟨i, rfl, fun h => (by rcases h with h | h <;> cases h), hi⟩
  refine ⟨rfl, h8 7 (by decide), _, rfl, rfl, [(c!"x", .num (.int .u8 1)), (c!"y", .bool true)], _, rfl, by decide, ?_, rfl, rfl, ?_, _, rfl, rfl,
    [(c!"k", .num (.int .u8 3))], [], rfl, ?_, rfl, rfl⟩
  · exact ⟨⟨rfl, h8 1 (by decide)⟩, ⟨rfl, _, rfl⟩, trivial⟩
  · exact .inl rfl
  · intro e he
    simp only [List.mem_singleton] at he
    subst he
    exact ⟨⟨_, rfl⟩, h8 3 (by decide)⟩

theorem flatData_buffers : let _ : Env := asciiEnv true true
    FlatBuffers {} flatCase flatData := by
  simp [FlatBuffers, flatCase, flatData, BuffersFields, BuffersEntries, SVal.Buffers, Number.Small, Number.Keeps, IntTy.bits]

example : let _ : Env := asciiEnv true true
    readFlat flatCase c!" {\"a\":7,\"x\":1,\"y\":true,\"b\":None,\"k\":3} " = .ok (.struct c!"S" flatData) := by
  intro _
  refine C54_roundtrip_partial {} (fun _ => .unit) 8 8 c!"S" flatCase flatData flatItems
    _ c!"{\"a\":7,\"x\":1,\"y\":true,\"b\":None,\"k\":3}" [' '] [' '] (by decide) flatData_has rfl (by decide +kernel) rfl flatData_buffers
    (by decide) ?_ ?_ (.ws (by simp [ronWhitespace]) .nil) (.ws (by simp [ronWhitespace]) .nil)
  · simp [MapLast, flatCase]
  · intro m hm; cases hm; decide

/-- An entry that is not a number. -/
theorem flatText_case (k v : Text) (it : FlatItem) : let _ : Env := asciiEnv true true
    (match it with | .typed _ u => Rend {} false false u v | .buffered c => CText c v) →
    FlatText {} false (compact {} false 0 (.str k) ++ (':' :: v)) (k, it) := by
  intro _ h
  exact ⟨_, v, compact_strLit {} k, .mk (l := []) (l' := []) .nil .nil, h⟩

example : let _ : Env := asciiEnv true true
    readFlat flatCase c!"{\"y\":true,\"b\":None,\"k\":3,\"x\":1,\"a\":7}" = .ok (.struct c!"S" flatData) := by decide +kernel

/-- Entries in another order, one of them unknown; the struct has no flattened map. -/
example : let _ : Env := asciiEnv true true
    readFlat [(c!"a", .plain .bool), (c!"p", .struct c!"P" [(c!"x", .bool)])] c!"{\"x\":true,\"z\":false,\"a\":false}" =
      .ok (.struct c!"S" [(c!"a", .bool false), (c!"p", .struct c!"P" [(c!"x", .bool true)])]) := by
  intro _
  have := C54_any_order {} (fun _ => .unit) 8 8 c!"S" [(c!"a", .plain .bool), (c!"p", .struct c!"P" [(c!"x", .bool)])]
    [(c!"a", .bool false), (c!"p", .struct c!"P" [(c!"x", .bool true)])]
    [(c!"a", .typed .bool (.bool false)), (c!"x", .buffered (.bool true))]
    [(c!"x", .buffered (.bool true)), (c!"z", .buffered (.bool false)), (c!"a", .typed .bool (.bool false))]
    [(c!"z", .bool false)] {} false [c!"\"x\":true", c!"\"z\":false", c!"\"a\":false"] c!"{\"x\":true,\"z\":false,\"a\":false}" [] [] [] {}
    (by decide) ⟨rfl, ⟨_, rfl⟩, _, rfl, rfl, [(c!"x", .bool true)], [], rfl, by decide, ⟨⟨rfl, _, rfl⟩, trivial⟩, rfl, rfl⟩
    (by simp [FlatBuffers, BuffersFields, SVal.Buffers])
    (by exact ((List.Perm.swap _ _ _).trans (.cons _ (.swap _ _ _))).symm.trans (.refl _) |>.symm.symm)
    (by decide) (by simp) (by simp [MapLast]) (.inr (by simp [NoMap])) (by simp [mapItems])
    ⟨flatText_case c!"x" c!"true" _ ?_, flatText_case c!"z" c!"false" _ ?_, flatText_case c!"a" c!"false" _ ?_, trivial⟩
    (commas_delim '{' '}' [c!"\"x\":true", c!"\"z\":false", c!"\"a\":false"]).delim .nil .nil .nil rfl (fun m hm => by cases hm; decide)
  · simpa [readFlat] using this
  · trivial
  · trivial
  · trivial

/-- The plain field `a` is missing. -/
example : let _ : Env := asciiEnv true true
    ∃ sp, readFlat [(c!"a", .plain .bool), (c!"p", .struct c!"P" [(c!"x", .bool)])] c!"{\"x\":true}" = .error (.missingStructField c!"a" none, sp) := by
  intro _
  have := C54_missing {} (fun _ => .unit) 8 8 c!"S" [(c!"a", .plain .bool), (c!"p", .struct c!"P" [(c!"x", .bool)])]
    [(c!"x", .buffered (.bool true))] false [c!"\"x\":true"] c!"{\"x\":true}" [] [] [] {} [] [] c!"a" .bool (by decide) rfl
    (by simp [FlatFits, flatPlain]) (by decide) (by simp) (by decide) rfl ⟨flatText_case c!"x" c!"true" _ (by trivial), trivial⟩
    (commas_delim '{' '}' [c!"\"x\":true"]).delim .nil .nil rfl (fun m hm => by cases hm; decide)
  simpa [readFlat] using this

/-- The plain field `a` occurs twice. -/
example : let _ : Env := asciiEnv true true
    ∃ sp, readFlat [(c!"a", .plain .bool), (c!"p", .struct c!"P" [(c!"x", .bool)])] c!"{\"a\":false,\"x\":true,\"a\":false}" =
      .error (.duplicateStructField c!"a" none, sp) := by
  intro _
  have := C54_twice {} (fun _ => .unit) 8 8 c!"S" [(c!"a", .plain .bool), (c!"p", .struct c!"P" [(c!"x", .bool)])]
    [(c!"a", .typed .bool (.bool false)), (c!"x", .buffered (.bool true))] [] (.buffered (.bool false)) false
    [c!"\"a\":false", c!"\"x\":true", c!"\"a\":false"] c!"{\"a\":false,\"x\":true,\"a\":false}" [] [] [] {} c!"a" (by decide) (by simp [flatPlain])
    (by simp [FlatFits, flatPlain, HasTy]) (by decide) (by simp)
    ⟨flatText_case c!"a" c!"false" _ rfl, flatText_case c!"x" c!"true" _ (by trivial), flatText_case c!"a" c!"false" _ (by trivial), trivial⟩
    (commas_delim '{' '}' [c!"\"a\":false", c!"\"x\":true", c!"\"a\":false"]).delim .nil .nil rfl (fun m hm => by cases hm; decide)
  simpa [readFlat] using this

/-- A field of a flattened struct occurs twice: it is not read. -/
example : let _ : Env := asciiEnv true true
    ∀ v, readFlat [(c!"p", .struct c!"P" [(c!"x", .bool)])] c!"{\"x\":true,\"x\":true}" ≠ .ok v := by
  intro _ v hv
  have hx : FlatText {} false c!"\"x\":true" (c!"x", .buffered (.bool true)) := flatText_case c!"x" c!"true" (.buffered (.bool true)) rfl
  have := C54_inner_once {} (fun _ => .unit) 8 8 c!"S" [] [] c!"p" c!"P" [(c!"x", .bool)]
    [(c!"x", .buffered (.bool true)), (c!"x", .buffered (.bool true))] false
    [c!"\"x\":true", c!"\"x\":true"] c!"{\"x\":true,\"x\":true}" [] [] [] {} v c!"x" .bool (by decide)
    (by simp [FlatFits, flatPlain]) (by decide) (by simp) (by simp)
    ⟨hx, hx, trivial⟩
    (commas_delim '{' '}' [c!"\"x\":true", c!"\"x\":true"]).delim .nil .nil rfl (fun m hm => by cases hm; decide) (by simpa [readFlat] using hv)
  simp [keyCount, flatBufs] at this

end Ron
