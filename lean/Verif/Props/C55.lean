import Verif.Lemmas.AdjacentErr
import Verif.Lemmas.FlattenErr
import Verif.Lemmas.Witness
import Verif.Lemmas.Deq
/-! C55: adjacently tagged enums.  Such an enum is a struct with a field for the name of the variant and one for its content, in this order or
the other, with unknown fields between them; what was written with any options and any pretty configuration is read back.  A field that is
missing or repeated or that names no variant is an error that says so.  The content of a struct variant may be a map whose keys are strings,
with the same errors.  Partial: struct variants without fields are not read back; struct
variants called like a range of std are excluded; if the content comes first, so are data that do not survive serde's buffer (see C51). -/

set_option linter.unusedSectionVars false

namespace Ron

section
variable [Env]

/-- The tag, and then the content: fields with other names may stand anywhere. -/
theorem C55_tag_first (o : Options) (D : Nat → Ty) (n f : Nat) (tag content name : Text) (variants : List (Text × Variant)) (v : SVal)
    (id : Text) (c : Option SVal) (its : List AdjItem) (sfx : Bool) (ts : List Text) (p w hdr l l' : Text) (e : Exts)
    (hne : tag ≠ content) (hf : n ≤ f) (hT : HasTy D n (.enum name variants) v) (ht : AdjTold v) (hc : adjParts v = some (id, c))
    (hits : its.filter AdjItem.known = .tag id :: c.toList.map .typed) (hp : OptName (e.union o.defaultExtensions) name p)
    (hE : All2 (AdjText (e.union o.defaultExtensions) sfx tag content) ts its) (hD : Delim '(' ')' ts w)
    (hl : Layout l) (hl' : Layout l') (hh : Attrs hdr e) (hk : ∀ m, o.recursionLimit = some m → adjLevels its + 1 ≤ m) :
    fromStr o (deAdjacent D f tag content name variants) (l ++ (hdr ++ ((p ++ w) ++ l'))) = .ok v := by
  obtain ⟨st, h1, h2, -⟩ := adj_run (tag := tag) (content := content) hf hT ht hc hits
  exact doc_reads (adj_reads hne hp hE hD h1 h2) hl hh rfl hk hl'

/-- The content, and then the tag. -/
theorem C55_content_first (o : Options) (D : Nat → Ty) (n f : Nat) (tag content name : Text) (variants : List (Text × Variant)) (v : SVal)
    (id : Text) (c : SVal) (its : List AdjItem) (sfx : Bool) (x : Exts) (ts : List Text) (p w hdr l l' : Text) (e : Exts)
    (hne : tag ≠ content) (hf : n ≤ f) (hT : HasTy D n (.enum name variants) v) (hc : adjParts v = some (id, some c)) (hb : c.Buffers x)
    (hits : its.filter AdjItem.known = [.buffered (c.content x), .tag id]) (hp : OptName (e.union o.defaultExtensions) name p)
    (hE : All2 (AdjText (e.union o.defaultExtensions) sfx tag content) ts its) (hD : Delim '(' ')' ts w)
    (hl : Layout l) (hl' : Layout l') (hh : Attrs hdr e) (hk : ∀ m, o.recursionLimit = some m → adjLevels its + 1 ≤ m) :
    fromStr o (deAdjacent D f tag content name variants) (l ++ (hdr ++ ((p ++ w) ++ l'))) = .ok v :=
  doc_reads (adj_reads hne hp hE hD (adj_runBuffered (tag := tag) (content := content) hf hT hc hb hits) rfl) hl hh rfl hk hl'

/-- What was written for an adjacently tagged enum, inside arbitrary layout, is read back. -/
theorem C55_partial (o : Options) (cfg : Option PrettyConfig) (D : Nat → Ty) (n f : Nat) (tag content name : Text) (variants : List (Text × Variant))
    (v u : SVal) (t l l' : Text) (hne : tag ≠ content) (hf : n ≤ f) (hT : HasTy D n (.enum name variants) v) (ht : AdjTold v)
    (hw : adjSer tag content v = some u) (hu : u.Clean (rgOf o cfg) (wxOf o cfg)) (hk : ∀ m, o.recursionLimit = some m → u.cost ≤ m)
    (h : toText o cfg u = .ok t) (hl : Layout l) (hl' : Layout l') :
    fromStr o (deAdjacent D f tag content name variants) (l ++ (t ++ l')) = .ok v := by
  obtain ⟨hdr, w, e, rfl, hh, hx, hr⟩ := toText_rend hu h
  obtain ⟨nm, id, c, hc, rfl, hnm⟩ := adj_ser hw
  obtain rfl := hnm _ _ _ _ hT
  simp only [Rend, Bool.false_eq_true, ↓reduceIte] at hr
  rcases hr with ⟨es, h1, p, q, h3, h2, rfl⟩ | ⟨es, h1, -⟩
  · have hE : All2 (AdjText (extsOf o cfg) (sfxOf cfg) tag content) es (.tag id :: c.toList.map .typed) := by
      cases es with
      | nil => exact h1.elim
      | cons e1 es =>
        obtain ⟨⟨kt, vt, g1, g2, g3⟩, h1⟩ := h1
        simp only [Rend] at g2
        refine ⟨⟨kt, vt, g1, g2, g3⟩, ?_⟩
        cases c with
        | none => cases es with
          | nil => trivial
          | cons => exact h1.elim
        | some c =>
          cases es with
          | nil => exact h1.elim
          | cons e2 es =>
            refine ⟨h1.1, ?_⟩
            cases es with
            | nil => trivial
            | cons => exact h1.2.elim
    have hcost : adjLevels (.tag id :: c.toList.map .typed) + 1 = (SVal.struct name ((tag, .unitVariant name id) :: c.toList.map fun w => (content, w))).cost := by
      cases c <;> simp [adjLevels, AdjItem.levels, SVal.cost, costFields]
    have := C55_tag_first o D n f tag content name variants v id c (.tag id :: c.toList.map .typed) (sfxOf cfg) es p q hdr l l' e hne hf hT ht hc
      (by cases c <;> simp [AdjItem.known]) (by rw [hx]; exact h3) (by rw [hx]; exact hE) h2 hl hl' hh (by rw [hcost]; exact hk)
    simpa using this
  · cases es with
    | nil => cases h1
    | cons e1 es => simp at h1

/-- Without compact ranges and with at most one of the two extensions every value is written and read back. -/
theorem C55_roundtrip_partial (o : Options) (cfg : Option PrettyConfig) (D : Nat → Ty) (n f : Nat) (tag content name : Text)
    (variants : List (Text × Variant)) (v : SVal) (hne : tag ≠ content) (hf : n ≤ f) (hT : HasTy D n (.enum name variants) v) (ht : AdjTold v)
    (hb : ∀ c, cfg = some c → c.Blank ∧ c.compactRanges = false) (hr : RawName tag ∧ RawName content)
    (hx : (extsOf o cfg).implicitSome = true → (extsOf o cfg).unwrapVariantNewtypes = false) (hn : v.Named)
    (hk : ∀ m, o.recursionLimit = some m → v.cost + 4 ≤ m) :
    ∃ u t, adjSer tag content v = some u ∧ toText o cfg u = .ok t ∧
      ∀ l l', Layout l → Layout l' → fromStr o (deAdjacent D f tag content name variants) (l ++ (t ++ l')) = .ok v := by
  have hu : ∃ u, adjSer tag content v = some u ∧ u.Named ∧ u.Clean .structs false ∧ u.cost ≤ v.cost + 4 := by
    have hcl := HasTy.clean D n _ v hT
    cases n with
    | zero => exact hT.elim
    | succ n =>
      obtain ⟨id, kd, -, -, h⟩ := hT
      cases kd with
      | unit =>
        cases h
        simp only [SVal.Named] at hn
        exact ⟨_, rfl, by simp [SVal.Named, NamedFields, hn, hr], by simp [SVal.Clean, CleanFields], by simp [SVal.cost, costFields]⟩
      | newtype T =>
        obtain ⟨u, rfl, h⟩ := h
        simp only [SVal.Named] at hn
        simp only [SVal.Clean] at hcl
        exact ⟨_, rfl, by simp [SVal.Named, NamedFields, hn, hr], by simpa [SVal.Clean, CleanFields] using hcl.2,
          by simp only [SVal.cost, costFields]; omega⟩
      | tuple Ts =>
        obtain ⟨vs, rfl, h⟩ := h
        simp only [SVal.Named] at hn
        simp only [SVal.Clean] at hcl
        exact ⟨_, rfl, by simp [SVal.Named, NamedFields, hn, hr], by simpa [SVal.Clean, CleanFields] using hcl,
          by simp only [SVal.cost, costFields]; omega⟩
      | struct deny fields =>
        obtain ⟨vs, rfl, -, h⟩ := h
        simp only [SVal.Named] at hn
        simp only [SVal.Clean] at hcl
        exact ⟨_, rfl, by simp [SVal.Named, NamedFields, hn, hr], by simpa [SVal.Clean, CleanFields] using hcl,
          by simp only [SVal.cost, costFields]; omega⟩
  obtain ⟨u, h1, h2, h3, h4⟩ := hu
  obtain ⟨t, h5⟩ := toText_goes (o := o) (cfg := cfg) (fun c h => (hb c h).1) h2
    (fun m hm => Nat.le_trans (nesting_le_cost u h3) (Nat.le_trans h4 (hk m hm)))
  refine ⟨u, t, h1, h5, fun l l' hl hl' => C55_partial o cfg D n f tag content name variants v u t l l' hne hf hT ht h1 ?_
    (fun m hm => Nat.le_trans h4 (hk m hm)) h5 hl hl'⟩
  have e1 : crOf cfg = false := by
    cases cfg with
    | none => rfl
    | some c => exact (hb c rfl).2
  have e2 : wxOf o cfg = false := by
    unfold wxOf
    cases hi : (extsOf o cfg).implicitSome with
    | false => rfl
    | true => rw [hx hi]; rfl
  rw [rgOf_structs e1, e2]
  exact h3

/-- The text that `to_string` writes if the content is moved before the tag is read as the same value. -/
theorem C55_swapped (o : Options) (D : Nat → Ty) (n f : Nat) (tag content name : Text) (variants : List (Text × Variant)) (v c : SVal) (id l l' : Text)
    (hne : tag ≠ content) (hf : n ≤ f) (hT : HasTy D n (.enum name variants) v) (hc : adjParts v = some (id, some c))
    (hb : c.Buffers o.defaultExtensions) (hn : v.Named) (hr : RawName tag ∧ RawName content)
    (hu : o.defaultExtensions.unwrapVariantNewtypes = false) (hk : ∀ m, o.recursionLimit = some m → max (c.content o.defaultExtensions).levels 2 + 2 ≤ m)
    (hl : Layout l) (hl' : Layout l') :
    fromStr o (deAdjacent D f tag content name variants)
      (l ++ (compact o.defaultExtensions false 0 (.struct name [(content, c), (tag, .unitVariant name id)]) ++ l')) = .ok v := by
  have hx : ({} : Exts).union o.defaultExtensions = o.defaultExtensions := by simp [Exts.union]
  have hct : RawName id ∧ CText (c.content o.defaultExtensions) (compact o.defaultExtensions false 0 c) ∧ RawName name := by
    cases n with
    | zero => exact hT.elim
    | succ n =>
      obtain ⟨id', kd, -, -, h⟩ := hT
      cases kd with
      | unit => cases h; cases hc
      | newtype T =>
        obtain ⟨u, rfl, h⟩ := h
        cases hc
        simp only [SVal.Named] at hn
        exact ⟨hn.2.1, compact_ctext D hu n T _ h hb hn.2.2, hn.1⟩
      | tuple Ts =>
        obtain ⟨vs, rfl, h⟩ := h
        cases hc
        simp only [SVal.Named] at hn
        exact ⟨hn.2.1, compact_ctext D hu (n + 1) (.tuple Ts) _ ⟨vs, rfl, h⟩ hb (by simp only [SVal.Named]; exact hn.2.2), hn.1⟩
      | struct deny fields =>
        obtain ⟨fs, rfl, hnd, h⟩ := h
        cases hc
        simp only [SVal.Named] at hn
        exact ⟨hn.2.1, compact_ctext D hu (n + 1) (.struct _ deny fields) _ ⟨fs, rfl, hnd, h⟩ hb (by simp only [SVal.Named]; exact hn.2), hn.1⟩
  have hE : All2 (AdjText (({} : Exts).union o.defaultExtensions) false tag content)
      (compactFields o.defaultExtensions [(content, c), (tag, .unitVariant name id)]) [.buffered (c.content o.defaultExtensions), .tag id] := by
    rw [hx]
    simp only [compactFields]
    exact ⟨⟨hu, _, _, compactName_tok hr.2, hct.2.1, (BEntry.mk blank_nil blank_nil).entry⟩,
      ⟨_, _, compactName_tok hr.1, compactName_tok hct.1, (BEntry.mk blank_nil blank_nil).entry⟩, trivial⟩
  have hD := (commas_delim '(' ')' (compactFields o.defaultExtensions [(content, c), (tag, .unitVariant name id)])).delim
  have hname : ∃ p, OptName (({} : Exts).union o.defaultExtensions) name p ∧
      compact o.defaultExtensions false 0 (.struct name [(content, c), (tag, .unitVariant name id)]) =
        p ++ ('(' :: (commas (compactFields o.defaultExtensions [(content, c), (tag, .unitVariant name id)]) ++ [')'])) := by
    rw [hx]
    cases hs : o.defaultExtensions.explicitStructNames with
    | false => exact ⟨[], .inl ⟨hs, rfl⟩, by simp [compact, hs]⟩
    | true => exact ⟨compactName name, .inr ⟨compactName name, [], compactName_tok hct.2.2, .nil, by simp⟩, by simp [compact, hs]⟩
  obtain ⟨p, hp, hcp⟩ := hname
  have := C55_content_first o D n f tag content name variants v id c [.buffered (c.content o.defaultExtensions), .tag id] false o.defaultExtensions _
    p _ [] l l' {} hne hf hT hc hb rfl hp hE hD hl hl' .nil (by
      intro m hm
      have := hk m hm
      simp only [adjLevels, AdjItem.levels]
      omega)
  rw [hcp]
  simpa using this

/-! ### Errors -/

/-- A document whose struct is an error. -/
theorem adj_doc {x : Exts} {k : Nat} {D : Nat → Ty} {f : Nat} {tag content name : Text} {variants : List (Text × Variant)} {p u : Text} {err : Err}
    (hp : OptName x name p) (hv : ∀ d, Pre x k d → d.rest = u → ∃ s', adjVisit D f tag content name variants d = .err err s')
    {o : Options} {l hdr : Text} {e : Exts} (hl : Layout l) (hh : Attrs hdr e) (hx : e.union o.defaultExtensions = x)
    (hk : ∀ m, o.recursionLimit = some m → k + 1 ≤ m) :
    ∃ sp, fromStr o (deAdjacent D f tag content name variants) (l ++ (hdr ++ (p ++ '(' :: u))) = .error (structErrorName (nameIfAny name) err, sp) :=
  doc_err (hp.tokStart _) (fun _ hpre hd => deAdjacent_fails hp hv hpre hd) hl hh hx hk

/-- No tag: the error names the field, whether there is content or not. -/
theorem C55_missing_tag (o : Options) (D : Nat → Ty) (f : Nat) (tag content name : Text) (variants : List (Text × Variant))
    (its : List AdjItem) (sfx : Bool) (ts : List Text) (p w hdr l r : Text) (e : Exts) (hne : tag ≠ content)
    (hits : its.filter AdjItem.known = [] ∨ ∃ c, its.filter AdjItem.known = [.buffered c]) (hp : OptName (e.union o.defaultExtensions) name p)
    (hE : All2 (AdjText (e.union o.defaultExtensions) sfx tag content) ts its) (hD : Delim '(' ')' ts ('(' :: w))
    (hl : Layout l) (hh : Attrs hdr e) (hk : ∀ m, o.recursionLimit = some m → adjLevels its + 1 ≤ m) :
    ∃ sp, fromStr o (deAdjacent D f tag content name variants) (l ++ (hdr ++ (p ++ '(' :: (w ++ r)))) =
      .error (.missingStructField tag (if name.isEmpty then none else some name), sp) := by
  have hrun : ∃ st, AdjRun D f name variants its .start st ∧ adjEnd D f name tag content st = .error (.missingStructField tag none) := by
    rcases hits with h | ⟨c, h⟩
    · exact ⟨.start, adjRun_known (by rw [h]; rfl), rfl⟩
    · exact ⟨.content c, adjRun_known (by rw [h]; exact ⟨.content c, rfl, rfl⟩), rfl⟩
  obtain ⟨st, h1, h2⟩ := hrun
  exact adj_doc hp (fun d hpre hd => adj_failsAfter hne hE hD h1 h2 r hpre hd) hl hh rfl hk

/-- No content for a variant that has some: the error names the field. -/
theorem C55_missing_content (o : Options) (D : Nat → Ty) (f : Nat) (tag content name : Text) (variants : List (Text × Variant)) (id : Text) (kd : Variant)
    (its : List AdjItem) (sfx : Bool) (ts : List Text) (p w hdr l r : Text) (e : Exts) (hne : tag ≠ content)
    (hm : (id, kd) ∈ variants) (hnd : (variants.map Prod.fst).Nodup) (hu : kd ≠ .unit) (ho : ∀ T, kd = .newtype T → fieldOf D f T = false)
    (hits : its.filter AdjItem.known = [.tag id]) (hp : OptName (e.union o.defaultExtensions) name p)
    (hE : All2 (AdjText (e.union o.defaultExtensions) sfx tag content) ts its) (hD : Delim '(' ')' ts ('(' :: w))
    (hl : Layout l) (hh : Attrs hdr e) (hk : ∀ m, o.recursionLimit = some m → adjLevels its + 1 ≤ m) :
    ∃ sp, fromStr o (deAdjacent D f tag content name variants) (l ++ (hdr ++ (p ++ '(' :: (w ++ r)))) =
      .error (.missingStructField content (if name.isEmpty then none else some name), sp) := by
  have h1 : AdjRun D f name variants its .start (.tag id kd) :=
    adjRun_known (by rw [hits]; exact ⟨.tag id _, ⟨rfl, find_nodup hm hnd⟩, rfl⟩)
  have h2 : adjEnd D f name tag content (.tag id kd) = .error (.missingStructField content none) := by
    cases kd with
    | unit => exact absurd rfl hu
    | newtype T => simp [adjEnd, adjEmpty, ho T rfl]
    | tuple => rfl
    | struct => rfl
  exact adj_doc hp (fun d hpre hd => adj_failsAfter hne hE hD h1 h2 r hpre hd) hl hh rfl hk

/-- No content for a newtype variant of an option: it is `None`. -/
theorem C55_absent_option (o : Options) (D : Nat → Ty) (f : Nat) (tag content name : Text) (variants : List (Text × Variant)) (id : Text) (T : Ty)
    (its : List AdjItem) (sfx : Bool) (ts : List Text) (p w hdr l l' : Text) (e : Exts) (hne : tag ≠ content)
    (hm : (id, .newtype (.option T)) ∈ variants) (hnd : (variants.map Prod.fst).Nodup) (hf : 1 ≤ f)
    (hits : its.filter AdjItem.known = [.tag id]) (hp : OptName (e.union o.defaultExtensions) name p)
    (hE : All2 (AdjText (e.union o.defaultExtensions) sfx tag content) ts its) (hD : Delim '(' ')' ts w)
    (hl : Layout l) (hl' : Layout l') (hh : Attrs hdr e) (hk : ∀ m, o.recursionLimit = some m → adjLevels its + 1 ≤ m) :
    fromStr o (deAdjacent D f tag content name variants) (l ++ (hdr ++ ((p ++ w) ++ l'))) = .ok (.newtypeVariant name id .none) := by
  have h1 : AdjRun D f name variants its .start (.tag id (.newtype (.option T))) :=
    adjRun_known (by rw [hits]; exact ⟨.tag id _, ⟨rfl, find_nodup hm hnd⟩, rfl⟩)
  obtain ⟨f, rfl⟩ : ∃ g, f = g + 1 := ⟨f - 1, by omega⟩
  exact doc_reads (adj_reads (v := .newtypeVariant name id .none) hne hp hE hD h1 (by simp [adjEnd, adjEmpty, fieldOf])) hl hh rfl hk hl'

/-- A second tag: the error names the field, whatever follows. -/
theorem C55_tag_twice (o : Options) (D : Nat → Ty) (n f : Nat) (tag content name : Text) (variants : List (Text × Variant)) (v : SVal)
    (id : Text) (c : Option SVal) (its : List AdjItem) (sfx : Bool) (ts : List Text) (p w hdr l kt a z : Text) (e : Exts)
    (hne : tag ≠ content) (hf : n ≤ f) (hT : HasTy D n (.enum name variants) v) (ht : AdjTold v) (hc : adjParts v = some (id, c))
    (hits : its.filter AdjItem.known = .tag id :: c.toList.map .typed) (hp : OptName (e.union o.defaultExtensions) name p)
    (hE : All2 (AdjText (e.union o.defaultExtensions) sfx tag content) ts its) (hw : Before ts w) (hkt : NameTok tag kt) (ha : Layout a)
    (hl : Layout l) (hh : Attrs hdr e) (hk : ∀ m, o.recursionLimit = some m → adjLevels its + 2 ≤ m) :
    ∃ sp, fromStr o (deAdjacent D f tag content name variants) (l ++ (hdr ++ (p ++ '(' :: (w ++ (kt ++ (a ++ ':' :: z)))))) =
      .error (.duplicateStructField tag (if name.isEmpty then none else some name), sp) := by
  obtain ⟨st, h1, -, h2⟩ := adj_run (tag := tag) (content := content) hf hT ht hc hits
  refine adj_doc hp (fun d hpre hd => adj_failsTwice hne hE hw h1 hkt ha (e := .duplicateStructField tag none) ?_ hpre hd) hl hh rfl hk
  rw [if_pos rfl]
  rcases h2 with ⟨-, kd, rfl⟩ | ⟨-, rfl⟩ <;> rfl

/-- A second content, after the tag or before it: the error names the field, whatever follows. -/
theorem C55_content_twice (o : Options) (D : Nat → Ty) (n f : Nat) (tag content name : Text) (variants : List (Text × Variant)) (v : SVal)
    (id : Text) (c : SVal) (its : List AdjItem) (sfx : Bool) (ts : List Text) (p w hdr l kt a z : Text) (e : Exts)
    (hne : tag ≠ content) (hf : n ≤ f) (hT : HasTy D n (.enum name variants) v) (ht : AdjTold v) (hc : adjParts v = some (id, some c))
    (hits : its.filter AdjItem.known = [.tag id, .typed c] ∨ ∃ b, its.filter AdjItem.known = [.buffered b])
    (hp : OptName (e.union o.defaultExtensions) name p)
    (hE : All2 (AdjText (e.union o.defaultExtensions) sfx tag content) ts its) (hw : Before ts w) (hkt : NameTok content kt) (ha : Layout a)
    (hl : Layout l) (hh : Attrs hdr e) (hk : ∀ m, o.recursionLimit = some m → adjLevels its + 2 ≤ m) :
    ∃ sp, fromStr o (deAdjacent D f tag content name variants) (l ++ (hdr ++ (p ++ '(' :: (w ++ (kt ++ (a ++ ':' :: z)))))) =
      .error (.duplicateStructField content (if name.isEmpty then none else some name), sp) := by
  have h1 : ∃ st, AdjRun D f name variants its .start st ∧ (st = .done v ∨ ∃ b, st = .content b) := by
    rcases hits with h | ⟨b, h⟩
    · obtain ⟨st, h1, -, ⟨h2, -⟩ | ⟨-, h2⟩⟩ := adj_run (tag := tag) (content := content) hf hT ht hc h
      · cases h2
      · exact ⟨st, h1, .inl h2⟩
    · exact ⟨.content b, adjRun_known (by rw [h]; exact ⟨.content b, rfl, rfl⟩), .inr ⟨b, rfl⟩⟩
  obtain ⟨st, h1, h2⟩ := h1
  refine adj_doc hp (fun d hpre hd => adj_failsTwice hne hE hw h1 hkt ha (e := .duplicateStructField content none) ?_ hpre hd) hl hh rfl hk
  rw [if_neg (Ne.symm hne), if_pos rfl]
  rcases h2 with rfl | ⟨b, rfl⟩ <;> rfl

/-- A tag that does not name a variant, before the content or after it: the error lists the variants, whatever follows. -/
theorem C55_unknown (o : Options) (D : Nat → Ty) (f : Nat) (tag content name : Text) (variants : List (Text × Variant))
    (id : Text) (its : List AdjItem) (sfx : Bool) (ts : List Text) (p w hdr l kt a b it z : Text) (e : Exts)
    (hne : tag ≠ content) (hid : id ∉ variants.map Prod.fst)
    (hits : its.filter AdjItem.known = [] ∨ ∃ c, its.filter AdjItem.known = [.buffered c]) (hp : OptName (e.union o.defaultExtensions) name p)
    (hE : All2 (AdjText (e.union o.defaultExtensions) sfx tag content) ts its) (hw : Before ts w) (hkt : NameTok tag kt) (ha : Layout a) (hb : Layout b)
    (hit : NameTok id it) (hz : IdentFollow z)
    (hl : Layout l) (hh : Attrs hdr e) (hk : ∀ m, o.recursionLimit = some m → max (adjLevels its) 2 + 2 ≤ m) :
    ∃ sp, fromStr o (deAdjacent D f tag content name variants) (l ++ (hdr ++ (p ++ '(' :: (w ++ (kt ++ (a ++ ':' :: (b ++ (it ++ z)))))))) =
      .error (.noSuchEnumVariant (variants.map Prod.fst) id (if name.isEmpty then none else some name), sp) := by
  have hrun : ∃ st, AdjRun D f name variants its .start st ∧ (st = .start ∨ ∃ c, st = .content c) := by
    rcases hits with h | ⟨c, h⟩
    · exact ⟨.start, adjRun_known (by rw [h]; rfl), .inl rfl⟩
    · exact ⟨.content c, adjRun_known (by rw [h]; exact ⟨.content c, rfl, rfl⟩), .inr ⟨c, rfl⟩⟩
  obtain ⟨st, h1, h2⟩ := hrun
  exact adj_doc hp (fun d hpre hd => adj_failsUnknown hne hE hw h1 hkt ha hb h2 hid hit hz hpre hd) hl hh rfl hk

/-! ### A map that stands for a struct -/

/-- The content of a struct variant may be written as a map whose keys are strings: in any order, without optional fields, and with other
keys unless they are denied. -/
theorem C55_fields_as_map (o : Options) (D : Nat → Ty) (n f : Nat) (tag content name : Text) (variants : List (Text × Variant))
    (id : Text) (deny : Bool) (fields : List (Text × Ty)) (fs : List (Text × SVal)) (is : List StrItem)
    (its : List AdjItem) (sfx : Bool) (ts : List Text) (p w hdr l l' : Text) (e : Exts)
    (hne : tag ≠ content) (hf : n ≤ f) (hf1 : 1 ≤ f) (hm : (id, .struct deny fields) ∈ variants) (hnv : (variants.map Prod.fst).Nodup)
    (hnd : (fields.map Prod.fst).Nodup) (hi : StrFits D n deny fields is) (hn : ((strFields is).map Prod.fst).Nodup)
    (hfs : All2 (fun F c => F.1 = c.1 ∧ (c ∈ strFields is ∨ F.1 ∉ (strFields is).map Prod.fst ∧ (∃ T, F.2 = .option T) ∧ c.2 = .none)) fields fs)
    (hits : its.filter AdjItem.known = [.tag id, .mapped is]) (hp : OptName (e.union o.defaultExtensions) name p)
    (hE : All2 (AdjText (e.union o.defaultExtensions) sfx tag content) ts its) (hD : Delim '(' ')' ts w)
    (hl : Layout l) (hl' : Layout l') (hh : Attrs hdr e) (hk : ∀ m, o.recursionLimit = some m → adjLevels its + 1 ≤ m) :
    fromStr o (deAdjacent D f tag content name variants) (l ++ (hdr ++ ((p ++ w) ++ l'))) = .ok (.structVariant name id fs) := by
  have hc : collectFields (fieldOf D f) (gotOf (strGot is) fun _ => none) fields = .ok fs := by
    refine collectFields_ok (hfs.imp fun F c h => ⟨h.1, ?_⟩)
    rcases h.2 with h2 | ⟨h2, ⟨T, h3⟩, h4⟩
    · refine .inl (gotOf_mem _ _ _ _ (by rw [strGot_keys]; exact hn) ?_)
      rw [h.1]
      exact strGot_mem h2
    · refine .inr ⟨gotOf_not _ _ _ (by rw [strGot_keys]; exact h2), ?_, h4⟩
      obtain ⟨g, rfl⟩ : ∃ g, f = g + 1 := ⟨f - 1, by omega⟩
      rw [h3]
      rfl
  have h1 : AdjRun D f name variants its .start (.done (.structVariant name id fs)) :=
    adjRun_known (by
      rw [hits]
      exact ⟨.tag id _, ⟨rfl, find_nodup hm hnv⟩, .done _, ⟨n, deny, fields, fs, hf, rfl, rfl, hnd, hi, hn, hc⟩, rfl⟩)
  exact doc_reads (adj_reads hne hp hE hD h1 rfl) hl hh rfl hk hl'

/-- Such a map lacks a field: the error names the first of those, as if it were a field of the enum. -/
theorem C55_map_missing (o : Options) (D : Nat → Ty) (n f : Nat) (tag content name : Text) (variants : List (Text × Variant))
    (id : Text) (deny : Bool) (pre post : List (Text × Ty)) (k : Text) (T : Ty) (is : List StrItem)
    (its : List AdjItem) (sfx : Bool) (ts us : List Text) (p w hdr l kt a b vt z : Text) (e : Exts)
    (hne : tag ≠ content) (hf : n ≤ f) (hm : (id, .struct deny (pre ++ (k, T) :: post)) ∈ variants) (hnv : (variants.map Prod.fst).Nodup)
    (hnd : ((pre ++ (k, T) :: post).map Prod.fst).Nodup) (hi : StrFits D n deny (pre ++ (k, T) :: post) is)
    (hn : ((strFields is).map Prod.fst).Nodup) (hpre : ∀ F ∈ pre, F.1 ∈ (strFields is).map Prod.fst)
    (hkm : k ∉ (strFields is).map Prod.fst) (hT : fieldOf D f T = false)
    (hits : its.filter AdjItem.known = [.tag id]) (hp : OptName (e.union o.defaultExtensions) name p)
    (hE : All2 (AdjText (e.union o.defaultExtensions) sfx tag content) ts its) (hw : Before ts w) (hkt : NameTok content kt) (ha : Layout a) (hb : Layout b)
    (hE' : All2 (StrText (e.union o.defaultExtensions) sfx) us is) (hD : Delim '{' '}' us vt)
    (hl : Layout l) (hh : Attrs hdr e) (hk : ∀ m, o.recursionLimit = some m → max (adjLevels its) (strLevels is + 1) + 2 ≤ m) :
    ∃ sp, fromStr o (deAdjacent D f tag content name variants) (l ++ (hdr ++ (p ++ '(' :: (w ++ (kt ++ (a ++ ':' :: (b ++ (vt ++ z)))))))) =
      .error (.missingStructField k (if name.isEmpty then none else some name), sp) := by
  have hc : collectFields (fieldOf D f) (gotOf (strGot is) fun _ => none) (pre ++ (k, T) :: post) = .error (.missingStructField k none) := by
    refine collectFields_lacks (gotOf_not _ _ _ (by rw [strGot_keys]; exact hkm)) hT _ fun F hF => .inl ?_
    obtain ⟨c, h1, h2⟩ := List.mem_map.mp (hpre F hF)
    rw [gotOf_mem _ _ _ c.2 (by rw [strGot_keys]; exact hn) (by rw [← h2]; exact strGot_mem h1)]
    rfl
  have h1 : AdjRun D f name variants its .start (.tag id (.struct deny (pre ++ (k, T) :: post))) :=
    adjRun_known (by rw [hits]; exact ⟨.tag id _, ⟨rfl, find_nodup hm hnv⟩, rfl⟩)
  exact adj_doc hp (fun d hpre hd => adj_failsContent hne hE hw h1 hkt ha hb (fieldsAny_lacks hf hnd hE' hD hi hn hc) hpre hd) hl hh rfl hk

/-- A key of such a map that was there already, or that is not the name of a field if others are denied: the error says so, whatever follows. -/
theorem C55_map_key (o : Options) (D : Nat → Ty) (n f : Nat) (tag content name : Text) (variants : List (Text × Variant))
    (id : Text) (deny : Bool) (fields : List (Text × Ty)) (is : List StrItem) (key : Text)
    (its : List AdjItem) (sfx : Bool) (ts us : List Text) (p w hdr l kt a b v jt c z : Text) (e : Exts)
    (hne : tag ≠ content) (hf : n ≤ f) (hm : (id, .struct deny fields) ∈ variants) (hnv : (variants.map Prod.fst).Nodup)
    (hnd : (fields.map Prod.fst).Nodup) (hi : StrFits D n deny fields is) (hn : ((strFields is).map Prod.fst).Nodup)
    (hits : its.filter AdjItem.known = [.tag id]) (hp : OptName (e.union o.defaultExtensions) name p)
    (hE : All2 (AdjText (e.union o.defaultExtensions) sfx tag content) ts its) (hw : Before ts w) (hkt : NameTok content kt) (ha : Layout a) (hb : Layout b)
    (hE' : All2 (StrText (e.union o.defaultExtensions) sfx) us is) (hv : Before us v) (hjt : StrLit jt key) (hc : Layout c)
    (hl : Layout l) (hh : Attrs hdr e) (hk : ∀ m, o.recursionLimit = some m → max (adjLevels its) (strLevels is + 2) + 2 ≤ m) :
    (key ∈ (strFields is).map Prod.fst →
      ∃ sp, fromStr o (deAdjacent D f tag content name variants)
          (l ++ (hdr ++ (p ++ '(' :: (w ++ (kt ++ (a ++ ':' :: (b ++ ('{' :: (v ++ (jt ++ (c ++ [':']))) ++ z)))))))) =
        .error (.duplicateStructField key (if name.isEmpty then none else some name), sp)) ∧
    (key ∉ fields.map Prod.fst → deny = true →
      ∃ sp, fromStr o (deAdjacent D f tag content name variants)
          (l ++ (hdr ++ (p ++ '(' :: (w ++ (kt ++ (a ++ ':' :: (b ++ ('{' :: (v ++ (jt ++ (c ++ [':']))) ++ z)))))))) =
        .error (.noSuchStructField (fields.map Prod.fst) key (if name.isEmpty then none else some name), sp)) := by
  have h1 : AdjRun D f name variants its .start (.tag id (.struct deny fields)) :=
    adjRun_known (by rw [hits]; exact ⟨.tag id _, ⟨rfl, find_nodup hm hnv⟩, rfl⟩)
  constructor
  · intro hkey
    refine adj_doc hp (fun d hpre hd => adj_failsContent hne hE hw h1 hkt ha hb
      (fieldsAny_rejects hf hnd hE' hv hi hn hjt hc (e := .duplicateStructField key none) ?_) hpre hd) hl hh rfl hk
    obtain ⟨g, h1, rfl⟩ := List.mem_map.mp hkey
    have hg := gotOf_mem (strGot is) (fun _ => none) g.1 g.2 (by rw [strGot_keys]; exact hn) (strGot_mem h1)
    have hmem := strFits_mem hi h1
    unfold strCheck
    rw [if_pos (by rw [List.contains_iff_mem]; exact hmem), hg]
    rfl
  · rintro hkey rfl
    refine adj_doc hp (fun d hpre hd => adj_failsContent hne hE hw h1 hkt ha hb
      (fieldsAny_rejects hf hnd hE' hv hi hn hjt hc (e := .noSuchStructField (fields.map Prod.fst) key none) ?_) hpre hd) hl hh rfl hk
    unfold strCheck
    rw [if_neg (by rw [List.contains_iff_mem]; exact hkey)]
    rfl

end

/-! ### What is not read back -/

/-- An enum with variants of all kinds. -/
def adjCase : List (Text × Variant) :=
  [(c!"U", .unit), (c!"N", .newtype .bool), (c!"O", .newtype (.option .unit)), (c!"T", .tuple [.int .u8, .bool]),
    (c!"S", .struct false [(c!"x", .bool), (c!"y", .option .bool)]), (c!"E", .struct false []), (c!"I", .newtype (.int .i128)),
    (c!"Range", .struct false [(c!"start", .int .u8), (c!"end", .int .u8)])]

/-- It is read. -/
def readAdj [Env] (o : Options) (t : Text) : Spanned SVal :=
  fromStr o (deAdjacent (fun _ => .unit) 8 c!"t" c!"c" c!"A" adjCase) t

/-- It is written. -/
def writeAdj [Env] (o : Options) (cfg : Option PrettyConfig) (v : SVal) : Option (Except Err Text) :=
  (adjSer c!"t" c!"c" v).map (toText o cfg)

/-- A struct variant without fields is written and not read back. -/
theorem C55_empty_fails : let _ : Env := asciiEnv true true
    writeAdj {} none (.structVariant c!"A" c!"E" []) = some (.ok c!"(t:E,c:())") ∧ (∃ e sp, readAdj {} c!"(t:E,c:())" = .error (e, sp)) ∧
      ∃ e sp, readAdj {} c!"(c:(),t:E)" = .error (e, sp) :=
  ⟨by decide +kernel, ⟨.invalidValueForType [] [], ⟨⟨1, 8⟩, ⟨1, 10⟩⟩, by decide +kernel⟩,
    ⟨.invalidValueForType [] [], ⟨⟨1, 9⟩, ⟨1, 10⟩⟩, by decide +kernel⟩⟩

/-- With compact ranges neither is a struct variant called like a range. -/
theorem C55_range_fails : let _ : Env := asciiEnv true true
    writeAdj {} (some { compactRanges := true, indentor := [], newLine := ['\n'], separator := [' '] })
      (.structVariant c!"A" c!"Range" [(c!"start", .num (.int .u8 1)), (c!"end", .num (.int .u8 2))]) = some (.ok c!"(\nt: Range,\nc: 1..2,\n)") ∧
    ∃ e sp, readAdj {} c!"(\nt: Range,\nc: 1..2,\n)" = .error (e, sp) :=
  ⟨by decide +kernel, .invalidValueForType [] [], ⟨⟨3, 7⟩, ⟨3, 8⟩⟩, by decide +kernel⟩

/-- If the content comes first, 128-bit integers are not read, and `Some(())` of `implicit_some` is read as `None`. -/
theorem C55_content_first_fails : let _ : Env := asciiEnv true true
    readAdj {} c!"(t:I,c:5)" = .ok (.newtypeVariant c!"A" c!"I" (.num (.int .i128 5))) ∧
    (∃ e sp, readAdj {} c!"(c:5,t:I)" = .error (e, sp)) ∧
    readAdj { defaultExtensions := ⟨false, true, false, false⟩ } c!"(t:O,c:())" = .ok (.newtypeVariant c!"A" c!"O" (.some .unit)) ∧
    readAdj { defaultExtensions := ⟨false, true, false, false⟩ } c!"(c:(),t:O)" = .ok (.newtypeVariant c!"A" c!"O" .none) :=
  ⟨by decide +kernel, ⟨.message c!"i128 is not supported", ⟨⟨1, 8⟩, ⟨1, 9⟩⟩, by decide +kernel⟩, by decide +kernel, by decide +kernel⟩

/-- The tag is an identifier, not a string (that of an internally tagged enum is a string, not an identifier, see C53), and the struct is
not a map. -/
theorem C55_string_fails : let _ : Env := asciiEnv true true
    readAdj {} c!"(t:\"U\")" = .error (.expectedIdentifier, ⟨⟨1, 4⟩, ⟨1, 4⟩⟩) ∧
    readAdj {} c!"{\"t\":\"U\"}" = .error (.expectedNamedStructLike c!"A", ⟨⟨1, 1⟩, ⟨1, 1⟩⟩) := by decide +kernel

/-- The name of the struct that is the content is not checked. -/
theorem C55_name_unchecked : let _ : Env := asciiEnv true true
    readAdj { defaultExtensions := ⟨false, false, false, true⟩ } c!"A(t:S,c:Q(x:true,y:None))" =
      .ok (.structVariant c!"A" c!"S" [(c!"x", .bool true), (c!"y", .none)]) := by decide +kernel

/-! ### The theorems apply -/

/-- A name that is its own token. -/
theorem ownTok [Env] {n : Text} (h : RawName n) (e : identText n = n) : NameTok n n := by
  have := NameTok.identText h
  rwa [e] at this

/-- A field of one letter. -/
theorem adjText_case (k : Char) (v : Text) (it : AdjItem) : let _ : Env := asciiEnv true true
    isIdentRaw k = true → identText [k] = [k] →
    (match it with
    | .mapped is => [k] = c!"c" ∧ ∃ ts, All2 (StrText {} false) ts is ∧ Delim '{' '}' ts v
    | .tag id => [k] = c!"t" ∧ NameTok id v | .typed u => [k] = c!"c" ∧ Rend {} false false u v | .buffered c => [k] = c!"c" ∧ CText c v
    | .other n => [k] ≠ c!"t" ∧ [k] ≠ c!"c" ∧ ∃ V, Lang n v V) →
    AdjText {} false c!"t" c!"c" (k :: ':' :: v) it := by
  intro _ h1 h2 h
  have hk : NameTok [k] [k] := ownTok ⟨by simp, by simpa using h1⟩ h2
  have he : Entry [k] v (k :: ':' :: v) := .mk (l := []) (l' := []) .nil .nil
  cases it with
  | tag id => exact ⟨_, _, by rw [h.1] at hk he ⊢; exact hk, h.2, he⟩
  | typed u => exact ⟨_, _, by rw [h.1] at hk he ⊢; exact hk, h.2, he⟩
  | mapped is => exact ⟨_, _, _, by rw [h.1] at hk he ⊢; exact hk, h.2.choose_spec.1, h.2.choose_spec.2, he⟩
  | buffered c => exact ⟨rfl, _, _, by rw [h.1] at hk he ⊢; exact hk, h.2, he⟩
  | other n => exact ⟨rfl, _, _, _, h.2.2.choose, h.1, h.2.1, hk, h.2.2.choose_spec, he⟩

theorem adjS_has : let _ : Env := asciiEnv true true
    HasTy (fun _ => .unit) 8 (.enum c!"A" adjCase) (.structVariant c!"A" c!"S" [(c!"x", .bool true), (c!"y", .none)]) :=
  ⟨c!"S", .struct false [(c!"x", .bool), (c!"y", .option .bool)], by simp [adjCase], by decide, _, rfl, by decide, ⟨rfl, _, rfl⟩, ⟨rfl, .inl rfl⟩, trivial⟩

theorem adjN_has : let _ : Env := asciiEnv true true
    HasTy (fun _ => .unit) 8 (.enum c!"A" adjCase) (.newtypeVariant c!"A" c!"N" (.bool true)) :=
  ⟨c!"N", .newtype .bool, by simp [adjCase], by decide, _, rfl, _, rfl⟩

theorem adjU_has : let _ : Env := asciiEnv true true
    HasTy (fun _ => .unit) 8 (.enum c!"A" adjCase) (.unitVariant c!"A" c!"U") :=
  ⟨c!"U", .unit, by simp [adjCase], by decide, rfl⟩

example : let _ : Env := asciiEnv true true
    ∃ u t, adjSer c!"t" c!"c" (.structVariant c!"A" c!"S" [(c!"x", .bool true), (c!"y", .none)]) = some u ∧ toText {} none u = .ok t ∧
      ∀ l l', Layout l → Layout l' → fromStr {} (deAdjacent (fun _ => .unit) 8 c!"t" c!"c" c!"A" adjCase) (l ++ (t ++ l')) =
        .ok (.structVariant c!"A" c!"S" [(c!"x", .bool true), (c!"y", .none)]) := by
  intro _
  have hr : ∀ c : Char, isIdentRaw c = true → RawName [c] := fun c h => ⟨by simp, by simpa using h⟩
  refine C55_roundtrip_partial {} none (fun _ => .unit) 8 8 c!"t" c!"c" c!"A" adjCase _ (by decide) (by decide) adjS_has ⟨by simp, by decide⟩
    (fun c h => by cases h) ⟨hr _ (by decide), hr _ (by decide)⟩ (fun h => by cases h) ?_ (fun m hm => by cases hm; decide)
  simp only [SVal.Named, NamedFields]
  exact ⟨hr _ (by decide), hr _ (by decide), ⟨hr _ (by decide), trivial⟩, ⟨hr _ (by decide), trivial⟩, trivial⟩

/-- The texts of a tag, a content and another field. -/
theorem adjTexts : let _ : Env := asciiEnv true true
    AdjText {} false c!"t" c!"c" c!"t:N" (.tag c!"N") ∧ AdjText {} false c!"t" c!"c" c!"c:true" (.typed (.bool true)) ∧
    AdjText {} false c!"t" c!"c" c!"c:true" (.buffered (.bool true)) ∧ AdjText {} false c!"t" c!"c" c!"z:false" (.other 1) := by
  intro _
  have hN : NameTok c!"N" c!"N" := ownTok ⟨by simp, by decide⟩ (by decide)
  exact ⟨adjText_case 't' c!"N" _ (by decide) (by decide) ⟨rfl, hN⟩, adjText_case 'c' c!"true" _ (by decide) (by decide) ⟨rfl, rfl⟩,
    adjText_case 'c' c!"true" _ (by decide) (by decide) ⟨rfl, rfl⟩,
    adjText_case 'z' c!"false" _ (by decide) (by decide) ⟨by simp, by simp, .bool false, .scalar .false⟩⟩

/-- Another field between the tag and the content. -/
example : let _ : Env := asciiEnv true true
    readAdj {} c!"(t:N,z:false,c:true)" = .ok (.newtypeVariant c!"A" c!"N" (.bool true)) := by
  intro _
  have := C55_tag_first {} (fun _ => .unit) 8 8 c!"t" c!"c" c!"A" adjCase _ c!"N" (some (.bool true)) [.tag c!"N", .other 1, .typed (.bool true)] false
    [c!"t:N", c!"z:false", c!"c:true"] [] c!"(t:N,z:false,c:true)" [] [] [] {} (by decide) (by decide) adjN_has trivial rfl rfl (.inl ⟨rfl, rfl⟩)
    ⟨adjTexts.1, adjTexts.2.2.2, adjTexts.2.1, trivial⟩ (commas_delim '(' ')' [c!"t:N", c!"z:false", c!"c:true"]).delim .nil .nil .nil
    (fun m hm => by cases hm; decide)
  simpa [readAdj] using this

/-- The content before the tag. -/
example : let _ : Env := asciiEnv true true
    readAdj {} c!"(c:true,z:false,t:N)" = .ok (.newtypeVariant c!"A" c!"N" (.bool true)) := by
  intro _
  have := C55_content_first {} (fun _ => .unit) 8 8 c!"t" c!"c" c!"A" adjCase _ c!"N" (.bool true) [.buffered (.bool true), .other 1, .tag c!"N"]
    false {} [c!"c:true", c!"z:false", c!"t:N"] [] c!"(c:true,z:false,t:N)" [] [] [] {} (by decide) (by decide) adjN_has rfl
    (by simp [SVal.Buffers]) rfl (.inl ⟨rfl, rfl⟩) ⟨adjTexts.2.2.1, adjTexts.2.2.2, adjTexts.1, trivial⟩
    (commas_delim '(' ')' [c!"c:true", c!"z:false", c!"t:N"]).delim .nil .nil .nil (fun m hm => by cases hm; decide)
  simpa [readAdj] using this

example : let _ : Env := asciiEnv true true
    readAdj {} c!"(c:(x:true,y:None),t:S)" = .ok (.structVariant c!"A" c!"S" [(c!"x", .bool true), (c!"y", .none)]) := by
  intro _
  have hr : ∀ c : Char, isIdentRaw c = true → RawName [c] := fun c h => ⟨by simp, by simpa using h⟩
  have hw : compact {} false 0 (.struct c!"A" [(c!"c", .struct c!"S" [(c!"x", .bool true), (c!"y", .none)]), (c!"t", .unitVariant c!"A" c!"S")]) =
      c!"(c:(x:true,y:None),t:S)" := by
    have h : ∀ c : Char, isIdentFirst c = true → [c] ∉ reservedNames → compactName [c] = [c] := fun c h1 h2 => if_pos ⟨⟨c, [], rfl, h1, by simp⟩, h2⟩
    simp [compact, compactFields, commas, inSomes, h _ (by decide : isIdentFirst 'c' = true) (by decide), h _ (by decide : isIdentFirst 'x' = true) (by decide),
      h _ (by decide : isIdentFirst 'y' = true) (by decide), h _ (by decide : isIdentFirst 't' = true) (by decide),
      h _ (by decide : isIdentFirst 'S' = true) (by decide)]
  have hn : (SVal.structVariant c!"A" c!"S" [(c!"x", .bool true), (c!"y", .none)]).Named := by
    simp only [SVal.Named, NamedFields]
    exact ⟨hr _ (by decide), hr _ (by decide), ⟨hr _ (by decide), trivial⟩, ⟨hr _ (by decide), trivial⟩, trivial⟩
  have := C55_swapped {} (fun _ => .unit) 8 8 c!"t" c!"c" c!"A" adjCase _ (.struct c!"S" [(c!"x", .bool true), (c!"y", .none)]) c!"S" [] []
    (by decide) (by decide) adjS_has rfl (by simp [SVal.Buffers, BuffersFields]) hn ⟨hr _ (by decide), hr _ (by decide)⟩ rfl
    (fun m hm => by cases hm; decide) .nil .nil
  rw [hw] at this
  simpa [readAdj] using this

/-- Nothing follows a missing field, and anything may follow the struct. -/
example : let _ : Env := asciiEnv true true
    ∃ sp, readAdj {} c!"(c:true,z:false)oops" = .error (.missingStructField c!"t" (some c!"A"), sp) := by
  intro _
  have := C55_missing_tag {} (fun _ => .unit) 8 c!"t" c!"c" c!"A" adjCase [.buffered (.bool true), .other 1] false [c!"c:true", c!"z:false"]
    [] c!"c:true,z:false)" [] [] c!"oops" {} (by decide) (.inr ⟨_, rfl⟩) (.inl ⟨rfl, rfl⟩) ⟨adjTexts.2.2.1, adjTexts.2.2.2, trivial⟩
    (commas_delim '(' ')' [c!"c:true", c!"z:false"]).delim .nil .nil (fun m hm => by cases hm; decide)
  simpa [readAdj] using this

example : let _ : Env := asciiEnv true true
    ∃ sp, readAdj {} c!"(t:N)" = .error (.missingStructField c!"c" (some c!"A"), sp) := by
  intro _
  have := C55_missing_content {} (fun _ => .unit) 8 c!"t" c!"c" c!"A" adjCase c!"N" (.newtype .bool) [.tag c!"N"] false [c!"t:N"]
    [] c!"t:N)" [] [] [] {} (by decide) (by simp [adjCase]) (by decide) (by simp) (fun T h => by cases h; rfl) rfl (.inl ⟨rfl, rfl⟩)
    ⟨adjTexts.1, trivial⟩ (commas_delim '(' ')' [c!"t:N"]).delim .nil .nil (fun m hm => by cases hm; decide)
  simpa [readAdj] using this

example : let _ : Env := asciiEnv true true
    readAdj {} c!"(t:O,z:false)" = .ok (.newtypeVariant c!"A" c!"O" .none) := by
  intro _
  have hO : NameTok c!"O" c!"O" := ownTok ⟨by simp, by decide⟩ (by decide)
  have := C55_absent_option {} (fun _ => .unit) 8 c!"t" c!"c" c!"A" adjCase c!"O" .unit [.tag c!"O", .other 1] false [c!"t:O", c!"z:false"]
    [] c!"(t:O,z:false)" [] [] [] {} (by decide) (by simp [adjCase]) (by decide) (by decide) rfl (.inl ⟨rfl, rfl⟩)
    ⟨adjText_case 't' c!"O" _ (by decide) (by decide) ⟨rfl, hO⟩, adjTexts.2.2.2, trivial⟩
    (commas_delim '(' ')' [c!"t:O", c!"z:false"]).delim .nil .nil .nil (fun m hm => by cases hm; decide)
  simpa [readAdj] using this

/-- After the colon of the second field anything may follow. -/
example : let _ : Env := asciiEnv true true
    ∃ sp, readAdj {} c!"(t:U,t:oops" = .error (.duplicateStructField c!"t" (some c!"A"), sp) := by
  intro _
  have := C55_tag_twice {} (fun _ => .unit) 8 8 c!"t" c!"c" c!"A" adjCase (.unitVariant c!"A" c!"U") c!"U" none [.tag c!"U"] false [c!"t:U"]
    [] c!"t:U," [] [] c!"t" [] c!"oops" {} (by decide) (by decide) adjU_has trivial rfl rfl (.inl ⟨rfl, rfl⟩)
    ⟨adjText_case 't' c!"U" _ (by decide) (by decide) ⟨rfl, ownTok ⟨by simp, by decide⟩ (by decide)⟩, trivial⟩
    (.items (a := []) (b := []) (a' := []) .nil .one .nil .nil) (ownTok ⟨by simp, by decide⟩ (by decide)) .nil .nil .nil
    (fun m hm => by cases hm; decide)
  simpa [readAdj] using this

example : let _ : Env := asciiEnv true true
    ∃ sp, readAdj {} c!"(c:true,c:oops" = .error (.duplicateStructField c!"c" (some c!"A"), sp) := by
  intro _
  have := C55_content_twice {} (fun _ => .unit) 8 8 c!"t" c!"c" c!"A" adjCase _ c!"N" (.bool true) [.buffered (.bool true)] false [c!"c:true"]
    [] c!"c:true," [] [] c!"c" [] c!"oops" {} (by decide) (by decide) adjN_has trivial rfl (.inr ⟨_, rfl⟩) (.inl ⟨rfl, rfl⟩)
    ⟨adjTexts.2.2.1, trivial⟩ (.items (a := []) (b := []) (a' := []) .nil .one .nil .nil) (ownTok ⟨by simp, by decide⟩ (by decide)) .nil .nil .nil
    (fun m hm => by cases hm; decide)
  simpa [readAdj] using this

example : let _ : Env := asciiEnv true true
    ∃ sp, readAdj {} c!"(z:false,t:Q!" = .error (.noSuchEnumVariant (adjCase.map Prod.fst) c!"Q" (some c!"A"), sp) := by
  intro _
  have := C55_unknown {} (fun _ => .unit) 8 c!"t" c!"c" c!"A" adjCase c!"Q" [.other 1] false [c!"z:false"]
    [] c!"z:false," [] [] c!"t" [] [] c!"Q" c!"!" {} (by decide) (by decide) (.inl rfl) (.inl ⟨rfl, rfl⟩) ⟨adjTexts.2.2.2, trivial⟩
    (.items (a := []) (b := []) (a' := []) .nil .one .nil .nil) (ownTok ⟨by simp, by decide⟩ (by decide)) .nil .nil
    (ownTok ⟨by simp, by decide⟩ (by decide)) (fun c r' h => by cases h; decide) .nil .nil (fun m hm => by cases hm; decide)
  simpa [readAdj] using this

/-- The map `{"z":false,"x":true}`. -/
theorem strTexts : let _ : Env := asciiEnv true true
    All2 (StrText {} false) [c!"\"z\":false", c!"\"x\":true"] [.other c!"z" 1, .field c!"x" (.bool true)] := by
  intro _
  have e : ∀ k : Text, StrLit (strText true k) k := fun k => strText_lit true k
  have e1 : strText true c!"z" = c!"\"z\"" := by decide +kernel
  have e2 : strText true c!"x" = c!"\"x\"" := by decide +kernel
  have g1 := e c!"z"
  have g2 := e c!"x"
  rw [e1] at g1
  rw [e2] at g2
  exact ⟨⟨rfl, c!"\"z\"", c!"false", .bool false, g1, .scalar .false, .mk (l := []) (l' := []) .nil .nil⟩,
    ⟨c!"\"x\"", c!"true", g2, by simp [Rend], .mk (l := []) (l' := []) .nil .nil⟩, trivial⟩

/-- Another order, another key, and no optional field. -/
example : let _ : Env := asciiEnv true true
    readAdj {} c!"(t:S,c:{\"z\":false,\"x\":true})" = .ok (.structVariant c!"A" c!"S" [(c!"x", .bool true), (c!"y", .none)]) := by
  intro _
  have := C55_fields_as_map {} (fun _ => .unit) 8 8 c!"t" c!"c" c!"A" adjCase c!"S" false [(c!"x", .bool), (c!"y", .option .bool)]
    [(c!"x", .bool true), (c!"y", .none)] [.other c!"z" 1, .field c!"x" (.bool true)] [.tag c!"S", .mapped [.other c!"z" 1, .field c!"x" (.bool true)]] false
    [c!"t:S", c!"c:{\"z\":false,\"x\":true}"] [] c!"(t:S,c:{\"z\":false,\"x\":true})" [] [] [] {} (by decide) (by decide) (by decide) (by simp [adjCase])
    (by decide) (by decide) (by
      intro i hi
      simp only [List.mem_cons, List.not_mem_nil, or_false] at hi
      rcases hi with rfl | rfl
      · exact ⟨by decide, rfl⟩
      · exact ⟨.bool, by simp, _, rfl⟩) (by decide)
    ⟨⟨rfl, .inl (by simp [strFields])⟩, ⟨rfl, .inr ⟨by decide, ⟨_, rfl⟩, rfl⟩⟩, trivial⟩ rfl (.inl ⟨rfl, rfl⟩)
    ⟨adjText_case 't' c!"S" _ (by decide) (by decide) ⟨rfl, ownTok ⟨by simp, by decide⟩ (by decide)⟩,
      adjText_case 'c' c!"{\"z\":false,\"x\":true}" (.mapped _) (by decide) (by decide)
        ⟨rfl, _, strTexts, (commas_delim '{' '}' [c!"\"z\":false", c!"\"x\":true"]).delim⟩, trivial⟩
    (commas_delim '(' ')' [c!"t:S", c!"c:{\"z\":false,\"x\":true}"]).delim .nil .nil .nil (fun m hm => by cases hm; decide)
  simpa [readAdj] using this

/-- Anything may follow the map. -/
example : let _ : Env := asciiEnv true true
    ∃ sp, fromStr {} (deAdjacent (fun _ => .unit) 8 c!"t" c!"c" c!"A" [(c!"S", .struct false [(c!"x", .bool), (c!"k", .bool)])])
      c!"(t:S,c:{\"z\":false,\"x\":true}oops" = .error (.missingStructField c!"k" (some c!"A"), sp) := by
  intro _
  have := C55_map_missing {} (fun _ => .unit) 8 8 c!"t" c!"c" c!"A" [(c!"S", .struct false [(c!"x", .bool), (c!"k", .bool)])] c!"S" false [(c!"x", .bool)] []
    c!"k" .bool [.other c!"z" 1, .field c!"x" (.bool true)] [.tag c!"S"] false [c!"t:S"] [c!"\"z\":false", c!"\"x\":true"]
    [] c!"t:S," [] [] c!"c" [] [] c!"{\"z\":false,\"x\":true}" c!"oops" {} (by decide) (by decide) (by simp)
    (by decide) (by decide) (by
      intro i hi
      simp only [List.mem_cons, List.not_mem_nil, or_false] at hi
      rcases hi with rfl | rfl
      · exact ⟨by decide, rfl⟩
      · exact ⟨.bool, by simp, _, rfl⟩) (by decide) (by decide) (by decide) rfl rfl (.inl ⟨rfl, rfl⟩)
    ⟨adjText_case 't' c!"S" _ (by decide) (by decide) ⟨rfl, ownTok ⟨by simp, by decide⟩ (by decide)⟩, trivial⟩
    (.items (a := []) (b := []) (a' := []) .nil .one .nil .nil) (ownTok ⟨by simp, by decide⟩ (by decide)) .nil .nil
    strTexts (commas_delim '{' '}' [c!"\"z\":false", c!"\"x\":true"]).delim .nil .nil (fun m hm => by cases hm; decide)
  simpa using this

/-- Anything may follow a key that is rejected. -/
example : let _ : Env := asciiEnv true true
    (∃ sp, readAdj {} c!"(t:S,c:{\"z\":false,\"x\":true,\"x\":oops" = .error (.duplicateStructField c!"x" (some c!"A"), sp)) ∧
    ∃ sp, fromStr {} (deAdjacent (fun _ => .unit) 8 c!"t" c!"c" c!"A" [(c!"S", .struct true [(c!"k", .bool)])]) c!"(t:S,c:{\"x\":oops" =
      .error (.noSuchStructField [c!"k"] c!"x" (some c!"A"), sp) := by
  intro _
  have g2 : StrLit c!"\"x\"" c!"x" := by
    have h := strText_lit true c!"x"
    have e2 : strText true c!"x" = c!"\"x\"" := by decide +kernel
    rwa [e2] at h
  have hS : AdjText {} false c!"t" c!"c" c!"t:S" (.tag c!"S") :=
    adjText_case 't' c!"S" (.tag c!"S") (by decide) (by decide) ⟨rfl, ownTok ⟨by simp, by decide⟩ (by decide)⟩
  constructor
  · have := (C55_map_key {} (fun _ => .unit) 8 8 c!"t" c!"c" c!"A" adjCase c!"S" false [(c!"x", .bool), (c!"y", .option .bool)]
      [.other c!"z" 1, .field c!"x" (.bool true)] c!"x" [.tag c!"S"] false [c!"t:S"] [c!"\"z\":false", c!"\"x\":true"]
      [] c!"t:S," [] [] c!"c" [] [] c!"\"z\":false,\"x\":true," c!"\"x\"" [] c!"oops" {} (by decide) (by decide) (by simp [adjCase])
      (by decide) (by decide) (by
        intro i hi
        simp only [List.mem_cons, List.not_mem_nil, or_false] at hi
        rcases hi with rfl | rfl
        · exact ⟨by decide, rfl⟩
        · exact ⟨.bool, by simp, _, rfl⟩) (by decide) rfl (.inl ⟨rfl, rfl⟩) ⟨hS, trivial⟩
      (.items (a := []) (b := []) (a' := []) .nil .one .nil .nil) (ownTok ⟨by simp, by decide⟩ (by decide)) .nil .nil
      strTexts (.items (a := []) (b := []) (a' := []) .nil (.cons (b := []) (a := []) .nil .nil .one) .nil .nil) g2 .nil .nil .nil
      (fun m hm => by cases hm; decide)).1 (by decide)
    simpa [readAdj] using this
  · have := (C55_map_key {} (fun _ => .unit) 8 8 c!"t" c!"c" c!"A" [(c!"S", .struct true [(c!"k", .bool)])] c!"S" true [(c!"k", .bool)]
      [] c!"x" [.tag c!"S"] false [c!"t:S"] []
      [] c!"t:S," [] [] c!"c" [] [] [] c!"\"x\"" [] c!"oops" {} (by decide) (by decide) (by simp)
      (by decide) (by decide) (fun i hi => by cases hi) (by decide) rfl (.inl ⟨rfl, rfl⟩) ⟨hS, trivial⟩
      (.items (a := []) (b := []) (a' := []) .nil .one .nil .nil) (ownTok ⟨by simp, by decide⟩ (by decide)) .nil .nil
      trivial (.nil .nil) g2 .nil .nil .nil (fun m hm => by cases hm; decide)).2 (by decide) rfl
    simpa using this

end Ron
