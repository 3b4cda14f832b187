import Verif.Lemmas.Tagged
import Verif.Lemmas.Named
import Verif.Props.C52
/-! What is written for internally tagged enums, and that it is read back. -/

set_option linter.unusedSectionVars false
set_option linter.unusedVariables false

namespace Ron

variable [Env]

/-- The data have a type. -/
def IsTyped (D : Nat → Ty) (v : SVal) : Prop := ∃ n T, HasTy D n T v

omit [Env] in
theorem all2_forall {α β : Type} {R : α → β → Prop} {Q : β → Prop} : ∀ {as : List α} {bs : List β}, All2 R as bs → (∀ a b, R a b → Q b) → ∀ b ∈ bs, Q b
  | [], [], _, _, b, h => by simp at h
  | a :: as, b :: bs, h, hq, c, hc => by
    rcases List.mem_cons.mp hc with rfl | hc
    · exact hq _ _ h.1
    · exact all2_forall h.2 hq c hc
  | [], _ :: _, h, _, _, _ => h.elim

/-- What is written for a newtype variant: a struct or a map that begins with the tag.  What follows the tag is read as the data. -/
theorem taggedNewtype_form {D : Nat → Ty} {tag id : Text} : ∀ (n : Nat) (T : Ty) (v u : SVal), HasTy D n T v → taggedNewtype tag id v = some u →
    (∃ nm fs, u = .struct nm ((tag, .str id) :: fs) ∧ (∀ e ∈ fs, IsTyped D e.2) ∧
      ∀ x f, n ≤ f → BuffersFields x fs → Content.into true D f T (.map (contentFieldsOf x fs)) = .ok v) ∨
    (∃ m kvs, u = .map m ((.str tag, .str id) :: kvs) ∧ (∀ e ∈ kvs, IsTyped D e.1 ∧ IsTyped D e.2) ∧
      ∀ x f, n ≤ f → BuffersEntries x kvs → Content.into true D f T (.map (contentEntries x kvs)) = .ok v) := by
  intro n
  induction n with
  | zero => intro T v u h; simp [HasTy] at h
  | succ n ih =>
    intro T v u hT hu
    have hstr : ∀ t, IsTyped D (.str t) := fun t => ⟨1, .str, t, rfl⟩
    cases T with
    | bool => obtain ⟨b, rfl⟩ := hT; simp [taggedNewtype] at hu
    | int t => obtain ⟨b, rfl, -⟩ := hT; simp [taggedNewtype] at hu
    | f32 => obtain ⟨b, rfl, -⟩ := hT; simp [taggedNewtype] at hu
    | f64 => obtain ⟨b, rfl, -⟩ := hT; simp [taggedNewtype] at hu
    | char => obtain ⟨b, rfl⟩ := hT; simp [taggedNewtype] at hu
    | str => obtain ⟨b, rfl⟩ := hT; simp [taggedNewtype] at hu
    | bytes => obtain ⟨b, rfl⟩ := hT; simp [taggedNewtype] at hu
    | option t => rcases hT with rfl | ⟨u', rfl, -⟩ <;> simp [taggedNewtype] at hu
    | seq t => obtain ⟨vs, rfl, h1⟩ := hT; simp [taggedNewtype] at hu
    | tuple ts => obtain ⟨vs, rfl, h1⟩ := hT; simp [taggedNewtype] at hu
    | tupleStruct name ts => obtain ⟨vs, rfl, h1⟩ := hT; simp [taggedNewtype] at hu
    | value => exact hT.elim
    | raw => exact hT.elim
    | unit =>
      cases hT
      simp only [taggedNewtype, Option.some.injEq] at hu
      subst hu
      refine .inr ⟨_, [], rfl, by simp, fun nt f hf _ => ?_⟩
      obtain ⟨f, rfl⟩ : ∃ m, f = m + 1 := ⟨f - 1, by omega⟩
      rfl
    | unitStruct name =>
      cases hT
      simp only [taggedNewtype, Option.some.injEq] at hu
      subst hu
      refine .inr ⟨_, [], rfl, by simp, fun nt f hf _ => ?_⟩
      obtain ⟨f, rfl⟩ : ∃ m, f = m + 1 := ⟨f - 1, by omega⟩
      rfl
    | newtype name t =>
      obtain ⟨w, rfl, h1⟩ := hT
      simp only [taggedNewtype] at hu
      rcases ih t w u h1 hu with ⟨nm, fs, rfl, h2, h3⟩ | ⟨m, kvs, rfl, h2, h3⟩
      · refine .inl ⟨nm, fs, rfl, h2, fun nt f hf hb => ?_⟩
        obtain ⟨f, rfl⟩ : ∃ m, f = m + 1 := ⟨f - 1, by omega⟩
        simp only [Content.into, h3 nt f (by omega) hb]
        rfl
      · refine .inr ⟨m, kvs, rfl, h2, fun nt f hf hb => ?_⟩
        obtain ⟨f, rfl⟩ : ∃ m, f = m + 1 := ⟨f - 1, by omega⟩
        simp only [Content.into, h3 nt f (by omega) hb]
        rfl
    | ref i =>
      rcases ih (D i) v u hT hu with ⟨nm, fs, rfl, h2, h3⟩ | ⟨m, kvs, rfl, h2, h3⟩
      · refine .inl ⟨nm, fs, rfl, h2, fun nt f hf hb => ?_⟩
        obtain ⟨f, rfl⟩ : ∃ m, f = m + 1 := ⟨f - 1, by omega⟩
        exact h3 nt f (by omega) hb
      · refine .inr ⟨m, kvs, rfl, h2, fun nt f hf hb => ?_⟩
        obtain ⟨f, rfl⟩ : ∃ m, f = m + 1 := ⟨f - 1, by omega⟩
        exact h3 nt f (by omega) hb
    | map k w =>
      have hT' := hT
      obtain ⟨kvs, rfl, h1⟩ := hT
      simp only [taggedNewtype, Option.some.injEq] at hu
      subst hu
      refine .inr ⟨_, kvs, rfl, fun e he => ⟨⟨_, _, (h1 e he).1⟩, ⟨_, _, (h1 e he).2⟩⟩, fun nt f hf hb => ?_⟩
      exact into_content true D (n + 1) f _ _ hf hT' (x := nt) (by simpa only [SVal.Buffers] using hb)
    | struct name deny fields =>
      obtain ⟨fs, rfl, hn, h1⟩ := hT
      simp only [taggedNewtype, Option.some.injEq] at hu
      subst hu
      refine .inl ⟨_, fs, rfl, all2_forall h1 fun _ _ h => ⟨_, _, h.2⟩, fun nt f hf hb => ?_⟩
      obtain ⟨f, rfl⟩ : ∃ m, f = m + 1 := ⟨f - 1, by omega⟩
      have := contentStructOf_ok (isOption := fieldOf D f) (rec := Content.into true D f) (deny := deny) hn h1 fun t v hm h => by
        obtain ⟨d, hd, rfl⟩ := List.mem_map.mp hm
        exact into_content true D n f t d.2 (by omega) h (buffersFields_mem hb d hd)
      simp only [Content.into, this]
      rfl
    | enum name variants =>
      have hT' := hT
      obtain ⟨m, k, hk, hn, h⟩ := hT
      have hE : ∀ f data, contentEnum true (fieldOf D f) (Content.into true D f) name variants (.str m) data =
          contentEnumData true (fieldOf D f) (Content.into true D f) name m k data := by
        intro f data
        have hf := find_field hn hk
        have hc : (variants.map Prod.fst).contains m = true := by
          simp only [List.contains_iff_mem]
          exact List.mem_map_of_mem (f := Prod.fst) hk
        have hid : contentVariant (variants.map Prod.fst) (.str m) = .ok m := by simp only [contentVariant, hc, ↓reduceIte]
        simp only [contentEnum, hid]
        simp only [bind, Except.bind]
        simp only at hf
        rw [hf]
      cases k with
      | unit =>
        cases h
        simp only [taggedNewtype, Option.some.injEq] at hu
        subst hu
        refine .inr ⟨_, _, rfl, by simpa using ⟨hstr m, ⟨1, .unit, rfl⟩⟩, fun nt f hf _ => ?_⟩
        obtain ⟨f, rfl⟩ : ∃ m, f = m + 1 := ⟨f - 1, by omega⟩
        simp only [contentEntries, SVal.content, Content.into, hE, contentEnumData]
      | newtype =>
        obtain ⟨w, rfl, h1⟩ := h
        simp only [taggedNewtype, Option.some.injEq] at hu
        subst hu
        refine .inr ⟨_, _, rfl, by simpa using ⟨hstr m, ⟨_, _, h1⟩⟩, fun nt f hf hb => ?_⟩
        simp only [BuffersEntries] at hb
        exact into_content true D (n + 1) f _ _ hf hT' (x := nt) (by simpa only [SVal.Buffers] using hb.1.2)
      | tuple ts =>
        obtain ⟨vs, rfl, h1⟩ := h
        simp only [taggedNewtype, Option.some.injEq] at hu
        subst hu
        refine .inr ⟨_, _, rfl, by simpa using ⟨hstr m, ⟨n + 1, .tupleStruct m ts, vs, rfl, h1⟩⟩, fun nt f hf hb => ?_⟩
        obtain ⟨f, rfl⟩ : ∃ m, f = m + 1 := ⟨f - 1, by omega⟩
        simp only [BuffersEntries, SVal.Buffers] at hb
        simp only [contentEntries, SVal.content, Content.into, hE, contentEnumData,
          contentTuple_ok h1 fun t v hm h => into_content true D n f t v (by omega) h (buffersAll_mem hb.1.2.2 v hm)]
        rfl
      | struct deny fields =>
        obtain ⟨fs, rfl, hn', h1⟩ := h
        simp only [taggedNewtype, Option.some.injEq] at hu
        subst hu
        refine .inr ⟨_, _, rfl, by simpa using ⟨hstr m, ⟨n + 1, .struct m deny fields, fs, rfl, hn', h1⟩⟩, fun nt f hf hb => ?_⟩
        obtain ⟨f, rfl⟩ : ∃ m, f = m + 1 := ⟨f - 1, by omega⟩
        simp only [BuffersEntries, SVal.Buffers] at hb
        have := contentStructOf_ok (isOption := fieldOf D f) (rec := Content.into true D f) (deny := deny) hn' h1 fun t v hm h => by
          obtain ⟨d, hd, rfl⟩ := List.mem_map.mp hm
          exact into_content true D n f t d.2 (by omega) h (buffersFields_mem hb.1.2.2 d hd)
        simp only [contentEntries, SVal.content, Content.into, hE, contentEnumData, this]
        rfl

/-- What is written for a value of the enum, and that what follows the tag is read as the value. -/
theorem taggedSer_form {D : Nat → Ty} {tag : Text} {n : Nat} {name : Text} {variants : List (Text × Variant)} {v u : SVal}
    (hT : HasTy D n (.enum name variants) v) (hu : taggedSer tag v = some u) :
    ∃ id, id ∈ variants.map Prod.fst ∧ ((∃ nm fs, u = .struct nm ((tag, .str id) :: fs) ∧ (∀ e ∈ fs, IsTyped D e.2) ∧
      ∀ x f, n ≤ f → BuffersFields x fs → taggedFrom D f name variants id (.map (contentFieldsOf x fs)) = .ok v) ∨
    (∃ m kvs, u = .map m ((.str tag, .str id) :: kvs) ∧ (∀ e ∈ kvs, IsTyped D e.1 ∧ IsTyped D e.2) ∧
      ∀ x f, n ≤ f → BuffersEntries x kvs → taggedFrom D f name variants id (.map (contentEntries x kvs)) = .ok v)) := by
  cases n with
  | zero => simp [HasTy] at hT
  | succ n =>
    obtain ⟨id, k, hk, hn, h⟩ := hT
    have hF : ∀ f c, taggedFrom D f name variants id c = taggedAs D f name id k c := by
      intro f c
      have hf := find_field hn hk
      simp only at hf
      simp only [taggedFrom, hf]
    refine ⟨id, List.mem_map_of_mem (f := Prod.fst) hk, ?_⟩
    cases k with
    | unit =>
      cases h
      simp only [taggedSer, Option.some.injEq] at hu
      subst hu
      exact .inl ⟨_, [], rfl, by simp, fun nt f _ _ => by simp [hF, contentFieldsOf, taggedAs]⟩
    | newtype t =>
      obtain ⟨w, rfl, h1⟩ := h
      simp only [taggedSer] at hu
      rcases taggedNewtype_form n t w u h1 hu with ⟨nm, fs, rfl, h2, h3⟩ | ⟨m, kvs, rfl, h2, h3⟩
      · refine .inl ⟨nm, fs, rfl, h2, fun nt f hf hb => ?_⟩
        rw [hF, taggedAs, h3 nt f (by omega) hb]
        rfl
      · refine .inr ⟨m, kvs, rfl, h2, fun nt f hf hb => ?_⟩
        rw [hF, taggedAs, h3 nt f (by omega) hb]
        rfl
    | tuple ts =>
      obtain ⟨vs, rfl, h1⟩ := h
      simp [taggedSer] at hu
    | struct deny fields =>
      obtain ⟨fs, rfl, hn', h1⟩ := h
      simp only [taggedSer, Option.some.injEq] at hu
      subst hu
      refine .inl ⟨_, fs, rfl, all2_forall h1 fun _ _ h => ⟨_, _, h.2⟩, fun nt f hf hb => ?_⟩
      have := contentStructOf_ok (isOption := fieldOf D f) (rec := Content.into true D f) (deny := deny) hn' h1 fun t v hm h => by
        obtain ⟨d, hd, rfl⟩ := List.mem_map.mp hm
        exact into_content true D n f t d.2 (by omega) h (buffersFields_mem hb d hd)
      rw [hF, taggedAs, this]
      rfl

theorem typed_ctext {D : Nat → Ty} {x : Exts} (hu : x.unwrapVariantNewtypes = false) {v : SVal} (h : IsTyped D v) (hb : v.Buffers x) (hn : v.Named) : CText (v.content x) (compact x false 0 v) := by
  obtain ⟨n, T, h⟩ := h
  exact compact_ctext D hu n T v h hb hn

theorem compact_strLit (x : Exts) (t : Text) : StrLit (compact x false 0 (.str t)) t := by
  have := strText_lit true t
  simp only [strText, ↓reduceIte] at this
  simpa only [compact] using this

omit [Env] in
theorem BDelim.toDelim {o c : Char} {ts : List Text} {w : Text} (h : BDelim o c ts w) : Delim o c ts w := h.delim

theorem tagFields_compact {D : Nat → Ty} {x : Exts} (hu : x.unwrapVariantNewtypes = false) {tag id : Text} : ∀ {fs : List (Text × SVal)}, (∀ e ∈ fs, IsTyped D e.2) → BuffersFields x fs →
    NamedFields fs → (∀ e ∈ fs, e.1 ≠ tag) → All2 (TagField tag id) (compactFields x fs) ((contentFieldsOf x fs).map some)
  | [], _, _, _, _ => trivial
  | (k, v) :: fs, h1, h2, h3, h4 => by
    simp only [BuffersFields] at h2
    simp only [NamedFields] at h3
    simp only [compactFields, contentFieldsOf, List.map_cons]
    refine ⟨⟨k, _, _, rfl, h4 (k, v) (by simp), (compactName_tok h3.1.1).keyTok, typed_ctext hu (h1 (k, v) (by simp)) h2.1 h3.1.2, .mk (l := []) (l' := []) .nil .nil⟩, ?_⟩
    exact tagFields_compact hu (fun e he => h1 e (by simp [he])) h2.2 h3.2 (fun e he => h4 e (by simp [he]))

theorem tagEntries_compact {D : Nat → Ty} {x : Exts} (hu : x.unwrapVariantNewtypes = false) {tag id : Text} : ∀ {fs : List (SVal × SVal)}, (∀ e ∈ fs, IsTyped D e.1 ∧ IsTyped D e.2) → BuffersEntries x fs →
    NamedEntries fs → (∀ e ∈ fs, (e.1.content x) ≠ .str tag ∧ (e.1.content x) ≠ .bytes (utf8EncAll tag)) →
    All2 (TagEntry tag id) (compactEntries x fs) ((contentEntries x fs).map some)
  | [], _, _, _, _ => trivial
  | (k, v) :: fs, h1, h2, h3, h4 => by
    simp only [BuffersEntries] at h2
    simp only [NamedEntries] at h3
    simp only [compactEntries, contentEntries, List.map_cons]
    refine ⟨⟨_, _, (h4 (k, v) (by simp)).1, (h4 (k, v) (by simp)).2, typed_ctext hu (h1 (k, v) (by simp)).1 h2.1.1 h3.1.1,
      typed_ctext hu (h1 (k, v) (by simp)).2 h2.1.2 h3.1.2, .mk (l := []) (l' := []) .nil .nil⟩, ?_⟩
    exact tagEntries_compact hu (fun e he => h1 e (by simp [he])) h2.2 h3.2 (fun e he => h4 e (by simp [he]))

omit [Env] in
theorem filterMap_some {α : Type} (es : List α) : (es.map some).filterMap (fun i => i) = es := by
  induction es with
  | nil => rfl
  | cons e es ih => rw [List.map_cons, List.filterMap_cons, ih]

omit [Env] in
theorem countP_some {α : Type} (es : List α) : (es.map some).countP Option.isNone = 0 := by
  induction es with
  | nil => rfl
  | cons e es ih => simpa using ih

/-- The text that is written begins with the tag. -/
theorem taggedSer_text {D : Nat → Ty} {x : Exts} (hu : x.unwrapVariantNewtypes = false) {tag : Text} {n f : Nat} {name : Text} {variants : List (Text × Variant)} {v u : SVal} (hf : n ≤ f)
    (hT : HasTy D n (.enum name variants) v) (hw : taggedSer tag v = some u) (hb : TagBuffers x u) (hN : u.Named) (hE : TagOnce x tag u) :
    ∃ id es, id ∈ variants.map Prod.fst ∧ TagText tag id (none :: es.map some) (compact x false 0 u) ∧
      taggedFrom D f name variants id (.map es) = .ok v ∧ tagLevels (none :: es.map some) = (u.content x).levels := by
  obtain ⟨e0, es0, hE1, hE2⟩ := hE
  obtain ⟨id, hid, ⟨nm, fs, rfl, h1, h2⟩ | ⟨m, kvs, rfl, h1, h2⟩⟩ := taggedSer_form hT hw
  · simp only [TagBuffers, BuffersFields] at hb
    simp only [SVal.Named, NamedFields] at hN
    simp only [SVal.content, contentFieldsOf, Content.map.injEq, List.cons.injEq] at hE1
    obtain ⟨-, hE1⟩ := hE1
    subst hE1
    refine ⟨id, contentFieldsOf x fs, hid, .inl ⟨compactFields x ((tag, .str id) :: fs), _, ⟨?_, ?_⟩, by simp, (commas_delim '(' ')' _).delim, ?_⟩,
      h2 _ f hf hb.2, ?_⟩
    · exact ⟨_, _, (compactName_tok hN.2.1.1).keyTok, compact_strLit x id, .mk (l := []) (l' := []) .nil .nil⟩
    · refine tagFields_compact hu h1 hb.2 hN.2.2 fun e he => ?_
      have := (hE2 (.str e.1) (e.2.content x) (by rw [contentFieldsOf_map]; exact List.mem_map.mpr ⟨e, he, rfl⟩)).1
      exact fun h => this (by rw [h])
    · cases hs : x.explicitStructNames with
      | false => exact .inl (by simp [compact, hs])
      | true => exact .inr ⟨nm, compactName nm, [], compactName_tok hN.1, .nil, by simp [compact, hs]⟩
    · unfold tagLevels; rw [List.filterMap_cons, filterMap_some]; simp [SVal.content, contentFieldsOf, Content.levels, clevelsEntries]
  · simp only [TagBuffers, BuffersEntries] at hb
    simp only [SVal.Named, NamedEntries] at hN
    simp only [SVal.content, contentEntries, Content.map.injEq, List.cons.injEq] at hE1
    obtain ⟨-, hE1⟩ := hE1
    subst hE1
    refine ⟨id, contentEntries x kvs, hid, .inr ⟨compactEntries x ((.str tag, .str id) :: kvs), ⟨?_, ?_⟩, ?_⟩, h2 _ f hf hb.2, ?_⟩
    · exact ⟨_, _, .inl (compact_strLit x tag), compact_strLit x id, .mk (l := []) (l' := []) .nil .nil⟩
    · refine tagEntries_compact hu h1 hb.2 hN.2 fun e he => ?_
      exact hE2 (e.1.content x) (e.2.content x) (by rw [contentEntries_map]; exact List.mem_map.mpr ⟨e, he, rfl⟩)
    · have := (commas_delim '{' '}' (compactEntries x ((.str tag, .str id) :: kvs))).delim
      simpa [compact] using this
    · unfold tagLevels; rw [List.filterMap_cons, filterMap_some]; simp [SVal.content, contentEntries, Content.levels, clevelsEntries]

end Ron
