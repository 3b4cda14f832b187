import Verif.Spec.Buffer
import Verif.Spec.Compact
import Verif.Model.ContentDe
import Verif.Lemmas.Compact
import Verif.Lemmas.ContentRead
import Verif.Lemmas.Through
import Verif.Lemmas.Doc
/-! Data written compactly, buffered, and read from the buffer. -/

set_option linter.unusedSectionVars false
set_option linter.unusedVariables false
set_option linter.unusedSimpArgs false

namespace Ron

variable [Env]

theorem smallestU_small {t : IntTy} {i : Int} (ht : t.bits ≠ 128) (h : t.InRange i) : (Number.int t i).untyped.Small := by
  simp only [Number.untyped, Number.Small]
  split
  · next h0 => exact fun hb => ht (smallestS_wide h0 h hb)
  · next h0 => exact fun hb => ht (smallestU_wide (by omega) h hb)

theorem contents_map (x : Exts) (vs : List SVal) : contents x vs = vs.map (SVal.content x) := by
  induction vs with
  | nil => rfl
  | cons v vs ih => simp [contents, ih]
theorem contentEntries_map (x : Exts) (vs : List (SVal × SVal)) : contentEntries x vs = vs.map fun e => (e.1.content x, e.2.content x) := by
  induction vs with
  | nil => rfl
  | cons v vs ih => obtain ⟨a, b⟩ := v; simp [contentEntries, ih]
theorem contentFieldsOf_map (x : Exts) (vs : List (Text × SVal)) : contentFieldsOf x vs = vs.map fun e => (.str e.1, e.2.content x) := by
  induction vs with
  | nil => rfl
  | cons v vs ih => obtain ⟨a, b⟩ := v; simp [contentFieldsOf, ih]

theorem buffersAll_mem {x : Exts} : ∀ {vs : List SVal}, BuffersAll x vs → ∀ v ∈ vs, v.Buffers x
  | [], _, _, h => by simp at h
  | v :: vs, h, u, hu => by
    simp only [BuffersAll] at h
    rcases List.mem_cons.mp hu with rfl | hu
    · exact h.1
    · exact buffersAll_mem h.2 u hu
theorem buffersEntries_mem {x : Exts} : ∀ {vs : List (SVal × SVal)}, BuffersEntries x vs → ∀ v ∈ vs, v.1.Buffers x ∧ v.2.Buffers x
  | [], _, _, h => by simp at h
  | (k, v) :: vs, h, u, hu => by
    simp only [BuffersEntries] at h
    rcases List.mem_cons.mp hu with rfl | hu
    · exact h.1
    · exact buffersEntries_mem h.2 u hu
theorem buffersFields_mem {x : Exts} : ∀ {vs : List (Text × SVal)}, BuffersFields x vs → ∀ v ∈ vs, v.2.Buffers x
  | [], _, _, h => by simp at h
  | (k, v) :: vs, h, u, hu => by
    simp only [BuffersFields] at h
    rcases List.mem_cons.mp hu with rfl | hu
    · exact h.1
    · exact buffersFields_mem h.2 u hu

/-! ### Out of the buffer -/

omit [Env] in
theorem All2.of_right {α β : Type} {R : α → β → Prop} : ∀ {as : List α} {bs : List β}, All2 R as bs → ∀ b ∈ bs, ∃ a ∈ as, R a b
  | [], [], _, b, h => by simp at h
  | a :: as, b :: bs, h, c, hc => by
    rcases List.mem_cons.mp hc with rfl | hc
    · exact ⟨a, by simp, h.1⟩
    · obtain ⟨x, h1, h2⟩ := All2.of_right h.2 c hc
      exact ⟨x, by simp [h1], h2⟩
  | [], _ :: _, h, _, _ => h.elim
  | _ :: _, [], h, _, _ => h.elim

theorem contentTuple_ok {x : Exts} {P : Ty → SVal → Prop} {rec : Ty → Content → Except Err SVal} : ∀ {ts : List Ty} {vs : List SVal},
    All2 P ts vs → (∀ t v, v ∈ vs → P t v → rec t (v.content x) = .ok v) → contentTuple (ts.map rec) (contents x vs) = .ok vs
  | [], [], _, _ => rfl
  | t :: ts, v :: vs, h, hr => by
    have h1 := hr t v (by simp) h.1
    have h2 := contentTuple_ok h.2 (fun t v hv => hr t v (by simp [hv]))
    simp only [List.map_cons, contents, contentTuple, h1, h2]
    rfl
  | [], _ :: _, h, _ => h.elim
  | _ :: _, [], h, _ => h.elim

theorem contentList_ok {x : Exts} {rec : Content → Except Err SVal} : ∀ {vs : List SVal},
    (∀ v, v ∈ vs → rec (v.content x) = .ok v) → contentList rec (contents x vs) = .ok vs
  | [], _ => rfl
  | v :: vs, hr => by
    have h1 := hr v (by simp)
    have h2 := contentList_ok (vs := vs) (fun v hv => hr v (by simp [hv]))
    simp only [contents, contentList, h1, h2]
    rfl

theorem contentPairs_ok {x : Exts} {key val : Content → Except Err SVal} : ∀ {vs : List (SVal × SVal)},
    (∀ v, v ∈ vs → key (v.1.content x) = .ok v.1 ∧ val (v.2.content x) = .ok v.2) → contentPairs key val (contentEntries x vs) = .ok vs
  | [], _ => rfl
  | (a, b) :: vs, hr => by
    have h1 := hr (a, b) (by simp)
    have h2 := contentPairs_ok (vs := vs) (fun v hv => hr v (by simp [hv]))
    simp only [contentEntries, contentPairs, h1.1, h1.2, h2]
    rfl

/-- The fields of a struct. -/
theorem contentFields_ok {x : Exts} {rec : Ty → Content → Except Err SVal} {deny : Bool} {fields : List (Text × Ty)} :
    ∀ (ds : List (Text × SVal)) (got : Text → Option SVal),
    (∀ d ∈ ds, ∃ t, fields.find? (fun x => x.1 = d.1) = some (d.1, t) ∧ rec t (d.2.content x) = .ok d.2) →
    (ds.map Prod.fst).Nodup → (∀ d ∈ ds, got d.1 = none) →
    ∃ got', contentFields rec deny fields (contentFieldsOf x ds) got = .ok got' ∧ (∀ d ∈ ds, got' d.1 = some d.2) ∧
      (∀ k, k ∉ ds.map Prod.fst → got' k = got k)
  | [], got, _, _, _ => ⟨got, rfl, by simp, by simp⟩
  | (k, v) :: ds, got, hd, hn, hg => by
    obtain ⟨t, h1, h2⟩ := hd (k, v) (by simp)
    simp only [List.map_cons, List.nodup_cons] at hn
    have hg0 : got k = none := hg (k, v) (by simp)
    obtain ⟨got', g1, g2, g3⟩ := contentFields_ok (rec := rec) (deny := deny) (fields := fields) ds
      (fun j => if j = k then some v else got j) (fun d h => hd d (by simp [h])) hn.2 (fun d h => by
        have : d.1 ≠ k := fun e => hn.1 (e ▸ List.mem_map_of_mem h)
        simp only [this, ↓reduceIte]
        exact hg d (by simp [h]))
    refine ⟨got', ?_, ?_, ?_⟩
    · have hc : (fields.map Prod.fst).contains k = true := by
        have := List.mem_of_find?_eq_some h1
        simp only [List.contains_iff_mem]
        exact List.mem_map_of_mem (f := Prod.fst) this
      have hkey : contentField deny (fields.map Prod.fst) (.str k) = .ok (some k) := by
        simp only [contentField, fieldOfKey, fieldOfKey.named, hc, ↓reduceIte]
      simp only [contentFieldsOf, contentFields, hkey]
      simp only [bind, Except.bind, hg0, Option.isSome_none, Bool.false_eq_true, ↓reduceIte, h1, h2]
      exact g1
    · intro d hd'
      rcases List.mem_cons.mp hd' with rfl | h
      · rw [g3 k hn.1]; simp
      · exact g2 d h
    · intro j hj
      simp only [List.map_cons, List.mem_cons, not_or] at hj
      rw [g3 j hj.2, if_neg hj.1]

/-- The fields may stand in any order. -/
theorem contentStructOf_perm {x : Exts} {D : Nat → Ty} {n : Nat} {isOption : Ty → Bool} {rec : Ty → Content → Except Err SVal} {deny : Bool} {fields : List (Text × Ty)}
    {fs ds : List (Text × SVal)} (hp : ds.Perm fs) (hn : (fields.map Prod.fst).Nodup) (h1 : All2 (fun F f => F.1 = f.1 ∧ HasTy D n F.2 f.2) fields fs)
    (hr : ∀ t v, v ∈ fs.map Prod.snd → HasTy D n t v → rec t (v.content x) = .ok v) :
    contentStructOf isOption rec deny fields (contentFieldsOf x ds) = .ok fs := by
  have hnames : ∀ {fields : List (Text × Ty)} {fs : List (Text × SVal)}, All2 (fun F f => F.1 = f.1 ∧ HasTy D n F.2 f.2) fields fs →
      fields.map Prod.fst = fs.map Prod.fst := by
    intro fields
    induction fields with
    | nil => intro fs h; cases fs with
      | nil => rfl
      | cons => exact h.elim
    | cons a l ihl => intro fs h; cases fs with
      | nil => exact h.elim
      | cons b fs => simp only [List.map_cons, h.1.1, ihl h.2]
  have hmem : ∀ {fields : List (Text × Ty)} {fs : List (Text × SVal)}, All2 (fun F f => F.1 = f.1 ∧ HasTy D n F.2 f.2) fields fs →
      ∀ d ∈ fs, ∃ F ∈ fields, F.1 = d.1 ∧ HasTy D n F.2 d.2 := by
    intro fields
    induction fields with
    | nil => intro fs h; cases fs with
      | nil => simp
      | cons => exact h.elim
    | cons a l ihl => intro fs h; cases fs with
      | nil => exact h.elim
      | cons b fs =>
        intro d hd
        rcases List.mem_cons.mp hd with rfl | hd
        · exact ⟨a, by simp, h.1⟩
        · obtain ⟨F, hF, hh⟩ := ihl h.2 d hd
          exact ⟨F, by simp [hF], hh⟩
  obtain ⟨got, g1, g2, -⟩ := contentFields_ok (rec := rec) (deny := deny) (fields := fields) ds (fun _ => none) (fun d hd => by
    have hd := hp.mem_iff.mp hd
    obtain ⟨F, hF, hF1, hF2⟩ := hmem h1 d hd
    have := find_field hn hF
    obtain ⟨F1, F2⟩ := F
    simp only at hF1 hF2
    subst hF1
    exact ⟨F2, this, hr F2 d.2 (List.mem_map_of_mem hd) hF2⟩) ((hp.map Prod.fst).nodup_iff.mpr (hnames h1 ▸ hn)) (fun _ _ => rfl)
  unfold contentStructOf
  rw [g1]
  refine collectFields_ok (h1.mono fun F _ d hd h => ⟨h.1, .inl ?_⟩)
  rw [h.1]
  exact g2 d (hp.mem_iff.mpr hd)

theorem contentStructOf_ok {x : Exts} {D : Nat → Ty} {n : Nat} {isOption : Ty → Bool} {rec : Ty → Content → Except Err SVal} {deny : Bool} {fields : List (Text × Ty)}
    {fs : List (Text × SVal)} (hn : (fields.map Prod.fst).Nodup) (h1 : All2 (fun F f => F.1 = f.1 ∧ HasTy D n F.2 f.2) fields fs)
    (hr : ∀ t v, v ∈ fs.map Prod.snd → HasTy D n t v → rec t (v.content x) = .ok v) :
    contentStructOf isOption rec deny fields (contentFieldsOf x fs) = .ok fs :=
  contentStructOf_perm (.refl _) hn h1 hr

/-- Data are read from the buffer as they were. -/
theorem into_content (own : Bool) (D : Nat → Ty) {x : Exts} :
    ∀ (n f : Nat) (T : Ty) (v : SVal), n ≤ f → HasTy D n T v → v.Buffers x → Content.into own D f T (v.content x) = .ok v := by
  intro n
  induction n with
  | zero => intro f T v _ h; simp [HasTy] at h
  | succ n ih0 =>
    intro f T v hf hT hv
    obtain ⟨f, rfl⟩ : ∃ m, f = m + 1 := ⟨f - 1, by omega⟩
    have ih : ∀ T v, HasTy D n T v → v.Buffers x → Content.into own D f T (v.content x) = .ok v := fun T v => ih0 f T v (by omega)
    cases T with
    | bool => obtain ⟨b, rfl⟩ := hT; rfl
    | int t =>
      obtain ⟨i, rfl, h1, h2⟩ := hT
      simp only [SVal.Buffers, Number.Small] at hv
      have h3 : ¬ (t = .i128 ∨ t = .u128) := by
        rintro (rfl | rfl) <;> exact hv.1 rfl
      simp only [SVal.content, Content.into, if_neg h3]
      exact into_int false h2
    | f32 => obtain ⟨b, rfl, h1⟩ := hT; exact into_f32 false h1 (by simp only [SVal.Buffers] at hv; exact hv.2)
    | f64 => obtain ⟨b, rfl, h1⟩ := hT; exact into_f64 false h1
    | char => obtain ⟨b, rfl⟩ := hT; rfl
    | str => obtain ⟨b, rfl⟩ := hT; rfl
    | bytes => obtain ⟨b, rfl⟩ := hT; rfl
    | unit => cases hT; rfl
    | unitStruct name => cases hT; rfl
    | newtype name t =>
      obtain ⟨u, rfl, h1⟩ := hT
      simp only [SVal.Buffers] at hv
      simp only [SVal.content, Content.into, ih t u h1 hv.2]
      rfl
    | option t =>
      rcases hT with rfl | ⟨u, rfl, h1⟩
      · rfl
      · simp only [SVal.Buffers] at hv
        have hu := ih t u h1 hv.1
        cases hi : x.implicitSome with
        | false =>
          simp only [SVal.content, hi, Bool.false_eq_true, ↓reduceIte, Content.into, hu]
          rfl
        | true =>
          have h0 := hv.2 hi
          simp only [SVal.content, hi, ↓reduceIte]
          cases hc : u.content x <;> rw [hc] at hu h0 <;> first | exact absurd rfl h0 | (simp only [Content.inSome, Content.into, hu]; rfl)
    | seq t =>
      obtain ⟨vs, rfl, h1⟩ := hT
      have hv' := buffersAll_mem (by simpa only [SVal.Buffers] using hv)
      simp only [SVal.content, Content.into, contentList_ok fun v hm => ih t v (h1 v hm) (hv' v hm)]
      rfl
    | tuple ts =>
      obtain ⟨vs, rfl, h1⟩ := hT
      simp only [SVal.Buffers] at hv
      simp only [SVal.content, Content.into, contentTuple_ok h1 fun t v hm h => ih t v h (buffersAll_mem hv.2 v hm)]
      rfl
    | tupleStruct name ts =>
      obtain ⟨vs, rfl, h1⟩ := hT
      simp only [SVal.Buffers] at hv
      simp only [SVal.content, Content.into, contentTuple_ok h1 fun t v hm h => ih t v h (buffersAll_mem hv.2 v hm)]
      rfl
    | map k w =>
      obtain ⟨kvs, rfl, h1⟩ := hT
      simp only [SVal.Buffers] at hv
      have hv' := buffersEntries_mem hv
      simp only [SVal.content, Content.into, contentPairs_ok fun v hm => ⟨ih k v.1 (h1 v hm).1 (hv' v hm).1, ih w v.2 (h1 v hm).2 (hv' v hm).2⟩]
      rfl
    | struct name deny fields =>
      obtain ⟨fs, rfl, hn, h1⟩ := hT
      simp only [SVal.Buffers] at hv
      have := contentStructOf_ok (isOption := fieldOf D f) (rec := Content.into own D f) (deny := deny) hn h1 fun t v hm h => by
        obtain ⟨d, hd, rfl⟩ := List.mem_map.mp hm
        exact ih t d.2 h (buffersFields_mem hv.2 d hd)
      simp only [SVal.content, Content.into, this]
      rfl
    | enum name variants =>
      obtain ⟨id, k, hk, hn, h⟩ := hT
      have hf := find_field hn hk
      have hc : (variants.map Prod.fst).contains id = true := by
        simp only [List.contains_iff_mem]
        exact List.mem_map_of_mem (f := Prod.fst) hk
      have hid : contentVariant (variants.map Prod.fst) (.str id) = .ok id := by simp only [contentVariant, hc, ↓reduceIte]
      have hE : ∀ data, contentEnum own (fieldOf D f) (Content.into own D f) name variants (.str id) data =
          contentEnumData own (fieldOf D f) (Content.into own D f) name id k data := by
        intro data
        simp only [contentEnum, hid]
        simp only [bind, Except.bind]
        simp only at hf
        rw [hf]
      cases k with
      | unit => cases h; simp only [SVal.content, Content.into, hE, contentEnumData]
      | newtype =>
        obtain ⟨u, rfl, h1⟩ := h
        simp only [SVal.Buffers] at hv
        simp only [SVal.content, Content.into, hE, contentEnumData, ih _ u h1 hv]
        rfl
      | tuple =>
        obtain ⟨vs, rfl, h1⟩ := h
        simp only [SVal.Buffers] at hv
        simp only [SVal.content, Content.into, hE, contentEnumData, contentTuple_ok h1 fun t v hm h => ih t v h (buffersAll_mem hv.2 v hm)]
        rfl
      | struct deny fields =>
        obtain ⟨fs, rfl, hn', h1⟩ := h
        simp only [SVal.Buffers] at hv
        have := contentStructOf_ok (isOption := fieldOf D f) (rec := Content.into own D f) (deny := deny) hn' h1 fun t v hm h => by
          obtain ⟨d, hd, rfl⟩ := List.mem_map.mp hm
          exact ih t d.2 h (buffersFields_mem hv.2 d hd)
        simp only [SVal.content, Content.into, hE, contentEnumData, this]
        rfl
    | value => exact hT.elim
    | raw => exact hT.elim
    | ref i => exact ih (D i) v hT hv

/-! ### Into the buffer -/

omit [Env] in
theorem blank_nil : Blank [] := fun c h => by simp at h

omit [Env] in
theorem commas_body : ∀ (t : Text) (ts : List Text), BBody (t :: ts) (commas (t :: ts))
  | t, [] => .one
  | t, u :: ts => by
    have := BBody.cons (t := t) blank_nil blank_nil (commas_body u ts)
    simpa [commas] using this

omit [Env] in
theorem commas_delim (o c : Char) (ts : List Text) : BDelim o c ts (o :: (commas ts ++ [c])) := by
  cases ts with
  | nil => exact .nil blank_nil
  | cons t ts =>
    have := BDelim.items (o := o) (c := c) blank_nil (commas_body t ts) (.plain blank_nil)
    simpa using this

theorem compactName_tok {n : Text} (h : RawName n) : NameTok n (compactName n) := by
  rw [← identText_compact]
  exact .identText h

theorem namedAll_mem : ∀ {vs : List SVal}, NamedAll vs → ∀ v ∈ vs, v.Named
  | [], _, _, h => by simp at h
  | v :: vs, h, u, hu => by
    simp only [NamedAll] at h
    rcases List.mem_cons.mp hu with rfl | hu
    · exact h.1
    · exact namedAll_mem h.2 u hu
theorem namedEntries_mem : ∀ {vs : List (SVal × SVal)}, NamedEntries vs → ∀ v ∈ vs, v.1.Named ∧ v.2.Named
  | [], _, _, h => by simp at h
  | (k, v) :: vs, h, u, hu => by
    simp only [NamedEntries] at h
    rcases List.mem_cons.mp hu with rfl | hu
    · exact h.1
    · exact namedEntries_mem h.2 u hu
theorem namedFields_mem : ∀ {vs : List (Text × SVal)}, NamedFields vs → ∀ v ∈ vs, RawName v.1 ∧ v.2.Named
  | [], _, _, h => by simp at h
  | (k, v) :: vs, h, u, hu => by
    simp only [NamedFields] at h
    rcases List.mem_cons.mp hu with rfl | hu
    · exact h.1
    · exact namedFields_mem h.2 u hu

theorem ctextAll_compact {x : Exts} : ∀ {vs : List SVal}, (∀ v ∈ vs, CText (v.content x) (compact x false 0 v)) →
    CTextAll (contents x vs) (compactAll x vs)
  | [], _ => by simp [contents, compactAll, CTextAll]
  | v :: vs, h => by
    simp only [contents, compactAll, CTextAll]
    exact ⟨h v (by simp), ctextAll_compact fun u hu => h u (by simp [hu])⟩
theorem ctextEntries_compact {x : Exts} : ∀ {vs : List (SVal × SVal)}, (∀ v ∈ vs, CText (v.1.content x) (compact x false 0 v.1) ∧
    CText (v.2.content x) (compact x false 0 v.2)) → CTextEntries (contentEntries x vs) (compactEntries x vs)
  | [], _ => by simp [contentEntries, compactEntries, CTextEntries]
  | (k, v) :: vs, h => by
    simp only [contentEntries, compactEntries, CTextEntries]
    obtain ⟨h1, h2⟩ := h (k, v) (by simp)
    exact ⟨⟨_, _, h1, h2, .mk blank_nil blank_nil⟩, ctextEntries_compact fun u hu => h u (by simp [hu])⟩
theorem ctextFields_compact {x : Exts} : ∀ {vs : List (Text × SVal)}, (∀ v ∈ vs, RawName v.1 ∧
    CText (v.2.content x) (compact x false 0 v.2)) → CTextFields (contentFieldsOf x vs) (compactFields x vs)
  | [], _ => by simp [contentFieldsOf, compactFields, CTextFields]
  | (k, v) :: vs, h => by
    simp only [contentFieldsOf, compactFields, CTextFields]
    obtain ⟨h1, h2⟩ := h (k, v) (by simp)
    exact ⟨⟨_, _, _, rfl, (compactName_tok h1).keyTok, h2, .mk blank_nil blank_nil⟩, ctextFields_compact fun u hu => h u (by simp [hu])⟩

/-- Content inside `k` options of which `Some` is not written. -/
def inSomesOf : Nat → Content → Content
  | 0, c => c
  | k + 1, c => inSomesOf k c.inSome

omit [Env] in
theorem inSomesOf_bool (b : Bool) : ∀ k, inSomesOf k (.bool b) = .bool b
  | 0 => rfl
  | k + 1 => inSomesOf_bool b k
omit [Env] in
theorem inSomesOf_num (b : Number) : ∀ k, inSomesOf k (.num b) = .num b
  | 0 => rfl
  | k + 1 => inSomesOf_num b k
omit [Env] in
theorem inSomesOf_char (b : Char) : ∀ k, inSomesOf k (.char b) = .char b
  | 0 => rfl
  | k + 1 => inSomesOf_char b k
omit [Env] in
theorem inSomesOf_str (b : Text) : ∀ k, inSomesOf k (.str b) = .str b
  | 0 => rfl
  | k + 1 => inSomesOf_str b k
omit [Env] in
theorem inSomesOf_bytes (b : List UInt8) : ∀ k, inSomesOf k (.bytes b) = .bytes b
  | 0 => rfl
  | k + 1 => inSomesOf_bytes b k
omit [Env] in
theorem inSomesOf_seq (b : List Content) : ∀ k, inSomesOf k (.seq b) = .seq b
  | 0 => rfl
  | k + 1 => inSomesOf_seq b k
omit [Env] in
theorem inSomesOf_map (b : List (Content × Content)) : ∀ k, inSomesOf k (.map b) = .map b
  | 0 => rfl
  | k + 1 => inSomesOf_map b k
omit [Env] in
theorem inSomesOf_unit : ∀ k, inSomesOf k .unit = .unit
  | 0 => rfl
  | k + 1 => inSomesOf_unit k

theorem ctext_none (k : Nat) : CText (inSomesOf k .none) (inSomes k c!"None") := by
  have h : ∀ k c w, CText (.some c) w → CText (inSomesOf k (.some c)) (inSomes k w) := by
    intro k
    induction k with
    | zero => intro c w h; simpa [inSomesOf, inSomes] using h
    | succ k ih =>
      intro c w h
      have := ih (.some c) (c!"Some(" ++ (w ++ [')'])) (by
        rw [CText]
        exact ⟨[], [], w, [], blank_nil, blank_nil, h, .plain blank_nil, by simp⟩)
      simp only [inSomesOf, Content.inSome]
      have e : inSomes k (c!"Some(" ++ (w ++ [')'])) = inSomes (k + 1) w := by
        simp only [inSomes]
        rw [List.replicate_succ' (n := k) (a := c!"Some(")]
        rw [List.replicate_succ (n := k) (a := ')')]
        simp
      rwa [e] at this
  cases k with
  | zero => simp [inSomesOf, inSomes, CText]
  | succ k =>
    have := h k .none c!"Some(None)" (by
      rw [CText]
      exact ⟨[], [], c!"None", [], blank_nil, blank_nil, by simp [CText], .plain blank_nil, rfl⟩)
    simp only [inSomesOf, Content.inSome]
    have e : inSomes k c!"Some(None)" = inSomes (k + 1) c!"None" := by
      simp only [inSomes]
      rw [List.replicate_succ' (n := k) (a := c!"Some(")]
      rw [List.replicate_succ (n := k) (a := ')')]
      simp
    rwa [e] at this

/-- The compact form of data inside `k` options that are not written is buffered as their content. -/
theorem compact_ctext_at (D : Nat → Ty) {x : Exts} (hu : x.unwrapVariantNewtypes = false) :
    ∀ (n : Nat) (T : Ty) (v : SVal), HasTy D n T v → v.Buffers x → v.Named → ∀ k, (x.implicitSome = false → k = 0) →
      CText (inSomesOf k (v.content x)) (compact x false k v) := by
  intro n
  induction n with
  | zero => intro T v h; simp [HasTy] at h
  | succ n ih0 =>
    intro T v hT hv hN k hk0
    have ih : ∀ T v, HasTy D n T v → v.Buffers x → v.Named → CText (v.content x) (compact x false 0 v) :=
      fun T v h1 h2 h3 => ih0 T v h1 h2 h3 0 fun _ => rfl
    cases T with
    | bool => obtain ⟨b, rfl⟩ := hT; simp only [SVal.content, inSomesOf_num, inSomesOf_bool, inSomesOf_char, inSomesOf_str, inSomesOf_bytes, inSomesOf_seq, inSomesOf_map, compact, CText]
    | int t =>
      obtain ⟨i, rfl, h1, h2⟩ := hT
      simp only [SVal.Buffers, Number.Small] at hv
      simp only [SVal.content, inSomesOf_num, inSomesOf_bool, inSomesOf_char, inSomesOf_str, inSomesOf_bytes, inSomesOf_seq, inSomesOf_map, compact, CText]
      exact ⟨smallestU_small hv.1 h2, .int t i, false, ⟨h1, h2⟩, rfl, rfl⟩
    | f32 =>
      obtain ⟨b, rfl, h1⟩ := hT
      simp only [SVal.content, inSomesOf_num, inSomesOf_bool, inSomesOf_char, inSomesOf_str, inSomesOf_bytes, inSomesOf_seq, inSomesOf_map, compact, CText]
      refine ⟨?_, .f32 b, false, trivial, rfl, rfl⟩
      simp only [Number.untyped]
      repeat' split
      all_goals (try unfold untypedFloat)
      all_goals (try split)
      all_goals trivial
    | f64 =>
      obtain ⟨b, rfl, h1⟩ := hT
      simp only [SVal.content, inSomesOf_num, inSomesOf_bool, inSomesOf_char, inSomesOf_str, inSomesOf_bytes, inSomesOf_seq, inSomesOf_map, compact, CText]
      refine ⟨?_, .f64 b, false, trivial, rfl, rfl⟩
      simp only [Number.untyped, untypedFloat]
      split <;> trivial
    | char => obtain ⟨b, rfl⟩ := hT; simp only [SVal.content, inSomesOf_num, inSomesOf_bool, inSomesOf_char, inSomesOf_str, inSomesOf_bytes, inSomesOf_seq, inSomesOf_map, compact, CText]
    | str =>
      obtain ⟨b, rfl⟩ := hT
      simp only [SVal.content, inSomesOf_num, inSomesOf_bool, inSomesOf_char, inSomesOf_str, inSomesOf_bytes, inSomesOf_seq, inSomesOf_map, compact, CText]
      have := strText_lit true b
      simp only [strText, ↓reduceIte] at this
      exact .inl this
    | bytes =>
      obtain ⟨b, rfl⟩ := hT
      simp only [SVal.content, inSomesOf_num, inSomesOf_bool, inSomesOf_char, inSomesOf_str, inSomesOf_bytes, inSomesOf_seq, inSomesOf_map, compact, CText]
      have := bytesText_lit true b
      simp only [bytesText] at this
      exact this
    | unit => cases hT; simp [SVal.content, inSomesOf_unit, compact, CText]
    | unitStruct name =>
      cases hT
      simp only [SVal.Buffers] at hv
      simp [SVal.content, inSomesOf_unit, compact, CText, hv]
    | newtype name t =>
      obtain ⟨u, rfl, h1⟩ := hT
      simp only [SVal.Buffers, SVal.Named] at hv hN
      simp only [SVal.content, compact, hv.1, Bool.true_or, ↓reduceIte]
      exact ih0 t u h1 hv.2 hN.2 k hk0
    | option t =>
      rcases hT with rfl | ⟨u, rfl, h1⟩
      · simp only [SVal.content, compact]
        exact ctext_none k
      · simp only [SVal.Buffers, SVal.Named] at hv hN
        cases hi : x.implicitSome with
        | false =>
          cases hk0 hi
          simp only [SVal.content, inSomesOf, compact, hi, hu, Bool.false_eq_true, ↓reduceIte, CText]
          exact ⟨[], [], _, [], blank_nil, blank_nil, ih t u h1 hv.1 hN, .plain blank_nil, by simp⟩
        | true =>
          simp only [SVal.content, compact, hi, ↓reduceIte]
          exact ih0 t u h1 hv.1 hN (k + 1) fun h => by simp [hi] at h
    | seq t =>
      obtain ⟨vs, rfl, h1⟩ := hT
      simp only [SVal.Buffers, SVal.Named] at hv hN
      simp only [SVal.content, inSomesOf_num, inSomesOf_bool, inSomesOf_char, inSomesOf_str, inSomesOf_bytes, inSomesOf_seq, inSomesOf_map, compact, CText]
      exact ⟨_, ctextAll_compact fun v hm => ih t v (h1 v hm) (buffersAll_mem hv v hm) (namedAll_mem hN v hm), .inl (commas_delim ..)⟩
    | tuple ts =>
      obtain ⟨vs, rfl, h1⟩ := hT
      simp only [SVal.Buffers, SVal.Named] at hv hN
      simp only [SVal.content, inSomesOf_num, inSomesOf_bool, inSomesOf_char, inSomesOf_str, inSomesOf_bytes, inSomesOf_seq, inSomesOf_map, compact, CText, Bool.false_eq_true, ↓reduceIte]
      refine ⟨_, ctextAll_compact fun v hm => ?_, .inr ⟨?_, commas_delim ..⟩⟩
      · obtain ⟨t, -, h⟩ := h1.of_right v hm
        exact ih t v h (buffersAll_mem hv.2 v hm) (namedAll_mem hN v hm)
      · rw [contents_map]; simpa using hv.1
    | tupleStruct name ts =>
      obtain ⟨vs, rfl, h1⟩ := hT
      simp only [SVal.Buffers, SVal.Named] at hv hN
      simp only [SVal.content, inSomesOf_num, inSomesOf_bool, inSomesOf_char, inSomesOf_str, inSomesOf_bytes, inSomesOf_seq, inSomesOf_map, compact, CText, hv.1.1, Bool.false_eq_true, ↓reduceIte]
      refine ⟨_, ctextAll_compact fun v hm => ?_, .inr ⟨?_, commas_delim ..⟩⟩
      · obtain ⟨t, -, h⟩ := h1.of_right v hm
        exact ih t v h (buffersAll_mem hv.2 v hm) (namedAll_mem hN.2 v hm)
      · rw [contents_map]; simpa using hv.1.2
    | map K w =>
      obtain ⟨kvs, rfl, h1⟩ := hT
      simp only [SVal.Buffers, SVal.Named] at hv hN
      simp only [SVal.content, inSomesOf_num, inSomesOf_bool, inSomesOf_char, inSomesOf_str, inSomesOf_bytes, inSomesOf_seq, inSomesOf_map, compact, CText]
      exact .inl ⟨_, ctextEntries_compact fun v hm => ⟨ih K v.1 (h1 v hm).1 (buffersEntries_mem hv v hm).1 (namedEntries_mem hN v hm).1,
        ih w v.2 (h1 v hm).2 (buffersEntries_mem hv v hm).2 (namedEntries_mem hN v hm).2⟩, commas_delim ..⟩
    | struct name deny fields =>
      obtain ⟨fs, rfl, hn, h1⟩ := hT
      simp only [SVal.Buffers, SVal.Named] at hv hN
      simp only [SVal.content, inSomesOf_num, inSomesOf_bool, inSomesOf_char, inSomesOf_str, inSomesOf_bytes, inSomesOf_seq, inSomesOf_map, compact, CText, hv.1.1, Bool.false_eq_true, ↓reduceIte]
      refine .inr (.inl ⟨_, ?_, ctextFields_compact fun v hm => ⟨(namedFields_mem hN.2 v hm).1, ?_⟩, commas_delim ..⟩)
      · rw [contentFieldsOf_map]; simpa using hv.1.2
      · obtain ⟨t, -, h⟩ := h1.of_right v hm
        exact ih t.2 v.2 h.2 (buffersFields_mem hv.2 v hm) (namedFields_mem hN.2 v hm).2
    | enum name variants =>
      obtain ⟨id, k, hk, hn, h⟩ := hT
      cases k with
      | unit =>
        cases h
        simp only [SVal.Named] at hN
        simp only [SVal.content, inSomesOf_num, inSomesOf_bool, inSomesOf_char, inSomesOf_str, inSomesOf_bytes, inSomesOf_seq, inSomesOf_map, compact, CText]
        exact .inr (compactName_tok hN.2)
      | newtype =>
        obtain ⟨u, rfl, h1⟩ := h
        simp only [SVal.Buffers, SVal.Named] at hv hN
        simp only [SVal.content, inSomesOf_num, inSomesOf_bool, inSomesOf_char, inSomesOf_str, inSomesOf_bytes, inSomesOf_seq, inSomesOf_map, compact, CText, hu, CTextVariant]
        exact .inr (.inr ⟨_, _, [], _, rfl, compactName_tok hN.2.1, blank_nil, rfl,
          .inl ⟨[], _, [], blank_nil, ih _ u h1 hv hN.2.2, blank_nil, by simp⟩⟩)
      | tuple =>
        obtain ⟨vs, rfl, h1⟩ := h
        simp only [SVal.Buffers, SVal.Named] at hv hN
        simp only [SVal.content, inSomesOf_num, inSomesOf_bool, inSomesOf_char, inSomesOf_str, inSomesOf_bytes, inSomesOf_seq, inSomesOf_map, compact, CText, CTextVariant]
        refine .inr (.inr ⟨_, _, [], _, rfl, compactName_tok hN.2.1, blank_nil, rfl, .inr ?_⟩)
        simp only [CTextArgs]
        refine ⟨by rw [contents_map]; simpa using hv.1, _, ctextAll_compact fun v hm => ?_, commas_delim ..⟩
        obtain ⟨t, -, h⟩ := h1.of_right v hm
        exact ih t v h (buffersAll_mem hv.2 v hm) (namedAll_mem hN.2.2 v hm)
      | struct deny fields =>
        obtain ⟨fs, rfl, hn', h1⟩ := h
        simp only [SVal.Buffers, SVal.Named] at hv hN
        simp only [SVal.content, inSomesOf_num, inSomesOf_bool, inSomesOf_char, inSomesOf_str, inSomesOf_bytes, inSomesOf_seq, inSomesOf_map, compact, CText, CTextVariant]
        refine .inr (.inr ⟨_, _, [], _, rfl, compactName_tok hN.2.1, blank_nil, rfl, .inr ?_⟩)
        simp only [CTextArgs]
        refine ⟨by rw [contentFieldsOf_map]; simpa using hv.1, _, ctextFields_compact fun v hm => ⟨(namedFields_mem hN.2.2 v hm).1, ?_⟩, commas_delim ..⟩
        obtain ⟨t, -, h⟩ := h1.of_right v hm
        exact ih t.2 v.2 h.2 (buffersFields_mem hv.2 v hm) (namedFields_mem hN.2.2 v hm).2
    | value => exact hT.elim
    | raw => exact hT.elim
    | ref i => exact ih0 (D i) v hT hv hN k hk0

/-- The compact form of data is buffered as their content. -/
theorem compact_ctext (D : Nat → Ty) {x : Exts} (hu : x.unwrapVariantNewtypes = false) (n : Nat) (T : Ty) (v : SVal) (hT : HasTy D n T v)
    (hv : v.Buffers x) (hN : v.Named) : CText (v.content x) (compact x false 0 v) := compact_ctext_at D hu n T v hT hv hN 0 fun _ => rfl

/-- A buffered document. -/
theorem deContent_reads {x : Exts} (hx : x.unwrapVariantNewtypes = false) {c : Content} {w : Text} (h : CText c w) :
    Reads x c.levels deContent w c := by
  refine ⟨(ctext_reads hx c w _ h (Nat.lt_succ_self _)).1, fun d l q hp hd hl hq => ?_⟩
  have hf : w.length < 2 * d.rest.length + 2 := by rw [hd, List.length_append]; omega
  obtain ⟨s', l', h1, h2⟩ := (ctext_reads hx c w _ h hf).2 d l q hp hd hl hq
  refine ⟨s', l', ?_, h2⟩
  unfold deContent
  rw [bind_apply, getSt_apply]
  exact h1

end Ron
