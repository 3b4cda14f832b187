import Verif.Lemmas.FieldAttrs
/-!
# C57: defaults, aliases, renamed and skipped fields

Structs whose fields have the serde attributes `default`, `alias`, `rename`, `skip_serializing_if`, `skip_serializing`, `skip_deserializing`.
-/

set_option linter.unusedSectionVars false

namespace Ron

section
variable [Env]

/-- Entries in any order, each under any of the names of its field, are read; unknown entries are passed over unless they are denied; a field without an
entry takes its default, or `None` if it is optional. -/
theorem C57_read (o : Options) (D : Nat → Ty) (n f k : Nat) (name : Text) (deny : Bool) (known : List Text) (fields : List AField)
    (its : List AItem) (vs : List SVal) (sfx : Bool) (ts : List Text) (p w hdr l l' : Text) (e : Exts) (hA : Apart fields) (hf : n ≤ f) (h0 : 0 < f)
    (hT : FaTyped D n deny its) (hn : (faIds its).Nodup) (hS : Stand fields its vs) (hp : OptName (e.union o.defaultExtensions) name p)
    (hE : All2 (FaText (e.union o.defaultExtensions) sfx fields) ts its) (hD : Delim '(' ')' ts w) (hlev : ∀ it ∈ its, it.levels ≤ k)
    (hl : Layout l) (hl' : Layout l') (hh : Attrs hdr e) (hk : ∀ m, o.recursionLimit = some m → (if ts = [] then 0 else k + 1) + 1 ≤ m) :
    fromStr o (deFieldAttrs D f name deny known fields) (l ++ (hdr ++ ((p ++ w) ++ l'))) = .ok vs :=
  doc_reads (fa_reads hp hD (fa_fold hA hf ts its _ hE hT hn (fun _ _ => rfl) hlev) (stand_end h0 hn hS)) hl hh rfl hk hl'

/-- A field without an entry and without a default that is not optional: the error gives the name of such a field and that of the struct. -/
theorem C57_missing (o : Options) (D : Nat → Ty) (n f k : Nat) (name : Text) (deny : Bool) (known : List Text) (fields : List AField)
    (its : List AItem) (F : AField) (sfx : Bool) (ts : List Text) (p w hdr l r : Text) (e : Exts) (hA : Apart fields) (hf : n ≤ f)
    (hT : FaTyped D n deny its) (hn : (faIds its).Nodup) (hF : F ∈ fields) (hm : F.id ∉ faIds its) (hd : F.dflt = none) (ho : ¬ IsOption D F.ty)
    (hp : OptName (e.union o.defaultExtensions) name p)
    (hE : All2 (FaText (e.union o.defaultExtensions) sfx fields) ts its) (hD : Delim '(' ')' ts ('(' :: w)) (hlev : ∀ it ∈ its, it.levels ≤ k)
    (hl : Layout l) (hh : Attrs hdr e) (hk : ∀ m, o.recursionLimit = some m → k + 2 ≤ m) :
    ∃ G ∈ fields, G.id ∉ faIds its ∧ G.dflt = none ∧ ∃ sp, fromStr o (deFieldAttrs D f name deny known fields) (l ++ (hdr ++ (p ++ '(' :: (w ++ r)))) =
      .error (.missingStructField G.name (if name.isEmpty then none else some name), sp) := by
  have hnone : fieldOf D f F.ty = false := by
    cases h : fieldOf D f F.ty with
    | false => rfl
    | true => exact absurd (isOption_of h) ho
  obtain ⟨G, hG, h1, h2, -, h3⟩ := faEnd_missing (isOption := fieldOf D f) (got := faGot its fun _ => none) (fields := fields)
    ⟨F, hF, faGot_not hm, hd, hnone⟩
  refine ⟨G, hG, fun hG' => ?_, h2, ?_⟩
  · obtain ⟨H, v, g1, g2⟩ := faIds_of hG'
    have := faGot_mem (got := fun _ => none) g1 hn
    rw [g2, h1] at this
    cases this
  · exact fa_doc hp (fun d hpre hd => fa_failsAfter hD (fa_fold hA hf ts its _ hE hT hn (fun _ _ => rfl) hlev) h3 hpre hd) hl hh rfl hk

/-- A second entry for a field, even under another of its names: the error gives the name of the field, whatever follows. -/
theorem C57_twice (o : Options) (D : Nat → Ty) (n f k : Nat) (name : Text) (deny : Bool) (known : List Text) (fields : List AField)
    (its : List AItem) (F : AField) (sfx : Bool) (ts : List Text) (p w key kt z hdr l : Text) (e : Exts) (hA : Apart fields) (hf : n ≤ f)
    (hT : FaTyped D n deny its) (hn : (faIds its).Nodup) (hF : F ∈ fields) (hm : F.id ∈ faIds its) (hkey : F.Takes key)
    (hp : OptName (e.union o.defaultExtensions) name p) (hE : All2 (FaText (e.union o.defaultExtensions) sfx fields) ts its) (hw : Before ts w)
    (hkt : NameTok key kt) (hz : IdentFollow z) (hlev : ∀ it ∈ its, it.levels ≤ k)
    (hl : Layout l) (hh : Attrs hdr e) (hk : ∀ m, o.recursionLimit = some m → k + 2 ≤ m) :
    ∃ sp, fromStr o (deFieldAttrs D f name deny known fields) (l ++ (hdr ++ (p ++ '(' :: (w ++ (kt ++ z))))) =
      .error (.duplicateStructField F.name (if name.isEmpty then none else some name), sp) := by
  have hgot : (faGot its (fun _ => none) F.id).isSome = true := by
    obtain ⟨H, v, g1, g2⟩ := faIds_of hm
    rw [← g2, faGot_mem g1 hn]
    rfl
  exact fa_doc hp (fun d hpre hd => fa_failsTwice hw (fa_fold hA hf ts its _ hE hT hn (fun _ _ => rfl) hlev) hkt hz
    (find_takes hF hA hkey) hgot hpre hd) hl hh rfl hk

/-- An unknown name that is denied, for example that of a field with `skip_deserializing`: the error gives it, whatever follows. -/
theorem C57_unknown (o : Options) (D : Nat → Ty) (n f k : Nat) (name : Text) (known : List Text) (fields : List AField)
    (its : List AItem) (sfx : Bool) (ts : List Text) (p w key kt z hdr l : Text) (e : Exts) (hA : Apart fields) (hf : n ≤ f)
    (hT : FaTyped D n true its) (hn : (faIds its).Nodup) (hkey : ∀ F ∈ fields, ¬ F.Takes key)
    (hp : OptName (e.union o.defaultExtensions) name p) (hE : All2 (FaText (e.union o.defaultExtensions) sfx fields) ts its) (hw : Before ts w)
    (hkt : NameTok key kt) (hz : IdentFollow z) (hlev : ∀ it ∈ its, it.levels ≤ k)
    (hl : Layout l) (hh : Attrs hdr e) (hk : ∀ m, o.recursionLimit = some m → k + 2 ≤ m) :
    ∃ sp, fromStr o (deFieldAttrs D f name true known fields) (l ++ (hdr ++ (p ++ '(' :: (w ++ (kt ++ z))))) =
      .error (.noSuchStructField known key (if name.isEmpty then none else some name), sp) :=
  fa_doc hp (fun d hpre hd => fa_failsUnknown hw (fa_fold hA hf ts its _ hE hT hn (fun _ _ => rfl) hlev) hkt hz
    (find_takes_none hkey) hpre hd) hl hh rfl hk

/-! ### What was written -/

/-- The entries that are written. -/
def faItems : List AField → List SVal → List AItem
  | F :: Fs, v :: vs => if F.skipIf v then faItems Fs vs else .field F v :: faItems Fs vs
  | _, _ => []

omit [Env] in
theorem faItems_ids : ∀ {fields : List AField} {vs : List SVal} {i : Text}, i ∈ faIds (faItems fields vs) → ∃ F ∈ fields, F.id = i
  | F :: Fs, v :: vs, i, h => by
    rw [faItems] at h
    split at h
    · obtain ⟨G, hG, h⟩ := faItems_ids h
      exact ⟨G, by simp [hG], h⟩
    · simp only [faIds, List.mem_cons] at h
      rcases h with rfl | h
      · exact ⟨F, by simp, rfl⟩
      · obtain ⟨G, hG, h⟩ := faItems_ids h
        exact ⟨G, by simp [hG], h⟩
  | [], _, _, h => by simp [faItems, faIds] at h
  | _ :: _, [], _, h => by simp [faItems, faIds] at h

omit [Env] in
theorem faItems_nodup : ∀ {fields : List AField} {vs : List SVal}, Apart fields → (faIds (faItems fields vs)).Nodup
  | F :: Fs, v :: vs, hA => by
    unfold Apart at hA
    rw [List.pairwise_cons] at hA
    rw [faItems]
    split
    · exact faItems_nodup hA.2
    · rw [faIds, List.nodup_cons]
      refine ⟨fun h => ?_, faItems_nodup hA.2⟩
      obtain ⟨G, hG, h⟩ := faItems_ids h
      exact (hA.1 G hG).1 h.symm
  | [], _, _ => by simp [faItems, faIds]
  | _ :: _, [], _ => by simp [faItems, faIds]

omit [Env] in
theorem all2_restrict {α β : Type} {R S : α → β → Prop} : ∀ {as : List α} {bs : List β}, All2 R as bs → (∀ a ∈ as, ∀ b, R a b → S a b) → All2 S as bs
  | [], [], _, _ => trivial
  | a :: as, b :: bs, h, hi => ⟨hi a (by simp) b h.1, all2_restrict h.2 fun a ha => hi a (by simp [ha])⟩
  | [], _ :: _, h, _ => h.elim
  | _ :: _, [], h, _ => h.elim

omit [Env] in
theorem faItems_stand : ∀ {fields : List AField} {vs us : List SVal}, Apart fields → Reset fields vs us → Stand fields (faItems fields vs) us
  | [], [], [], _, _ => trivial
  | F :: Fs, v :: vs, u :: us, hA, h => by
    unfold Apart at hA
    rw [List.pairwise_cons] at hA
    have ih := faItems_stand hA.2 h.2
    rcases h.1 with ⟨h1, -, rfl⟩ | ⟨h1, h2⟩
    · rw [faItems, if_neg (by simp [h1])]
      refine ⟨.inl (by simp), all2_restrict ih fun G hG b hb => ?_⟩
      rcases hb with hb | ⟨hb, hb'⟩
      · exact .inl (by simp [hb])
      · refine .inr ⟨?_, hb'⟩
        simp only [faIds, List.mem_cons, not_or]
        exact ⟨fun h => (hA.1 G hG).1 h.symm, hb⟩
    · rw [faItems, if_pos h1]
      refine ⟨.inr ⟨fun h => ?_, h2⟩, ih⟩
      obtain ⟨G, hG, h⟩ := faItems_ids h
      exact (hA.1 G hG).1 h.symm
  | [], [], _ :: _, _, h => h.elim
  | [], _ :: _, _, _, h => by cases h
  | _ :: _, [], _, _, h => by cases h
  | _ :: _, _ :: _, [], _, h => h.elim

omit [Env] in
theorem faItems_mem : ∀ {fields : List AField} {vs : List SVal} {it : AItem}, it ∈ faItems fields vs →
    ∃ F v, it = .field F v ∧ (F.out, v) ∈ faFields fields vs
  | F :: Fs, v :: vs, it, h => by
    rw [faItems] at h
    rw [faFields]
    split at h
    · next hs => rw [if_pos hs]; exact faItems_mem h
    · next hs =>
      rw [if_neg hs]
      rcases List.mem_cons.mp h with rfl | h
      · exact ⟨F, v, rfl, by simp⟩
      · obtain ⟨G, u, h1, h2⟩ := faItems_mem h
        exact ⟨G, u, h1, by simp [h2]⟩
  | [], _, _, h => by simp [faItems] at h
  | _ :: _, [], _, h => by simp [faItems] at h

theorem faItems_typed {D : Nat → Ty} {n : Nat} {deny : Bool} : ∀ {fields : List AField} {vs : List SVal}, FaTypes D n fields vs →
    FaTyped D n deny (faItems fields vs)
  | F :: Fs, v :: vs, h => by
    rw [faItems]
    split
    · exact faItems_typed h.2
    · next hs =>
      intro it hit
      rcases List.mem_cons.mp hit with rfl | hit
      · exact h.1 (by simpa using hs)
      · exact faItems_typed (deny := deny) h.2 it hit
  | [], _, _ => by simp [faItems, FaTyped]
  | _ :: _, [], _ => by simp [faItems, FaTyped]

theorem faItems_texts {x : Exts} {sfx : Bool} {all : List AField} : ∀ {fields : List AField} {vs us : List SVal} {ts : List Text},
    Reset fields vs us → (∀ F ∈ fields, F ∈ all) → RendFields x sfx (faFields fields vs) ts → All2 (FaText x sfx all) ts (faItems fields vs)
  | F :: Fs, v :: vs, u :: us, ts, h, hF, hr => by
    rw [faFields] at hr
    rw [faItems]
    rcases h.1 with ⟨h1, h3, rfl⟩ | ⟨h1, h2⟩
    · rw [if_neg (by simp [h1])] at hr ⊢
      cases ts with
      | nil => exact hr.elim
      | cons t ts =>
        obtain ⟨kt, vt, g1, g2, g3⟩ := hr.1
        exact ⟨⟨hF F (by simp), F.out, kt, vt, h3, g1, g2, g3⟩, faItems_texts h.2 (fun G hG => hF G (by simp [hG])) hr.2⟩
    · rw [if_pos h1] at hr ⊢
      exact faItems_texts h.2 (fun G hG => hF G (by simp [hG])) hr
  | [], _, _, [], _, _, _ => by simp [faItems, All2]
  | [], _, _, _ :: _, _, _, h => by simp [faFields, RendFields] at h
  | _ :: _, [], _, _, h, _, _ => by cases h
  | _ :: _, _ :: _, [], _, h, _, _ => h.elim

/-- What was written, inside arbitrary layout, is read back, but the fields that were skipped take their defaults. -/
theorem C57_written (o : Options) (cfg : Option PrettyConfig) (D : Nat → Ty) (n f : Nat) (name : Text) (deny : Bool) (known : List Text)
    (fields : List AField) (vs us : List SVal) (t l l' : Text) (hA : Apart fields) (hf : n ≤ f) (h0 : 0 < f) (hT : FaTypes D n fields vs)
    (hR : Reset fields vs us) (hr : name ∉ rangeLike) (hu : (faSer name fields vs).Clean (rgOf o cfg) (wxOf o cfg))
    (hk : ∀ m, o.recursionLimit = some m → (faSer name fields vs).cost ≤ m) (h : toText o cfg (faSer name fields vs) = .ok t)
    (hl : Layout l) (hl' : Layout l') :
    fromStr o (deFieldAttrs D f name deny known fields) (l ++ (t ++ l')) = .ok us := by
  obtain ⟨hdr, w, e, rfl, hh, hx, hre⟩ := toText_rend hu h
  unfold faSer at hre
  simp only [Rend, Bool.false_eq_true, ↓reduceIte] at hre
  rcases hre with ⟨es, h1, p, q, h3, h2, rfl⟩ | ⟨es, -, h2, -⟩
  · have := C57_read o D n f (costFields (faFields fields vs) - 1) name deny known fields (faItems fields vs) us (sfxOf cfg) es p q hdr l l' e hA hf h0
      (faItems_typed hT) (faItems_nodup hA) (faItems_stand hA hR) (by rw [hx]; exact h3)
      (by rw [hx]; exact faItems_texts hR (fun _ h => h) h1) h2
      (by
        intro it hit
        obtain ⟨F, v, rfl, hm⟩ := faItems_mem hit
        have hc : v.cost + 1 ≤ costFields (faFields fields vs) := costFields_mem _ hm
        show v.cost ≤ _
        omega) hl hl' hh
      (by
        intro m hm
        have := hk m hm
        unfold faSer at this
        simp only [SVal.cost] at this
        split
        · omega
        · next hne => have := rendFields_pos h1 hne; omega)
    simpa using this
  · exact absurd (by cases h2 <;> simp [rangeLike]) hr

/-- If the default of each field that is skipped is its value, the value of the struct is written and read back. -/
theorem C57_roundtrip (o : Options) (cfg : Option PrettyConfig) (D : Nat → Ty) (n f : Nat) (name : Text) (deny : Bool) (known : List Text)
    (fields : List AField) (vs : List SVal) (hA : Apart fields) (hf : n ≤ f) (h0 : 0 < f) (hT : FaTypes D n fields vs)
    (hR : Reset fields vs vs) (hr : name ∉ rangeLike) (hb : ∀ c, cfg = some c → c.Blank)
    (hu : (faSer name fields vs).Clean (rgOf o cfg) (wxOf o cfg)) (hn : RawName name) (hv : NamedFields (faFields fields vs))
    (hk : ∀ m, o.recursionLimit = some m → (faSer name fields vs).cost ≤ m ∧ (faSer name fields vs).nesting ≤ m) :
    ∃ t, toText o cfg (faSer name fields vs) = .ok t ∧
      ∀ l l', Layout l → Layout l' → fromStr o (deFieldAttrs D f name deny known fields) (l ++ (t ++ l')) = .ok vs := by
  obtain ⟨t, h5⟩ := toText_goes (o := o) (cfg := cfg) hb (v := faSer name fields vs) (by
      unfold faSer; simp only [SVal.Named]; exact ⟨hn, hv⟩) (fun m hm => (hk m hm).2)
  exact ⟨t, h5, fun l l' hl hl' => C57_written o cfg D n f name deny known fields vs vs t l l' hA hf h0 hT hR hr hu
    (fun m hm => (hk m hm).1) h5 hl hl'⟩

/-- Without compact ranges and with at most one of the two extensions this holds of all values. -/
theorem C57_roundtrip_plain (o : Options) (cfg : Option PrettyConfig) (D : Nat → Ty) (n f : Nat) (name : Text) (deny : Bool) (known : List Text)
    (fields : List AField) (vs : List SVal) (hA : Apart fields) (hf : n ≤ f) (h0 : 0 < f) (hT : FaTypes D n fields vs)
    (hR : Reset fields vs vs) (hr : name ∉ rangeLike) (hb : ∀ c, cfg = some c → c.Blank ∧ c.compactRanges = false)
    (hx : (extsOf o cfg).implicitSome = true → (extsOf o cfg).unwrapVariantNewtypes = false)
    (hn : RawName name) (hv : NamedFields (faFields fields vs)) (hk : ∀ m, o.recursionLimit = some m → (faSer name fields vs).cost ≤ m) :
    ∃ t, toText o cfg (faSer name fields vs) = .ok t ∧
      ∀ l l', Layout l → Layout l' → fromStr o (deFieldAttrs D f name deny known fields) (l ++ (t ++ l')) = .ok vs := by
  have hc : (faSer name fields vs).Clean .structs false := by
    unfold faSer
    simp only [SVal.Clean, ne_eq, not_true_eq_false, false_implies, true_and]
    clear hA hR hv hk
    induction fields generalizing vs with
    | nil => simp [faFields, CleanFields]
    | cons F Fs ih =>
      cases vs with
      | nil => exact hT.elim
      | cons v vs =>
        rw [faFields]
        split
        · exact ih vs hT.2
        · next hs =>
          exact ⟨HasTy.clean D n _ v (hT.1 (by simpa using hs)), ih vs hT.2⟩
  refine C57_roundtrip o cfg D n f name deny known fields vs hA hf h0 hT hR hr (fun c h => (hb c h).1) ?_ hn hv
    (fun m hm => ⟨hk m hm, Nat.le_trans (nesting_le_cost _ hc) (hk m hm)⟩)
  have e1 : crOf cfg = false := by
    cases cfg with
    | none => rfl
    | some c => exact (hb c rfl).2
  have e2 : wxOf o cfg = false := by
    unfold wxOf
    cases hi : (extsOf o cfg).implicitSome with
    | false => rfl
    | true => rw [hx hi]; rfl
  rw [rgOf_structs e1, e2]
  exact hc

end

/-! ### The hypotheses are met, and what is not read back -/

/-- A predicate for `skip_serializing_if`. -/
def isTrueV : SVal → Bool
  | .bool b => b
  | _ => false

/-- `Option::is_none`. -/
def isNoneV : SVal → Bool
  | .none => true
  | _ => false

/-- `struct S { #[serde(alias = "b", alias = "c")] a: u8, #[serde(default = "yes", skip_serializing_if = "is_true")] d: bool, o: Option<u8>,
#[serde(skip)] s: bool, #[serde(rename = "type")] t: bool, #[serde(default, skip_serializing_if = "is_true")] z: bool }`, where `yes` is `true`. -/
def attrCase : List AField :=
  [⟨c!"a", c!"a", [c!"b", c!"c"], c!"a", .int .u8, none, false, fun _ => false⟩,
   ⟨c!"d", c!"d", [], c!"d", .bool, some (.bool true), false, isTrueV⟩,
   ⟨c!"o", c!"o", [], c!"o", .option (.int .u8), none, false, isNoneV⟩,
   ⟨c!"s", c!"s", [], c!"s", .bool, some (.bool false), true, fun _ => true⟩,
   ⟨c!"t", c!"type", [], c!"type", .bool, none, false, fun _ => false⟩,
   ⟨c!"z", c!"z", [], c!"z", .bool, some (.bool false), false, isTrueV⟩]

/-- The names that the derived code lists. -/
def attrKnown : List Text := [c!"a", c!"b", c!"c", c!"d", c!"o", c!"type", c!"z"]

/-- It is read. -/
def readAttr [Env] (deny : Bool) (t : Text) : Spanned (List SVal) := fromStr {} (deFieldAttrs (fun _ => .unit) 4 c!"S" deny attrKnown attrCase) t

/-- It is written. -/
def writeAttr [Env] (vs : List SVal) : Except Err Text := toText {} none (faSer c!"S" attrCase vs)

/-- Aliases, another order, absent and unknown fields. -/
example : let _ : Env := asciiEnv true true
    readAttr false c!"S(type: true, s: [1, {2: ()}], c: 7)" = .ok [.num (.int .u8 7), .bool true, .none, .bool false, .bool true, .bool false] ∧
    readAttr true c!"(o:Some(1),z:true,d:false,a:7,type:false)" =
      .ok [.num (.int .u8 7), .bool false, .some (.num (.int .u8 1)), .bool false, .bool false, .bool true] := by decide +kernel

/-- Errors. -/
example : let _ : Env := asciiEnv true true
    readAttr false c!"(b:7,z:true)" = .error (.missingStructField c!"type" (some c!"S"), ⟨⟨1, 12⟩, ⟨1, 12⟩⟩) ∧
    readAttr false c!"(b:7,c?" = .error (.duplicateStructField c!"a" (some c!"S"), ⟨⟨1, 6⟩, ⟨1, 7⟩⟩) ∧
    readAttr true c!"(b:7,s?" = .error (.noSuchStructField attrKnown c!"s" (some c!"S"), ⟨⟨1, 6⟩, ⟨1, 7⟩⟩) := by decide +kernel

/-- What is written is read back. -/
example : let _ : Env := asciiEnv true true
    writeAttr [.num (.int .u8 7), .bool true, .none, .bool false, .bool true, .bool false] = .ok c!"(a:7,type:true,z:false)" ∧
    readAttr true c!"(a:7,type:true,z:false)" = .ok [.num (.int .u8 7), .bool true, .none, .bool false, .bool true, .bool false] := by decide +kernel

/-- No two fields have a name in common. -/
theorem attrCase_apart : Apart attrCase := by
  have key : ∀ F G : AField, (F.name :: F.aliases).all (fun k => !(G.name :: G.aliases).contains k) = true → ∀ k, F.Takes k → ¬ G.Takes k := by
    intro F G h k hF hG
    have h1 : k ∈ F.name :: F.aliases := by cases hF <;> simp [*]
    have h2 : k ∈ G.name :: G.aliases := by cases hG <;> simp [*]
    have := List.all_eq_true.mp h k h1
    simp only [Bool.not_eq_true', List.contains_eq_mem, decide_eq_false_iff_not] at this
    exact this h2
  unfold Apart attrCase
  simp only [List.pairwise_cons, List.mem_cons, List.not_mem_nil, or_false, forall_eq_or_imp, forall_eq, false_implies, implies_true, List.Pairwise.nil,
    and_true]
  refine ⟨⟨⟨by decide, key _ _ (by decide)⟩, ⟨by decide, key _ _ (by decide)⟩, ⟨by decide, key _ _ (by decide)⟩, ⟨by decide, key _ _ (by decide)⟩,
    ⟨by decide, key _ _ (by decide)⟩⟩, ⟨⟨by decide, key _ _ (by decide)⟩, ⟨by decide, key _ _ (by decide)⟩, ⟨by decide, key _ _ (by decide)⟩,
    ⟨by decide, key _ _ (by decide)⟩⟩, ⟨⟨by decide, key _ _ (by decide)⟩, ⟨by decide, key _ _ (by decide)⟩, ⟨by decide, key _ _ (by decide)⟩⟩,
    ⟨⟨by decide, key _ _ (by decide)⟩, ⟨by decide, key _ _ (by decide)⟩⟩, ⟨by decide, key _ _ (by decide)⟩⟩

/-- The hypotheses of `C57_written` about the fields and the values, also where a field does not come back. -/
example : ∃ _ : Env,
    let vs := [.num (.int .u8 7), .bool true, .none, .bool false, .bool true, .bool true]
    FaTypes (fun _ => .unit) 3 attrCase vs ∧
      Reset attrCase vs [.num (.int .u8 7), .bool true, .none, .bool false, .bool true, .bool false] := by
  refine ⟨asciiEnv true true, ?_, ?_⟩
  · let _ : Env := asciiEnv true true
    exact ⟨fun _ => ⟨7, rfl, fun _ => rfl, by decide⟩, fun h => absurd h (by decide), fun h => absurd h (by decide), fun h => absurd h (by decide),
      fun _ => ⟨true, rfl⟩, fun h => absurd h (by decide), trivial⟩
  · exact ⟨.inl ⟨rfl, .name rfl, rfl⟩, .inr ⟨by decide, .inl rfl⟩, .inr ⟨by decide, .inr ⟨rfl, ⟨_, rfl⟩, rfl⟩⟩, .inr ⟨rfl, .inl rfl⟩,
      .inl ⟨rfl, .name rfl, rfl⟩, .inr ⟨by decide, .inl rfl⟩, trivial⟩

/-- `C57_roundtrip_plain` applies. -/
example : ∃ _ : Env,
    let vs := [.num (.int .u8 7), .bool true, .none, .bool false, .bool true, .bool false]
    ∃ t, toText {} none (faSer c!"S" attrCase vs) = .ok t ∧
      ∀ l l', Layout l → Layout l' → fromStr {} (deFieldAttrs (fun _ => .unit) 4 c!"S" true attrKnown attrCase) (l ++ (t ++ l')) = .ok vs := by
  refine ⟨asciiEnv true true, ?_⟩
  let _ : Env := asciiEnv true true
  refine C57_roundtrip_plain {} none (fun _ => .unit) 3 4 c!"S" true attrKnown attrCase _ attrCase_apart (by decide) (by decide) ?_ ?_ (by decide)
    (by simp) (fun h => absurd h (by decide)) ⟨by decide, by decide⟩ ?_ ?_
  · exact ⟨fun _ => ⟨7, rfl, fun _ => rfl, by decide⟩, fun h => absurd h (by decide), fun h => absurd h (by decide), fun h => absurd h (by decide),
      fun _ => ⟨true, rfl⟩, fun _ => ⟨false, rfl⟩, trivial⟩
  · exact ⟨.inl ⟨rfl, .name rfl, rfl⟩, .inr ⟨by decide, .inl rfl⟩, .inr ⟨by decide, .inr ⟨rfl, ⟨_, rfl⟩, rfl⟩⟩, .inr ⟨rfl, .inl rfl⟩,
      .inl ⟨rfl, .name rfl, rfl⟩, .inl ⟨by decide, .name rfl, rfl⟩, trivial⟩
  · exact ⟨⟨⟨by decide, by decide⟩, trivial⟩, ⟨⟨by decide, by decide⟩, trivial⟩, ⟨⟨by decide, by decide⟩, trivial⟩, trivial⟩
  · intro m hm
    cases hm
    decide

/-- A field that is skipped although its value is not the default comes back as the default, and one without a default is missing. -/
theorem C57_skipped_fails : let _ : Env := asciiEnv true true
    writeAttr [.num (.int .u8 7), .bool true, .none, .bool true, .bool true, .bool true] = .ok c!"(a:7,type:true)" ∧
    readAttr true c!"(a:7,type:true)" = .ok [.num (.int .u8 7), .bool true, .none, .bool false, .bool true, .bool false] ∧
    toText {} none (faSer c!"S" [⟨c!"a", c!"a", [], c!"a", .bool, none, false, isTrueV⟩] [.bool true]) = .ok c!"()" ∧
    fromStr {} (deFieldAttrs (fun _ => .unit) 4 c!"S" false [c!"a"] [⟨c!"a", c!"a", [], c!"a", .bool, none, false, isTrueV⟩]) c!"()" =
      .error (.missingStructField c!"a" (some c!"S"), ⟨⟨1, 2⟩, ⟨1, 2⟩⟩) := by decide +kernel

end Ron
