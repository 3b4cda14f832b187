import Verif.Spec.Tagged
import Verif.Lemmas.Fold
import Verif.Lemmas.Buffer
/-! Reading internally tagged data. -/

set_option linter.unusedSectionVars false
set_option linter.unusedVariables false

namespace Ron

variable [Env]

theorem tagKeyOf_str {tag n : Text} (h : n ≠ tag) : tagKeyOf tag (.str n) = .content (.str n) := by simp [tagKeyOf, h]
theorem tagKeyOf_tag (tag : Text) : tagKeyOf tag (.str tag) = .tag := by simp [tagKeyOf]
theorem tagKeyOf_other {tag : Text} {k : Content} (h1 : k ≠ .str tag) (h2 : k ≠ .bytes (utf8EncAll tag)) : tagKeyOf tag k = .content k := by
  cases k with
  | str n => exact tagKeyOf_str fun e => h1 (by rw [e])
  | bytes b => simp only [tagKeyOf]; rw [if_neg fun e => h2 (by rw [e])]
  | _ => rfl

theorem tagValue_reads {x : Exts} {variants : List Text} {id w : Text} (h : StrLit w id) (hid : id ∈ variants) :
    Reads x 0 (tagValue variants) w id := by
  refine ⟨(ctext_plainly (.str id) w (by simp only [CText]; exact .inl h)).start, fun d l q hp hd hl hq => ?_⟩
  obtain ⟨s', h1, h2, h3⟩ := string_ok hd h
  refine ⟨s', l, ?_, h2, hl, h3.toD⟩
  unfold tagValue
  have : variants.contains id = true := List.contains_iff_mem.mpr hid
  simp only [bind_apply, h1, variantOf, this, ↓reduceIte, liftE, pure_apply]

/-- What the items give. -/
theorem tagItems_fold {x : Exts} (hx : x.unwrapVariantNewtypes = false) {tag id : Text} {variants : List Text} (hid : id ∈ variants) {f k : Nat} {key : P Content}
    {I : Text → Option (Content × Content) → Prop}
    (hnone : ∀ e, I e none → ∃ kt vt, Reads x k key kt (.str tag) ∧ StrLit vt id ∧ Entry kt vt e)
    (hsome : ∀ e c v, I e (some (c, v)) → e.length < f → c.levels ≤ k → v.levels ≤ k →
      ∃ kt vt, Reads x k key kt c ∧ tagKeyOf tag c = .content c ∧ Reads x k (contentAny f false) vt v ∧ Entry kt vt e) :
    ∀ (ts : List Text) (its : List (Option (Content × Content))) (got : Option Text) (acc : List (Content × Content)),
    All2 I ts its → (∀ t ∈ ts, t.length < f) → (∀ c v, some (c, v) ∈ its → c.levels ≤ k ∧ v.levels ≤ k) →
    its.countP Option.isNone + (if got.isSome then 1 else 0) ≤ 1 → (∀ i, got = some i → i = id) →
    FoldReads x k key (taggedCheck tag) (taggedVal tag variants (contentAny f false)) ts (got, acc)
      (if got.isSome || its.any Option.isNone then some id else none, acc ++ its.filterMap (fun i => i))
  | [], [], got, acc, _, _, _, _, hg => by
    cases got with
    | none => simp [FoldReads]
    | some i => simp [FoldReads, hg i rfl]
  | e :: ts, it :: its, got, acc, h, hlen, hlev, hcount, hg => by
    have ih := tagItems_fold hx hid hnone hsome ts its
    cases it with
    | none =>
      obtain ⟨kt, vt, h1, h2, h3⟩ := hnone e h.1
      simp only [List.countP_cons, Option.isNone_none, ↓reduceIte] at hcount
      have hgot : got = none := by cases got with
        | none => rfl
        | some i => simp at hcount
      subst hgot
      refine ⟨kt, vt, .str tag, (some id, acc), h1, ?_, ?_, h3, ?_⟩
      · simp [taggedCheck, tagKeyOf_tag]
      · have := ((tagValue_reads (x := x) h2 hid).bind_pure fun i => ((some i, acc) : Option Text × List (Content × Content))).mono (Nat.zero_le k)
        unfold taggedVal
        rw [tagKeyOf_tag]
        exact this
      · have := ih (some id) acc h.2 (fun t ht => hlen t (by simp [ht])) (fun c v hm => hlev c v (by simp [hm])) (by simp; simp at hcount; simpa using hcount)
          (by simp)
        simpa using this
    | some cv =>
      obtain ⟨c, v⟩ := cv
      obtain ⟨l1, l2⟩ := hlev c v (by simp)
      obtain ⟨kt, vt, h1, h2, h3, h4⟩ := hsome e c v h.1 (hlen e (by simp)) l1 l2
      refine ⟨kt, vt, c, (got, acc ++ [(c, v)]), h1, ?_, ?_, h4, ?_⟩
      · simp [taggedCheck, h2]
      · have := h3.bind_pure fun v => ((got, acc ++ [(c, v)]) : Option Text × List (Content × Content))
        unfold taggedVal
        rw [h2]
        exact this
      · have := ih got (acc ++ [(c, v)]) h.2 (fun t ht => hlen t (by simp [ht])) (fun c v hm => hlev c v (by simp [hm]))
          (by simpa [List.countP_cons] using hcount) hg
        simpa only [List.any_cons, Option.isNone_some, Bool.false_or, List.filterMap_cons, List.append_assoc, List.cons_append, List.nil_append] using this
  | [], _ :: _, _, _, h, _, _, _, _ => h.elim
  | _ :: _, [], _, _, h, _, _, _, _ => h.elim

theorem tagField_some {x : Exts} (hx : x.unwrapVariantNewtypes = false) {tag id : Text} {f k : Nat} :
    ∀ e c v, TagField tag id e (some (c, v)) → e.length < f → c.levels ≤ k → v.levels ≤ k →
      ∃ kt vt, Reads x k contentIdent kt c ∧ tagKeyOf tag c = .content c ∧ Reads x k (contentAny f false) vt v ∧ Entry kt vt e := by
  rintro e c v ⟨n, kt, vt, rfl, h2, h3, h4, h5⟩ hlen hc hv
  have hvt : vt.length < f := by
    cases h5 with
    | mk _ _ => simp at hlen; omega
  exact ⟨kt, vt, (contentIdent_reads h3).mono (Nat.zero_le _), tagKeyOf_str h2, (ctext_reads hx v vt f h4 hvt).mono hv, h5⟩

theorem tagField_none {x : Exts} {tag id : Text} {k : Nat} :
    ∀ e, TagField tag id e none → ∃ kt vt, Reads x k contentIdent kt (.str tag) ∧ StrLit vt id ∧ Entry kt vt e := by
  rintro e ⟨kt, vt, h3, h4, h5⟩
  exact ⟨kt, vt, (contentIdent_reads h3).mono (Nat.zero_le _), h4, h5⟩

theorem tagEntry_some {x : Exts} (hx : x.unwrapVariantNewtypes = false) {tag id : Text} {f k : Nat} :
    ∀ e c v, TagEntry tag id e (some (c, v)) → e.length < f → c.levels ≤ k → v.levels ≤ k →
      ∃ kt vt, Reads x k (contentAny f false) kt c ∧ tagKeyOf tag c = .content c ∧ Reads x k (contentAny f false) vt v ∧ Entry kt vt e := by
  rintro e c v ⟨kt, vt, h1, h2, h3, h4, h5⟩ hlen hc hv
  have hvt : vt.length < f ∧ kt.length < f := by
    cases h5 with
    | mk _ _ => simp at hlen; omega
  exact ⟨kt, vt, (ctext_reads hx c kt f h3 hvt.2).mono hc, tagKeyOf_other h1 h2, (ctext_reads hx v vt f h4 hvt.1).mono hv, h5⟩

theorem tagField_start {tag id e : Text} {o : Option (Content × Content)} (h : TagField tag id e o) :
    ∃ n kt vt, KeyTok n kt ∧ Entry kt vt e := by
  cases o with
  | none => obtain ⟨kt, vt, h1, -, h3⟩ := h; exact ⟨_, kt, vt, h1, h3⟩
  | some cv => obtain ⟨n, kt, vt, -, -, h1, -, h3⟩ := h; exact ⟨_, kt, vt, h1, h3⟩

omit [Env] in
theorem Delim.items_shorter {o c : Char} {ts : List Text} {w : Text} (h : Delim o c ts w) : ∀ t ∈ ts, t.length + 2 ≤ w.length := by
  have hb : ∀ {ts : List Text} {u : Text}, Body ts u → ∀ t ∈ ts, t.length ≤ u.length := by
    intro ts u h
    induction h with
    | one => simp
    | cons _ _ _ ih =>
      intro t ht
      rcases List.mem_cons.mp ht with rfl | ht
      · simp
      · have := ih t ht
        simp; omega
  cases h with
  | nil => simp
  | items _ hu _ =>
    intro t ht
    have := hb hu t ht
    simp; omega

theorem consumeWord_false {d : St} {ws : List Text} (h : ∀ w ∈ ws, consumeIdent w d = .ok false d) : consumeWord ws d = .ok false d := by
  induction ws with
  | nil => rfl
  | cons w ws ih =>
    rw [consumeWord, bind_apply, h w (by simp)]
    simp only [Bool.false_eq_true, ↓reduceIte]
    exact ih fun w hw => h w (by simp [hw])

theorem taggedPlain_noKeyword {tag : Text} {variants : List Text} {any : Bool → P Content} {d : St} (h : NoKeyword d) (hp : startsWith d.rest c!"()" = false) :
    taggedPlain tag variants any d = (do match ← skipIdentifier with
      | some _ => skipWs; taggedStruct tag variants any
      | none => taggedChar tag variants any : P (Text × Content)) d := by
  have g : ∀ kw ∈ reservedNames, consumeIdent kw d = .ok false d := fun kw hk => consumeIdent_false (h kw hk)
  unfold taggedPlain
  rw [bind_apply, consumeWord_false fun w hw => g w (by revert w; decide)]
  simp only [Bool.false_eq_true, ↓reduceIte]
  rw [bind_apply, checkIdent_false (h c!"Some" (by simp [reservedNames]))]
  simp only [Bool.false_eq_true, ↓reduceIte]
  rw [bind_apply, consumeWord_false fun w hw => g w (by revert w; decide)]
  simp only [Bool.false_eq_true, ↓reduceIte]
  rw [bind_apply, consumeStr_false hp]
  simp only [Bool.false_eq_true, ↓reduceIte]
  rw [bind_apply, consumeWord_false fun w hw => g w (by revert w; decide)]
  simp only [Bool.false_eq_true, ↓reduceIte]
  rfl

theorem taggedPlain_char {tag : Text} {variants : List Text} {any : Bool → P Content} {d : St} {c : Char} {u : Text} (hd : d.rest = c :: u)
    (hc : c ∉ ['t', 'f', 'S', 'N', 'i']) (hp : startsWith d.rest c!"()" = false)
    (hs : skipIdentifier d = .ok none d) : taggedPlain tag variants any d = taggedChar tag variants any d := by
  rw [taggedPlain_noKeyword (noKeyword_char hd hc) hp]
  simp only [bind_apply, hs]

theorem taggedPlain_brace {tag : Text} {variants : List Text} {any : Bool → P Content} {d : St} {u : Text} (hd : d.rest = '{' :: u) :
    taggedPlain tag variants any d = deMap (taggedMap tag variants '}' (any false) (any false)) d := by
  rw [taggedPlain_char hd (by decide) (by rw [hd]; simp) (skipIdentifier_ascii hd (by decide) (by decide))]
  unfold taggedChar
  simp [bind_apply, peekCharOrEof_cons hd]

theorem taggedPlain_open {tag : Text} {variants : List Text} {any : Bool → P Content} {d : St} {u : Text} (hd : d.rest = '(' :: u)
    (h : startsWith d.rest c!"()" = false) :
    taggedPlain tag variants any d = taggedStruct tag variants any d := by
  rw [taggedPlain_char hd (by decide) h (skipIdentifier_ascii hd (by decide) (by decide))]
  unfold taggedChar
  simp [bind_apply, peekCharOrEof_cons hd]

theorem taggedBody_plain {tag : Text} {variants : List Text} {any : Bool → P Content} {d : St} (h : d.nv = false) :
    taggedBody tag variants any d = taggedPlain tag variants any d := by
  unfold taggedBody
  simp only [bind_apply, getSt_apply, h, Bool.false_eq_true, ↓reduceIte]

/-- The parenthesis is that of a struct. -/
theorem tagFields_named {tag id : Text} {ts : List Text} {its : List (Option (Content × Content))} {w r : Text} {d : St}
    (hE : All2 (TagField tag id) ts its) (hne : its ≠ []) (hw : Delim '(' ')' ts w) (hd : d.rest = w ++ r) (tm : TupleMode) :
    Struct .noParensMeanUnit tm d .named ∧ ∃ u, d.rest = '(' :: u ∧ startsWith d.rest c!"()" = false := by
  obtain ⟨w', rfl, hi⟩ := delim_inner hw
  have hst : ∀ t ∈ ts, TokStart t := fun t ht => by
    obtain ⟨o, -, h⟩ := hE.mem_left t ht
    obtain ⟨n, kt, vt, h1, h2⟩ := tagField_start h
    cases h2 with
    | mk _ _ => exact h1.tokStart.append _
  rcases first_item (r := r) hi hst with ⟨rfl, -⟩ | ⟨a, t, l, q, ht, ha, hl, hq, e⟩
  · cases its with
    | nil => exact absurd rfl hne
    | cons _ _ => exact hE.elim
  · obtain ⟨o, -, h⟩ := hE.mem_left t ht
    obtain ⟨n, kt, vt, h1, h2⟩ := tagField_start h
    cases h2 with
    | @mk l1 l2 hl1 hl2 =>
      refine ⟨struct_named (q := l2 ++ (vt ++ (l ++ q))) h1 (by rw [hd, List.cons_append, e]; simp) ha hl1, _, hd, ?_⟩
      rw [hd]
      simp only [List.cons_append, e, startsWith_cons, beq_self_eq_true, Bool.true_and]
      cases ha with
      | nil => simpa using (hst _ ht).notDelim _ (by simp)
      | ws hc _ =>
        simp
        rintro rfl
        exact absurd hc (by decide)
      | line => simp
      | block => simp

/-- The budget. -/
def tagLevels (its : List (Option (Content × Content))) : Nat := clevelsEntries ((.unit, .unit) :: its.filterMap (fun i => i))

omit [Env] in
theorem clevelsEntries_mem {es : List (Content × Content)} {k : Nat} (h : clevelsEntries es ≤ k + 2) : ∀ c v, (c, v) ∈ es → c.levels ≤ k ∧ v.levels ≤ k := by
  induction es with
  | nil => simp
  | cons e es ih =>
    obtain ⟨a, b⟩ := e
    simp only [clevelsEntries] at h
    intro c v hm
    rcases List.mem_cons.mp hm with hm | hm
    · cases hm
      omega
    · exact ih (by omega) c v hm

omit [Env] in
theorem tagLevels_two (its : List (Option (Content × Content))) : ∃ k, tagLevels its = k + 2 ∧ ∀ c v, some (c, v) ∈ its → c.levels ≤ k ∧ v.levels ≤ k := by
  have h2 := clevelsEntries_pos ((.unit, .unit) :: its.filterMap (fun i => i)) (by simp)
  refine ⟨tagLevels its - 2, by unfold tagLevels; omega, fun c v hm => ?_⟩
  refine clevelsEntries_mem (es := (.unit, .unit) :: its.filterMap (fun i => i)) (by unfold tagLevels; omega) c v ?_
  simp only [List.mem_cons, List.mem_filterMap]
  exact .inr ⟨_, hm, rfl⟩

/-- What an action does with the result of the loop. -/
theorem taggedMap_inner {x : Exts} {k : Nat} {term : Char} {key any : P Content} {tag : Text} {variants : List Text}
    (hterm : term ∈ [')', ']', '}']) {ts : List Text} {w : Text} (hw : Inner term ts w) {id : Text} {es : List (Content × Content)} {d : St} {r : Text}
    (h2 : FoldReads x k key (taggedCheck tag) (taggedVal tag variants any) ts (none, []) (some id, es)) (hp : Pre x (k + 1) d) (hd : d.rest = w ++ r) :
    ∃ s', taggedMap tag variants term key any d = .ok (id, .map es) s' ∧ s'.rest = term :: r ∧ KeepsD d s' := by
  obtain ⟨s', m1, m2, m3⟩ := foldMap_inner hterm hw h2 (hp.mono (by split <;> omega)) hd
  refine ⟨s', ?_, m2, m3⟩
  unfold taggedMap
  simp only [bind_apply, m1, pure_apply]

theorem taggedStruct_ok {x : Exts} (hx : x.unwrapVariantNewtypes = false) {tag id : Text} {variants : List Text} (hid : id ∈ variants) {f k : Nat}
    {ts : List Text} {its : List (Option (Content × Content))} {w r : Text} {d : St}
    (hE : All2 (TagField tag id) ts its) (hne : its ≠ []) (hw : Delim '(' ')' ts w) (hlen : ∀ t ∈ ts, t.length < f)
    (hlev : ∀ c v, some (c, v) ∈ its → c.levels ≤ k ∧ v.levels ≤ k) (hcount : its.countP Option.isNone = 1)
    (hp : Pre x (k + 2) d) (hd : d.rest = w ++ r) :
    ∃ s', taggedStruct tag variants (contentAny f) d = .ok (id, .map (its.filterMap fun i => i)) s' ∧ s'.rest = r ∧ KeepsD d s' := by
  obtain ⟨⟨s1, h1, h2, h3⟩, -⟩ := tagFields_named hE hne hw hd .imprecise
  obtain ⟨w', rfl, hi⟩ := delim_inner hw
  have hF := tagItems_fold (x := x) (k := k) (f := f) (key := contentIdent) hx hid (tagField_none (k := k)) (tagField_some hx) ts its none [] hE hlen hlev (by simp [hcount]) (by simp)
  have hany : its.any Option.isNone = true := by
    rw [List.any_eq_true]
    have : 0 < its.countP Option.isNone := by omega
    simpa [List.countP_pos_iff] using this
  simp only [hany, Option.isSome_none, Bool.or_true, ↓reduceIte, List.nil_append] at hF
  obtain ⟨s2, g1, g2, g3⟩ := structAfterName_ok (k := k + 1) (visit := taggedMap tag variants ')' contentIdent (contentAny f false))
    (v := (id, .map (its.filterMap fun i => i))) (w := w') (r := r) [] (hp.keep h3) (by rw [h2, hd]; rfl) (fun d' hp' hd' => by
      obtain ⟨s', m1, m2, m3⟩ := taggedMap_inner (term := ')') (by simp) hi hF hp' hd'
      exact ⟨s', [], m1, by simpa using m2, .nil, m3⟩)
  refine ⟨s2, ?_, g2, h3.trans g3⟩
  unfold taggedStruct
  simp only [bind_apply, h1]
  exact g1

theorem tagText_reads {x : Exts} (hx : x.unwrapVariantNewtypes = false) {tag id : Text} {variants : List Text} (hid : id ∈ variants)
    {its : List (Option (Content × Content))} {w : Text} (hw : TagText tag id its w) (hcount : its.countP Option.isNone = 1) :
    Reads x (tagLevels its) (deTagged tag variants) w (id, .map (its.filterMap fun i => i)) := by
  obtain ⟨k, hk, hlev⟩ := tagLevels_two its
  rw [hk]
  rcases hw with ⟨ts, b, hE, hne, hD, hw⟩ | ⟨ts, hE, hD⟩
  · have hb : TokStart b := by
      obtain ⟨w', rfl, -⟩ := delim_inner hD
      exact ⟨_, _, rfl, by decide, by decide⟩
    rcases hw with rfl | ⟨n, nt, l0, hn, hl0, rfl⟩
    · refine ⟨hb, fun d l q hp hd hl hq => ?_⟩
      obtain ⟨-, u, hu, hnu⟩ := tagFields_named hE hne hD (by simpa using hd) .imprecise
      obtain ⟨s', h1, h2, h3⟩ := taggedStruct_ok (f := 2 * d.rest.length + 2) hx hid hE hne hD
        (fun t ht => by have := hD.items_shorter t ht; rw [hd, List.length_append]; omega) hlev hcount hp hd
      refine ⟨s', l, ?_, h2, hl, h3⟩
      unfold deTagged
      rw [bind_apply, getSt_apply]
      simp only
      rw [taggedBody_plain hp.nv, taggedPlain_open hu hnu]
      exact h1
    · refine ⟨hn.tokStart.append _, fun d l q hp hd hl hq => ?_⟩
      obtain ⟨w', e, -⟩ := delim_inner hD
      have hd' : d.rest = nt ++ (l0 ++ '(' :: (w' ++ (l ++ q))) := by rw [hd, e]; simp
      have hf : IdentFollow (l0 ++ '(' :: (w' ++ (l ++ q))) := layout_follow hl0 (parenOpen_follow _)
      have hkw : NoKeyword d := fun kw hkw => by rw [hd']; exact hn.notKeyword hf hkw
      obtain ⟨s1, h1, h2, h3⟩ := hn.skips hf hd'
      obtain ⟨s2, k1, k2, k3⟩ := skipWs_tok h2 hl0 (noLayout_paren _)
      have hk2 := h3.toD.trans k3
      obtain ⟨s', m1, m2, m3⟩ := taggedStruct_ok (f := 2 * d.rest.length + 2) hx hid hE hne hD
        (fun t ht => by have := hD.items_shorter t ht; rw [hd]; simp; omega) hlev hcount (hp.keep hk2) (r := l ++ q) (by rw [k2, e]; simp)
      refine ⟨s', l, ?_, m2, hl, hk2.trans m3⟩
      unfold deTagged
      rw [bind_apply, getSt_apply]
      simp only
      rw [taggedBody_plain hp.nv, taggedPlain_noKeyword hkw (by
        obtain ⟨c, u, e', hc⟩ := hn.noParen
        rw [hd', e']; simp [startsWith_cons, Ne.symm hc])]
      simp only [bind_apply, h1, k1]
      exact m1
  · obtain ⟨w', rfl, hi⟩ := delim_inner hD
    refine ⟨⟨_, _, rfl, by decide, by decide⟩, fun d l q hp hd hl hq => ?_⟩
    have hF := tagItems_fold (x := x) (k := k) (f := 2 * d.rest.length + 2) (key := contentAny (2 * d.rest.length + 2) false) hx hid (I := fun e o => TagEntry tag id e o ∧ e ∈ ts)
      (by
        rintro e ⟨⟨kt, vt, h1, h2, h3⟩, hm⟩
        have hlen : e.length < 2 * d.rest.length + 2 := by have := hD.items_shorter e hm; rw [hd, List.length_append]; omega
        refine ⟨kt, vt, (ctext_reads hx (.str tag) kt _ h1 ?_).mono (Nat.zero_le _), h2, h3⟩
        cases h3 with
        | mk _ _ => simp at hlen ⊢; omega)
      (fun e c v h => tagEntry_some hx e c v h.1) ts its none [] (hE.mono fun a ha b _ h => ⟨h, ha⟩)
      (fun t ht => by have := hD.items_shorter t ht; rw [hd, List.length_append]; omega) hlev (by simp [hcount]) (by simp)
    have hany : its.any Option.isNone = true := by
      rw [List.any_eq_true]
      have : 0 < its.countP Option.isNone := by omega
      simpa [List.countP_pos_iff] using this
    simp only [hany, Option.isSome_none, Bool.or_true, ↓reduceIte, List.nil_append] at hF
    obtain ⟨s', h1, h2, h3, -⟩ := deMap_ok (k := k + 1) (visit := taggedMap tag variants '}' (contentAny (2 * d.rest.length + 2) false) (contentAny (2 * d.rest.length + 2) false))
      (v := (id, .map (its.filterMap fun i => i))) (w := w') (r := l ++ q) hp.exts hp.budget (by rw [hd]; rfl) (fun d' hp' hd' => by
        exact taggedMap_inner (term := '}') (by simp) hi hF hp' hd')
    refine ⟨s', l, ?_, h2, hl, h3⟩
    unfold deTagged
    rw [bind_apply, getSt_apply]
    simp only
    rw [taggedBody_plain hp.nv, taggedPlain_brace hd]
    exact h1

/-! ### Failures -/

/-- How the entries of the items are read. -/
structure TagItems (x : Exts) (k f : Nat) (tag id : Text) (key : P Content) (I : Text → Option (Content × Content) → Prop) : Prop where
  tagged : ∀ e, I e none → ∃ kt vt, Reads x k key kt (.str tag) ∧ StrLit vt id ∧ Entry kt vt e
  other : ∀ e c v, I e (some (c, v)) → e.length < f → c.levels ≤ k → v.levels ≤ k →
      ∃ kt vt, Reads x k key kt c ∧ tagKeyOf tag c = .content c ∧ Reads x k (contentAny f false) vt v ∧ Entry kt vt e

/-- Reading the items fails. -/
def TagFails (x : Exts) (k : Nat) (tag id : Text) (variants : List Text) (its : List (Option (Content × Content))) (err : Err) : Prop :=
  ∀ (term : Char) (key : P Content) (f : Nat) (I : Text → Option (Content × Content) → Prop) (ts : List Text) (w r : Text) (d : St),
    term ∈ [')', ']', '}'] → TagItems x k f tag id key I → All2 I ts its → (∀ t ∈ ts, t.length < f) → Inner term ts w →
    Pre x (k + 1) d → d.rest = w ++ r → ∃ s', taggedMap tag variants term key (contentAny f false) d = .err err s'

theorem taggedStruct_fails {x : Exts} (hx : x.unwrapVariantNewtypes = false) {tag id : Text} {variants : List Text} {f k : Nat}
    {ts : List Text} {its : List (Option (Content × Content))} {w r : Text} {d : St} {err : Err} (he : structErrorName none err = err)
    (hE : All2 (TagField tag id) ts its) (hne : its ≠ []) (hw : Delim '(' ')' ts w) (hlen : ∀ t ∈ ts, t.length < f)
    (hF : TagFails x k tag id variants its err) (hp : Pre x (k + 2) d) (hd : d.rest = w ++ r) :
    ∃ s', taggedStruct tag variants (contentAny f) d = .err err s' := by
  obtain ⟨⟨s1, h1, h2, h3⟩, -⟩ := tagFields_named hE hne hw hd .imprecise
  obtain ⟨w', rfl, hi⟩ := delim_inner hw
  obtain ⟨s2, g1⟩ := structAfterName_fails (k := k + 1) (visit := taggedMap tag variants ')' contentIdent (contentAny f false))
    (w := w' ++ r) (e := err) (hp.keep h3) (by rw [h2, hd]; rfl) (fun d' hp' hd' =>
      hF ')' contentIdent f (TagField tag id) ts w' r d' (by simp) ⟨tagField_none, tagField_some hx⟩ hE hlen hi hp' hd')
  refine ⟨s2, ?_⟩
  unfold taggedStruct
  simp only [bind_apply, h1]
  rw [g1, he]

theorem tagText_fails {x : Exts} (hx : x.unwrapVariantNewtypes = false) {tag id : Text} {variants : List Text} {k : Nat}
    {its : List (Option (Content × Content))} {w : Text} {err : Err} (he : structErrorName none err = err) (hw : TagText tag id its w)
    (hF : TagFails x k tag id variants its err) : FailsAt x (k + 2) (deTagged tag variants) w err := by
  rcases hw with ⟨ts, b, hE, hne, hD, hw⟩ | ⟨ts, hE, hD⟩
  · have hb : TokStart b := by
      obtain ⟨w', rfl, -⟩ := delim_inner hD
      exact ⟨_, _, rfl, by decide, by decide⟩
    rcases hw with rfl | ⟨n, nt, l0, hn, hl0, rfl⟩
    · refine ⟨hb, fun d r hp hd => ?_⟩
      obtain ⟨-, u, hu, hnu⟩ := tagFields_named hE hne hD (by simpa using hd) .imprecise
      obtain ⟨s', h1⟩ := taggedStruct_fails (f := 2 * d.rest.length + 2) hx he hE hne hD
        (fun t ht => by have := hD.items_shorter t ht; rw [hd, List.length_append]; omega) hF hp hd
      refine ⟨s', ?_⟩
      unfold deTagged
      rw [bind_apply, getSt_apply]
      simp only
      rw [taggedBody_plain hp.nv, taggedPlain_open hu hnu]
      exact h1
    · refine ⟨hn.tokStart.append _, fun d r hp hd => ?_⟩
      obtain ⟨w', e, -⟩ := delim_inner hD
      have hd' : d.rest = nt ++ (l0 ++ '(' :: (w' ++ r)) := by rw [hd, e]; simp
      have hf : IdentFollow (l0 ++ '(' :: (w' ++ r)) := layout_follow hl0 (parenOpen_follow _)
      have hkw : NoKeyword d := fun kw hkw => by rw [hd']; exact hn.notKeyword hf hkw
      obtain ⟨s1, h1, h2, h3⟩ := hn.skips hf hd'
      obtain ⟨s2, k1, k2, k3⟩ := skipWs_tok h2 hl0 (noLayout_paren _)
      have hk2 := h3.toD.trans k3
      obtain ⟨s', m1⟩ := taggedStruct_fails (f := 2 * d.rest.length + 2) hx he hE hne hD
        (fun t ht => by have := hD.items_shorter t ht; rw [hd]; simp; omega) hF (hp.keep hk2) (r := r) (by rw [k2, e]; simp)
      refine ⟨s', ?_⟩
      unfold deTagged
      rw [bind_apply, getSt_apply]
      simp only
      rw [taggedBody_plain hp.nv, taggedPlain_noKeyword hkw (by
        obtain ⟨c, u, e', hc⟩ := hn.noParen
        rw [hd', e']; simp [startsWith_cons, Ne.symm hc])]
      simp only [bind_apply, h1, k1]
      exact m1
  · obtain ⟨w', rfl, hi⟩ := delim_inner hD
    refine ⟨⟨_, _, rfl, by decide, by decide⟩, fun d r hp hd => ?_⟩
    have htag : ∀ e, TagEntry tag id e none ∧ e ∈ ts →
        ∃ kt vt, Reads x k (contentAny (2 * d.rest.length + 2) false) kt (.str tag) ∧ StrLit vt id ∧ Entry kt vt e := by
      rintro e ⟨⟨kt, vt, h1, h2, h3⟩, hm⟩
      have hlen : e.length < 2 * d.rest.length + 2 := by have := hD.items_shorter e hm; rw [hd, List.length_append]; omega
      refine ⟨kt, vt, (ctext_reads hx (.str tag) kt _ h1 ?_).mono (Nat.zero_le _), h2, h3⟩
      cases h3 with
      | mk _ _ => simp at hlen ⊢; omega
    obtain ⟨s', h1⟩ := deMap_fails (k := k + 1) (visit := taggedMap tag variants '}' (contentAny (2 * d.rest.length + 2) false) (contentAny (2 * d.rest.length + 2) false))
      (w := w' ++ r) (e := err) hp (by rw [hd]; rfl) (fun d' hp' hd' =>
        hF '}' (contentAny (2 * d.rest.length + 2) false) (2 * d.rest.length + 2) (fun e o => TagEntry tag id e o ∧ e ∈ ts) ts w' r d' (by simp)
          ⟨htag, fun e c v h => tagEntry_some hx e c v h.1⟩
          (hE.mono fun a ha b _ h => ⟨h, ha⟩) (fun t ht => by have := hD.items_shorter t ht; rw [hd, List.length_append]; omega) hi hp' hd')
    refine ⟨s', ?_⟩
    unfold deTagged
    rw [bind_apply, getSt_apply]
    simp only
    rw [taggedBody_plain hp.nv, taggedPlain_brace hd]
    exact h1

/-- The tag is missing. -/
theorem tagFails_missing {x : Exts} (hx : x.unwrapVariantNewtypes = false) {tag id : Text} {variants : List Text} {k : Nat}
    {its : List (Option (Content × Content))} (hlev : ∀ c v, some (c, v) ∈ its → c.levels ≤ k ∧ v.levels ≤ k) (h0 : none ∉ its) :
    TagFails x k tag id variants its (.missingStructField tag none) := by
  intro term key f I ts w r d hterm hI hE hlen hi hp hd
  have hfold : ∀ (ts : List Text) (its : List (Option (Content × Content))) (acc : List (Content × Content)), All2 I ts its →
      (∀ t ∈ ts, t.length < f) → (∀ c v, some (c, v) ∈ its → c.levels ≤ k ∧ v.levels ≤ k) → none ∉ its →
      ∃ es, FoldReads x k key (taggedCheck tag) (taggedVal tag variants (contentAny f false)) ts (none, acc) (none, es) := by
    intro ts
    induction ts with
    | nil =>
      intro its acc hE
      cases its with
      | nil => intros; exact ⟨acc, rfl⟩
      | cons _ _ => exact hE.elim
    | cons e ts ih =>
      intro its acc hE hlen hlev h0
      cases its with
      | nil => exact hE.elim
      | cons o its =>
        cases o with
        | none => simp at h0
        | some cv =>
          obtain ⟨c, v⟩ := cv
          obtain ⟨l1, l2⟩ := hlev c v (by simp)
          obtain ⟨kt, vt, h1, h2, h3, h4⟩ := hI.other e c v hE.1 (hlen e (by simp)) l1 l2
          obtain ⟨es, hes⟩ := ih its (acc ++ [(c, v)]) hE.2 (fun t ht => hlen t (by simp [ht])) (fun c v hm => hlev c v (by simp [hm])) (by simp at h0; exact h0)
          refine ⟨es, kt, vt, c, (none, acc ++ [(c, v)]), h1, by simp [taggedCheck, h2], ?_, h4, hes⟩
          have := h3.bind_pure fun v => ((none, acc ++ [(c, v)]) : Option Text × List (Content × Content))
          unfold taggedVal
          rw [h2]
          exact this
  obtain ⟨es, hes⟩ := hfold ts its [] hE hlen hlev h0
  obtain ⟨s', m1, m2, m3⟩ := foldMap_inner hterm hi hes (hp.mono (by split <;> omega)) hd
  refine ⟨s', ?_⟩
  unfold taggedMap
  simp only [bind_apply, m1]
  rfl

theorem TagItems.start {x : Exts} {k f : Nat} {tag id : Text} {key : P Content} {I : Text → Option (Content × Content) → Prop}
    (h : TagItems x k f tag id key I) : ∀ {ts : List Text} {its : List (Option (Content × Content))}, All2 I ts its → (∀ t ∈ ts, t.length < f) →
    (∀ c v, some (c, v) ∈ its → c.levels ≤ k ∧ v.levels ≤ k) → ∀ t ∈ ts, TokStart t
  | [], _, _, _, _, t, ht => by simp at ht
  | _ :: _, [], h, _, _, _, _ => h.elim
  | e :: ts, o :: its, hE, hlen, hlev, t, ht => by
    rcases List.mem_cons.mp ht with rfl | ht
    · cases o with
      | none =>
        obtain ⟨kt, vt, h1, -, h3⟩ := h.tagged t hE.1
        cases h3 with
        | mk _ _ => exact h1.1.append _
      | some cv =>
        obtain ⟨l1, l2⟩ := hlev cv.1 cv.2 (by simp)
        obtain ⟨kt, vt, h1, -, -, h3⟩ := h.other t cv.1 cv.2 hE.1 (hlen t (by simp)) l1 l2
        cases h3 with
        | mk _ _ => exact h1.1.append _
    · exact TagItems.start h hE.2 (fun t ht => hlen t (by simp [ht])) (fun c v hm => hlev c v (by simp [hm])) t ht

theorem tagFails_of {x : Exts} {tag id : Text} {variants : List Text} {k : Nat} {its : List (Option (Content × Content))} {err : Err}
    (hlev : ∀ c v, some (c, v) ∈ its → c.levels ≤ k ∧ v.levels ≤ k)
    (h : ∀ (key : P Content) (f : Nat) (I : Text → Option (Content × Content) → Prop) (ts : List Text), TagItems x k f tag id key I → All2 I ts its →
      (∀ t ∈ ts, t.length < f) → FoldFails x k key (taggedCheck tag) (taggedVal tag variants (contentAny f false)) err ts (none, [])) :
    TagFails x k tag id variants its err := by
  intro term key f I ts w r d hterm hI hE hlen hi hp hd
  obtain ⟨s', m1⟩ := foldMap_fails hterm hi (h key f I ts hI hE hlen) hp hd
  refine ⟨s', ?_⟩
  unfold taggedMap
  simp only [bind_apply, m1]

/-- The tag occurs twice. -/
theorem tagFails_twice {x : Exts} {tag id : Text} {variants : List Text} (hid : id ∈ variants) {k : Nat}
    {its : List (Option (Content × Content))} (hlev : ∀ c v, some (c, v) ∈ its → c.levels ≤ k ∧ v.levels ≤ k)
    (h2 : 2 ≤ its.countP Option.isNone) : TagFails x k tag id variants its (.duplicateStructField tag none) := by
  refine tagFails_of hlev fun key f I ts hI hE hlen => ?_
  have main : ∀ (ts : List Text) (its : List (Option (Content × Content))) (got : Option Text) (acc : List (Content × Content)), All2 I ts its →
      (∀ t ∈ ts, t.length < f) → (∀ c v, some (c, v) ∈ its → c.levels ≤ k ∧ v.levels ≤ k) →
      2 ≤ its.countP Option.isNone + (if got.isSome then 1 else 0) →
      FoldFails x k key (taggedCheck tag) (taggedVal tag variants (contentAny f false)) (.duplicateStructField tag none) ts (got, acc) := by
    intro ts
    induction ts with
    | nil =>
      intro its got acc hE _ _ h
      cases its with
      | nil => simp at h; split at h <;> omega
      | cons _ _ => exact hE.elim
    | cons e ts ih =>
      intro its got acc hE hlen hlev h
      have hst := hI.start hE hlen hlev
      cases its with
      | nil => exact hE.elim
      | cons o its =>
        refine ⟨hst e (by simp), fun t ht => hst t (by simp [ht]), ?_⟩
        cases o with
        | none =>
          obtain ⟨kt, vt, h1, h2, h3⟩ := hI.tagged e hE.1
          cases got with
          | some i => exact .inl ⟨kt, vt, .str tag, h1, by simp [taggedCheck, tagKeyOf_tag], h3⟩
          | none =>
            refine .inr (.inr ⟨kt, vt, .str tag, (some id, acc), h1, by simp [taggedCheck, tagKeyOf_tag], ?_, h3, ?_⟩)
            · have := ((tagValue_reads (x := x) h2 hid).bind_pure fun i => ((some i, acc) : Option Text × List (Content × Content))).mono (Nat.zero_le k)
              unfold taggedVal
              rw [tagKeyOf_tag]
              exact this
            · exact ih its (some id) acc hE.2 (fun t ht => hlen t (by simp [ht])) (fun c v hm => hlev c v (by simp [hm])) (by
                simp [List.countP_cons] at h ⊢; omega)
        | some cv =>
          obtain ⟨c, v⟩ := cv
          obtain ⟨l1, l2⟩ := hlev c v (by simp)
          obtain ⟨kt, vt, h1, h2, h3, h4⟩ := hI.other e c v hE.1 (hlen e (by simp)) l1 l2
          refine .inr (.inr ⟨kt, vt, c, (got, acc ++ [(c, v)]), h1, by simp [taggedCheck, h2], ?_, h4, ?_⟩)
          · have := h3.bind_pure fun v => ((got, acc ++ [(c, v)]) : Option Text × List (Content × Content))
            unfold taggedVal
            rw [h2]
            exact this
          · exact ih its got (acc ++ [(c, v)]) hE.2 (fun t ht => hlen t (by simp [ht])) (fun c v hm => hlev c v (by simp [hm])) (by
              simpa [List.countP_cons] using h)
  exact main ts its none [] hE hlen hlev (by simpa using h2)

theorem tagValue_fails {x : Exts} {variants : List Text} {id w : Text} (h : StrLit w id) (hid : id ∉ variants) :
    FailsAt x 0 (tagValue variants) w (.noSuchEnumVariant variants id none) := by
  refine ⟨(ctext_plainly (.str id) w (by simp only [CText]; exact .inl h)).start, fun d r hp hd => ?_⟩
  obtain ⟨s', h1, h2, h3⟩ := string_ok hd h
  refine ⟨s', ?_⟩
  unfold tagValue
  have : variants.contains id = false := by simpa using hid
  simp only [bind_apply, h1, variantOf, this, Bool.false_eq_true, ↓reduceIte, liftE]
  rfl

/-- The tag names no variant. -/
theorem tagFails_unknown {x : Exts} {tag id : Text} {variants : List Text} (hid : id ∉ variants) {k : Nat}
    {its : List (Option (Content × Content))} (hlev : ∀ c v, some (c, v) ∈ its → c.levels ≤ k ∧ v.levels ≤ k)
    (h2 : none ∈ its) : TagFails x k tag id variants its (.noSuchEnumVariant variants id none) := by
  refine tagFails_of hlev fun key f I ts hI hE hlen => ?_
  have main : ∀ (ts : List Text) (its : List (Option (Content × Content))) (acc : List (Content × Content)), All2 I ts its →
      (∀ t ∈ ts, t.length < f) → (∀ c v, some (c, v) ∈ its → c.levels ≤ k ∧ v.levels ≤ k) → none ∈ its →
      FoldFails x k key (taggedCheck tag) (taggedVal tag variants (contentAny f false)) (.noSuchEnumVariant variants id none) ts (none, acc) := by
    intro ts
    induction ts with
    | nil =>
      intro its acc hE _ _ h
      cases its with
      | nil => simp at h
      | cons _ _ => exact hE.elim
    | cons e ts ih =>
      intro its acc hE hlen hlev h
      have hst := hI.start hE hlen hlev
      cases its with
      | nil => exact hE.elim
      | cons o its =>
        refine ⟨hst e (by simp), fun t ht => hst t (by simp [ht]), ?_⟩
        cases o with
        | none =>
          obtain ⟨kt, vt, h1, h2, h3⟩ := hI.tagged e hE.1
          refine .inr (.inl ⟨kt, vt, .str tag, h1, by simp [taggedCheck, tagKeyOf_tag], ?_, h3⟩)
          obtain ⟨g1, g2⟩ := tagValue_fails (x := x) h2 hid
          refine ⟨g1, fun d r hp hd => ?_⟩
          obtain ⟨s', h⟩ := g2 d r (hp.mono (Nat.zero_le _)) hd
          refine ⟨s', ?_⟩
          unfold taggedVal
          rw [tagKeyOf_tag]
          simp only [bind_apply, h]
        | some cv =>
          obtain ⟨c, v⟩ := cv
          obtain ⟨l1, l2⟩ := hlev c v (by simp)
          obtain ⟨kt, vt, h1, h2, h3, h4⟩ := hI.other e c v hE.1 (hlen e (by simp)) l1 l2
          refine .inr (.inr ⟨kt, vt, c, (none, acc ++ [(c, v)]), h1, by simp [taggedCheck, h2], ?_, h4, ?_⟩)
          · have := h3.bind_pure fun v => ((none, acc ++ [(c, v)]) : Option Text × List (Content × Content))
            unfold taggedVal
            rw [h2]
            exact this
          · exact ih its (acc ++ [(c, v)]) hE.2 (fun t ht => hlen t (by simp [ht])) (fun c v hm => hlev c v (by simp [hm])) (by simpa using h)
  exact main ts its [] hE hlen hlev h2

/-! ### Documents -/

theorem doc_fails {α : Type} {x : Exts} {k : Nat} {seed : P α} {w : Text} {err : Err} (hr : FailsAt x k seed w err)
    {o : Options} {l hdr l' : Text} {e : Exts} (hl : Layout l) (hh : Attrs hdr e) (hx : e.union o.defaultExtensions = x)
    (hk : ∀ m, o.recursionLimit = some m → k ≤ m) :
    ∃ sp, fromStr o seed (l ++ (hdr ++ (w ++ l'))) = .error (err, sp) := by
  obtain ⟨s1, h1, r1, e1, -, n1, -, m1⟩ := parserNew_ok hl hh (hr.1.noLayout l') (hr.1.noHash l')
    { St.init (l ++ (hdr ++ (w ++ l'))) with limit := o.recursionLimit } (by simp [St.init])
  obtain ⟨s2, h2⟩ := hr.2 { s1 with exts := s1.exts.union o.defaultExtensions } l'
    ⟨n1, by rw [← hx]; simp [e1, St.init, Exts.union, Exts.empty], fun m hm => hk m (m1.symm.trans hm)⟩ (by simpa using r1)
  refine ⟨s2.span, ?_⟩
  unfold fromStr readDoc deNew
  simp only [bind_apply, modSt_apply, h1, h2]
  rfl

end Ron
