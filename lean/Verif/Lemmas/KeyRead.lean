import Verif.Lemmas.TyMain
import Verif.Lemmas.TyLangSound
/-!
# Reading names that may be keywords
-/

set_option linter.unusedSimpArgs false

namespace Ron

variable [Env]

theorem KeyTok.head {name tok : Text} (h : KeyTok name tok) (r : Text) : headXid (tok ++ r) = true := by
  obtain ⟨hn, rfl | ⟨rfl, hp⟩⟩ := h
  · exact xid_cont_ascii (by decide)
  · obtain ⟨c, cs, rfl, hc, -⟩ := hp
    exact identFirst_xid hc

theorem structKey_some {name tok r : Text} {d : St} (h : KeyTok name tok) (hr : IdentFollow r) (hd : d.rest = tok ++ r) :
    ∃ s', consumeStructName name d = .ok true s' ∧ s'.rest = r ∧ KeepsD d s' := by
  obtain ⟨s', h1, h2, h3⟩ := h.reads hr hd
  refine ⟨s', ?_, h2, h3.toD⟩
  have hc : checkIdent [] d = .ok false d := checkIdent_false (.inr (by simpa [hd] using h.head r))
  unfold consumeStructName
  have hne : name.isEmpty = false := by simpa using h.1.1
  simp only [bind_apply, hc, Bool.false_eq_true, ↓reduceIte, attempt_apply, h1, hne, ne_eq, not_true_eq_false, pure_apply]

/-- An optional name. -/
theorem structKey_opt {x : Exts} {name p u : Text} {d : St} (h : NamePre x name p) (hx : d.exts = x) (hd : d.rest = p ++ '(' :: u) :
    ∃ b s', consumeStructName name d = .ok b s' ∧ (∃ l, Layout l ∧ s'.rest = l ++ '(' :: u) ∧ KeepsD d s' := by
  rcases h with ⟨he, rfl⟩ | ⟨tok, l, h1, h2, rfl⟩
  · exact ⟨false, d, structName_none (hx ▸ he) hd, ⟨[], .nil, hd⟩, .refl _⟩
  · obtain ⟨s', g1, g2, g3⟩ := structKey_some (r := l ++ '(' :: u) h1 (layout_follow h2 (parenOpen_follow _)) (by simpa using hd)
    exact ⟨true, s', g1, ⟨l, h2, g2⟩, g3⟩

theorem NamePre.tokStart {x : Exts} {name p : Text} (h : NamePre x name p) (u : Text) : TokStart (p ++ '(' :: u) := by
  rcases h with ⟨-, rfl⟩ | ⟨tok, l, h1, h2, rfl⟩
  · exact ⟨_, _, rfl, by decide, by decide⟩
  · simpa using h1.tokStart.append _

theorem NameTight.toPre {x : Exts} {name p : Text} (h : NameTight x name p) : NamePre x name p := by
  rcases h with ⟨h, rfl⟩ | h
  · exact .inl ⟨h, rfl⟩
  · exact .inr ⟨p, [], h, .nil, by simp⟩

theorem KeyTok.noDots {name tok : Text} (h : KeyTok name tok) (r : Text) : startsWith (tok ++ r) c!".." = false := by
  obtain ⟨hn, rfl | ⟨rfl, hp⟩⟩ := h
  · simp
  · obtain ⟨c, cs, rfl, hc, -⟩ := hp
    simp only [List.cons_append, startsWith_cons, Bool.and_eq_false_iff, beq_eq_false_iff_ne]
    left
    rintro rfl
    rw [isIdentFirst_ascii (by decide)] at hc
    revert hc; decide

theorem unitStruct_key {x : Exts} {name w : Text} (h : (x.explicitStructNames = false ∧ w = c!"()") ∨ KeyTok name w) :
    Reads x 0 (deUnitStruct name) w () := by
  rcases h with ⟨hx, rfl⟩ | h
  · refine ⟨unit_reads (x := x).1, fun d l q hp hd hl hq => ?_⟩
    obtain ⟨s', l', h1, h2⟩ := unit_reads.2 d l q hp hd hl hq
    refine ⟨s', l', ?_, h2⟩
    unfold deUnitStruct
    have hd' : d.rest = '(' :: (')' :: (l ++ q)) := hd
    simp only [bind_apply, unitStruct_dots (name := name) (d := d) (by rw [hd]; simp), Bool.false_eq_true, ↓reduceIte, getSt_apply,
      hp.nv, structName_none (name := name) (by rw [hp.exts]; exact hx) hd', h1]
  · refine ⟨h.tokStart, fun d l q hp hd hl hq => ?_⟩
    obtain ⟨s', h1, h2, h3⟩ := structKey_some h (follow_ident hl hq) hd
    refine ⟨{ s' with nv := false }, l, ?_, h2, hl, h3.trans (.clear _)⟩
    unfold deUnitStruct
    simp only [bind_apply, unitStruct_dots (name := name) (d := d) (by rw [hd]; exact h.noDots _), Bool.false_eq_true, ↓reduceIte,
      getSt_apply, hp.nv, h1, setNv_apply]

/-- The text of a field: a known field with a value of its type, or an unknown field with any value if such are ignored. -/
def KeyText (x : Exts) (k : Nat) (rec : Ty → P SVal) (deny : Bool) (fields : List (Text × Ty)) (e : Text)
    (g : Option (Text × SVal)) : Prop :=
  ∃ key kt vt, KeyTok key kt ∧ Entry kt vt e ∧
    match g with
    | some (key', v) => key' = key ∧ ∃ T, fields.find? (fun f => f.1 = key) = some (key, T) ∧ Reads x k (rec T) vt v
    | none => deny = false ∧ key ∉ fields.map Prod.fst ∧ Reads x k deIgnored vt ()

theorem KeyText.tokStart {x : Exts} {k : Nat} {rec : Ty → P SVal} {deny : Bool} {fields : List (Text × Ty)} {e : Text}
    {g : Option (Text × SVal)} (h : KeyText x k rec deny fields e g) : TokStart e := by
  obtain ⟨key, kt, vt, h1, h2, -⟩ := h
  cases h2 with
  | mk _ _ => exact h1.tokStart.append _

theorem deIdentifier_key {x : Exts} {n t : Text} (h : KeyTok n t) : ReadsA x 0 deIdentifier t n := by
  refine ⟨h.tokStart, fun d l q _ _ hd hl hq => ?_⟩
  obtain ⟨s', h1, h2, h3⟩ := h.reads (follow_ident hl hq) hd
  have h3 := h3.toD
  refine ⟨{ s' with lastIdent := some n }, l, ?_, h2, hl, ⟨h3.src, h3.exts, h3.limit, h3.nv⟩⟩
  unfold deIdentifier
  simp only [bind_apply, h1, modSt_apply, pure_apply]

theorem fieldKey_in {x : Exts} {k : Nat} {deny : Bool} {names : List Text} {n t : Text} (h : KeyTok n t) (hn : n ∈ names) :
    Reads x k (fieldKey deny names) t (some n) := by
  refine ⟨h.tokStart, fun d l q hp hd hl hq => ?_⟩
  obtain ⟨s', l', h1, h2⟩ := (deIdentifier_key (x := x) h).2 d l q hp.exts (hp.budget.mono (Nat.zero_le _)) hd hl hq
  refine ⟨s', l', ?_, h2⟩
  unfold fieldKey
  have hc : names.contains n = true := by simpa using hn
  simp only [bind_apply, h1, hc, ↓reduceIte, pure_apply]

theorem fieldKey_other {x : Exts} {k : Nat} {names : List Text} {n t : Text} (h : KeyTok n t) (hn : n ∉ names) :
    Reads x k (fieldKey false names) t none := by
  refine ⟨h.tokStart, fun d l q hp hd hl hq => ?_⟩
  obtain ⟨s', l', h1, h2⟩ := (deIdentifier_key (x := x) h).2 d l q hp.exts (hp.budget.mono (Nat.zero_le _)) hd hl hq
  refine ⟨s', l', ?_, h2⟩
  unfold fieldKey
  have hc : names.contains n = false := by simpa using hn
  simp only [bind_apply, h1, hc, ↓reduceIte, pure_apply, Bool.false_eq_true]

theorem structLoop_keys {x : Exts} {k : Nat} {rec : Ty → P SVal} {deny : Bool} {fields : List (Text × Ty)} {ts : List Text} {u : Text}
    (hu : Body ts u) : ∀ (f : Nat) (gs : List (Option (Text × SVal))) (got : Text → Option SVal) (d : St) (l b r : Text),
    All2 (KeyText x k rec deny fields) ts gs → (keysOf gs).Nodup → (∀ key ∈ keysOf gs, got key = none) →
    Pre x (k + 1) d → d.rest = l ++ (u ++ (b ++ ')' :: r)) → Layout l → Tail b → ts.length < f →
    ∃ s', structLoop rec deIgnored deny fields f true got d = .ok (gotOf gs got) s' ∧ s'.rest = ')' :: r ∧ KeepsD d s' := by
  induction hu with
  | @one t =>
    intro f gs got d l b r h2 hn hg hp hd hl hb hf
    obtain ⟨f, rfl⟩ : ∃ g, f = g + 1 + 1 := ⟨f - 2, by simp at hf; omega⟩
    match gs, h2 with
    | [g], h2 =>
      obtain ⟨key, kt, vt, hk, he, hg1⟩ := h2.1
      cases he with
      | @mk m m' hm hm' =>
      cases g with
      | some e =>
        obtain ⟨key', v⟩ := e
        obtain ⟨rfl, T, hf, hv⟩ := hg1
        obtain ⟨s1, b1, a1, a2, a3, a4⟩ := nextKey_ok (term := ')') (b := m) (r := m' ++ (vt ++ (b ++ ')' :: r))) hp (by simp)
          (fieldKey_in (deny := deny) hk (find_names hf)) (by rw [hd]; simp) hl hm
        obtain ⟨had, s2, c1, c2, c3⟩ := nextValue_last (hp.keep a4) (by simp) hv a2 a3 hm' hb
        obtain ⟨s3, e1, e2, e3⟩ := nextKey_end (term := ')') (key := fieldKey deny (fields.map Prod.fst)) had (by simp)
          (show s2.rest = [] ++ ')' :: r from c2) .nil
        refine ⟨s3, ?_, e2, (a4.trans c3).trans e3⟩
        have hnone := hg key' (by simp [keysOf])
        rw [structLoop]
        simp only [bind_apply, a1, hnone, Option.isSome_none, Bool.false_eq_true, ↓reduceIte, hf, c1]
        rw [structLoop]
        simp only [bind_apply, e1, pure_apply]
        rfl
      | none =>
        obtain ⟨rfl, hnm, hv⟩ := hg1
        obtain ⟨s1, b1, a1, a2, a3, a4⟩ := nextKey_ok (term := ')') (b := m) (r := m' ++ (vt ++ (b ++ ')' :: r))) hp (by simp)
          (fieldKey_other hk hnm) (by rw [hd]; simp) hl hm
        obtain ⟨had, s2, c1, c2, c3⟩ := nextValue_last (hp.keep a4) (by simp) hv a2 a3 hm' hb
        obtain ⟨s3, e1, e2, e3⟩ := nextKey_end (term := ')') (key := fieldKey false (fields.map Prod.fst)) had (by simp)
          (show s2.rest = [] ++ ')' :: r from c2) .nil
        refine ⟨s3, ?_, e2, (a4.trans c3).trans e3⟩
        rw [structLoop]
        simp only [bind_apply, a1, c1]
        rw [structLoop]
        simp only [bind_apply, e1, pure_apply]
        rfl
  | @cons t b' a u ts hb' ha hu ih =>
    intro f gs got d l b r h2 hn hg hp hd hl hb hf
    obtain ⟨f, rfl⟩ : ∃ g, f = g + 1 := ⟨f - 1, by simp at hf; omega⟩
    match gs, h2 with
    | g :: gs, h2 =>
      have hts : ∀ t ∈ ts, TokStart t := by
        intro t ht
        obtain ⟨g, -, hg⟩ := All2.mem_left h2.2 t ht
        exact hg.tokStart
      have hnl := (hu.tokStart hts).noLayout (b ++ ')' :: r)
      obtain ⟨key, kt, vt, hk, he, hg1⟩ := h2.1
      cases he with
      | @mk m m' hm hm' =>
      cases g with
      | some e =>
        obtain ⟨key', v⟩ := e
        obtain ⟨rfl, T, hfi, hv⟩ := hg1
        rw [keysOf_some, List.nodup_cons] at hn
        obtain ⟨s1, b1, a1, a2, a3, a4⟩ := nextKey_ok (term := ')') (b := m)
          (r := m' ++ (vt ++ (b' ++ ',' :: (a ++ (u ++ (b ++ ')' :: r)))))) hp (by simp)
          (fieldKey_in (deny := deny) hk (find_names hfi)) (by rw [hd]; simp) hl hm
        obtain ⟨s2, c1, c2, c3⟩ := nextValue_more (hp.keep a4) hv a2 a3 hm' hb' ha hnl
        obtain ⟨s3, e1, e2, e3⟩ := ih f gs (fun k => if k = key' then some v else got k) s2 [] b r h2.2 hn.2
          (fun key hkey => by
            rw [if_neg (by rintro rfl; exact hn.1 hkey)]
            exact hg key (by rw [keysOf_some]; simp [hkey]))
          ((hp.keep a4).keep c3) (by simpa using c2) .nil hb (by simp at hf; omega)
        refine ⟨s3, ?_, e2, (a4.trans c3).trans e3⟩
        have hnone := hg key' (by simp [keysOf])
        rw [structLoop]
        simp only [bind_apply, a1, hnone, Option.isSome_none, Bool.false_eq_true, ↓reduceIte, hfi, c1]
        exact e1
      | none =>
        obtain ⟨rfl, hnm, hv⟩ := hg1
        rw [keysOf_none] at hn
        obtain ⟨s1, b1, a1, a2, a3, a4⟩ := nextKey_ok (term := ')') (b := m)
          (r := m' ++ (vt ++ (b' ++ ',' :: (a ++ (u ++ (b ++ ')' :: r)))))) hp (by simp)
          (fieldKey_other hk hnm) (by rw [hd]; simp) hl hm
        obtain ⟨s2, c1, c2, c3⟩ := nextValue_more (hp.keep a4) hv a2 a3 hm' hb' ha hnl
        obtain ⟨s3, e1, e2, e3⟩ := ih f gs got s2 [] b r h2.2 hn
          (fun key hkey => hg key (by rwa [keysOf_none]))
          ((hp.keep a4).keep c3) (by simpa using c2) .nil hb (by simp at hf; omega)
        refine ⟨s3, ?_, e2, (a4.trans c3).trans e3⟩
        rw [structLoop]
        simp only [bind_apply, a1, c1]
        exact e1

/-- The fields of a struct are collected, in any order. -/
theorem structLoop_keysIn {x : Exts} {k : Nat} {rec : Ty → P SVal} {deny : Bool} {fields : List (Text × Ty)}
    {ts : List Text} {w : Text} (hw : Inner ')' ts w) {gs : List (Option (Text × SVal))} {d : St} {r : Text}
    (h2 : All2 (KeyText x k rec deny fields) ts gs) (hn : (keysOf gs).Nodup)
    (hp : Pre x (if ts = [] then 0 else k + 1) d) (hd : d.rest = w ++ r) :
    ∃ s', structLoop rec deIgnored deny fields (d.rest.length + 1) true (fun _ => none) d = .ok (gotOf gs fun _ => none) s' ∧
      s'.rest = ')' :: r ∧ KeepsD d s' := by
  cases hw with
  | @nil a ha =>
    match gs, h2 with
    | [], _ =>
      obtain ⟨s3, e1, e2, e3⟩ := nextKey_end (term := ')') (key := fieldKey deny (fields.map Prod.fst)) true (by simp)
        (show d.rest = a ++ ')' :: r by simpa using hd) ha
      refine ⟨s3, ?_, e2, e3⟩
      rw [structLoop]
      simp only [bind_apply, e1, pure_apply]
      rfl
  | @items a u t ts ha hu ht =>
    rw [if_neg (body_ne hu)] at hp
    have hts : ∀ t ∈ ts, TokStart t := by
      intro t ht
      obtain ⟨g, -, hg⟩ := All2.mem_left h2 t ht
      exact hg.tokStart
    refine structLoop_keys hu _ gs _ d a t r h2 hn (fun _ _ => rfl) hp (by rw [hd]; simp) ha ht ?_
    have := hu.length hts
    rw [hd]; simp; omega

/-- The fields of a struct, in any order. -/
theorem visitStruct_keys {x : Exts} {k : Nat} {rec : Ty → P SVal} {isOption : Ty → Bool} {deny : Bool} {fields : List (Text × Ty)}
    {ts : List Text} {w : Text} (hw : Inner ')' ts w) {gs : List (Option (Text × SVal))} {fs : List (Text × SVal)} {d : St} {r : Text}
    (h2 : All2 (KeyText x k rec deny fields) ts gs) (hn : (keysOf gs).Nodup)
    (hc : collectFields isOption (gotOf gs fun _ => none) fields = .ok fs)
    (hp : Pre x (if ts = [] then 0 else k + 1) d) (hd : d.rest = w ++ r) :
    ∃ s', visitStruct rec isOption deny fields d = .ok fs s' ∧ s'.rest = ')' :: r ∧ KeepsD d s' := by
  obtain ⟨s', h1, h3, h4⟩ := structLoop_keysIn hw h2 hn hp hd
  refine ⟨s', ?_, h3, h4⟩
  unfold visitStruct
  simp only [bind_apply, getSt_apply, h1, hc, liftE, pure_apply]

theorem newtype_key {x : Exts} {k : Nat} {α : Type} {v : α} {visit : P α} {p q name : Text} (hp : NamePre x name p)
    (h : Paren (fun t => Reads x k visit t v) q) (hu : x.unwrapNewtypes = false) :
    Reads x (k + 1) (deNewtype name visit) (p ++ q) v := by
  obtain ⟨a, t, b, ha, ht, hb, rfl⟩ := h
  refine ⟨hp.tokStart _, fun d l1 q hpre hd hl1 hq => ?_⟩
  obtain ⟨b0, s0, h1, ⟨l, hl, h2⟩, h3⟩ := structKey_opt (d := d) (u := a ++ (t ++ (b ++ ')' :: (l1 ++ q)))) hp hpre.exts
    (by rw [hd]; simp)
  obtain ⟨s1, g1, g2, g3⟩ := skipWs_tok h2 hl (noLayout_paren _)
  have g4 := consumeChar_true g2
  have hk0 : KeepsD d { s1 with prev := s1.rest, rest := a ++ (t ++ (b ++ ')' :: (l1 ++ q))) } :=
    (h3.trans g3).trans (KeepsD.step s1 _ _)
  obtain ⟨s2, s3, c, s4, k1, kk, k2, kn, k3, k4, k5, k6⟩ := content_ok ht.toT ha hb (hk0.exts.trans hpre.exts) (hpre.budget.keep hk0) rfl
  have e2 : { s2 with nv := false } = s2 := by
    have : s2.nv = false := kk.nv (hk0.nv hpre.nv)
    rw [← this]
  have e3 : { s3 with nv := false } = s3 := by
    have : s3.nv = false := kn rfl
    rw [← this]
  rw [e2] at k2
  rw [e3] at k3
  have g5 := consumeChar_true k4
  refine ⟨_, l1, ?_, rfl, hl1, (hk0.trans k5).trans (KeepsD.step s4 s4.rest (l1 ++ q))⟩
  unfold deNewtype
  simp only [bind_apply, getSt_apply, hpre.exts, hu, hpre.nv, Bool.or_self, Bool.false_eq_true, ↓reduceIte, h1, g1, g4, k1, k2, k3, g5,
    pure_apply]

theorem deIdentifier_runs {n t r : Text} {d : St} (h : KeyTok n t) (hr : IdentFollow r) (hd : d.rest = t ++ r) :
    ∃ s', deIdentifier d = .ok n s' ∧ s'.rest = r ∧ KeepsD d s' := by
  obtain ⟨s', h1, h2, h3⟩ := h.reads hr hd
  have h3 := h3.toD
  refine ⟨{ s' with lastIdent := some n }, ?_, h2, ⟨h3.src, h3.exts, h3.limit, h3.nv⟩⟩
  unfold deIdentifier
  simp only [bind_apply, h1, modSt_apply, pure_apply]

theorem enum_key {x : Exts} {k : Nat} {rec : Ty → P SVal} {isOption : Ty → Bool} {name id tok w' : Text}
    {variants : List (Text × Variant)} {kd : Variant} {V : SVal} (hk : 1 ≤ k) (ht : KeyTok id tok)
    (hf : variants.find? (fun e => e.1 = id) = some (id, kd))
    (hfol : ∀ l q, Layout l → Stop q → IdentFollow (w' ++ (l ++ q)))
    (hdata : ∀ d l q, Pre x k d → d.rest = w' ++ (l ++ q) → Layout l → Stop q → RunsTo (variantData rec isOption name id kd) d V q) :
    ReadsA x (k + 1) (deEnum name (visitEnum rec isOption name variants)) (tok ++ w') V := by
  refine ⟨ht.tokStart.append _, fun d l q hx hbu hd hl hq => ?_⟩
  let d1 : St := { d with nv := false }
  have hp1 : Pre x (k + 1) d1 := ⟨rfl, hx, hbu⟩
  let d2 : St := { d1 with limit := d1.limit.map (· - 1) }
  have hp2 : Pre x k d2 := hp1.lower
  have hd2 : d2.rest = tok ++ (w' ++ (l ++ q)) := by show d.rest = _; rw [hd]; simp
  obtain ⟨s3, a1, a2, a3⟩ := skipWs_tok (d := d2) (l := []) (r := tok ++ (w' ++ (l ++ q))) (by simpa using hd2) .nil
    (ht.tokStart.noLayout _)
  have hp3 := hp2.keep a3
  obtain ⟨k', rfl⟩ : ∃ k', k = k' + 1 := ⟨k - 1, by omega⟩
  obtain ⟨s4, b1, b2, b3⟩ := deIdentifier_runs (d := { s3 with limit := s3.limit.map (· - 1) }) ht (hfol l q hl hq) a2
  have b4 := deGuardQ_ok (f := do
    let id ← deIdentifier
    match variants.find? (fun e => e.1 = id) with
    | some (_, k) => pure (id, k)
    | none => fail (.noSuchEnumVariant (variants.map Prod.fst) id none)) (a := (id, kd)) (s' := s4) hp3.budget
    (by simp only [bind_apply, b1, hf, pure_apply]) b3
  obtain ⟨s5, l5, c1, c2, c3, c4⟩ := hdata _ l q (hp3.keep b4.2) b2 hl hq
  have hv : visitEnum rec isOption name variants d2 = .ok V s5 := by
    unfold visitEnum
    rw [bind_apply, a1]
    refine (bind_eq (a := (id, kd)) (deGuardQ_ok hp3.budget ?_ b3).1).trans c1
    simp only [bind_apply, b1, hf, pure_apply]
  obtain ⟨e1, e2⟩ := deGuardR_ok hp1.budget hv ((a3.trans b4.2).trans c4)
  refine ⟨{ s5 with limit := d1.limit }, l5, ?_, c2, c3, (KeepsD.clear d).trans e2⟩
  unfold deEnum
  simp only [bind_apply, setNv_apply, mapErr_apply]
  rw [e1]

theorem tupleStruct_key {x : Exts} {k : Nat} {name p w : Text} {α : Type} {visit : P α} {v : α} (hn : NameTight x name p)
    {w' : Text} (hw : w = '(' :: w') (h : Reads x k (deTuple visit) w v) : Reads x k (deTupleStruct name visit) (p ++ w) v := by
  subst hw
  refine ⟨hn.toPre.tokStart _, fun d l q hp hd hl hq => ?_⟩
  have key : ∃ b s', consumeStructName name d = .ok b s' ∧ s'.rest = '(' :: w' ++ (l ++ q) ∧ KeepsD d s' := by
    rcases hn with ⟨he, rfl⟩ | hn
    · exact ⟨false, d, structName_none (u := w' ++ (l ++ q)) (hp.exts ▸ he) (by simpa using hd), by simpa using hd, .refl _⟩
    · obtain ⟨s', g1, g2, g3⟩ := structKey_some (r := '(' :: (w' ++ (l ++ q))) hn (parenOpen_follow _) (by simpa using hd)
      exact ⟨true, s', g1, g2, g3⟩
  obtain ⟨b, s', h1, h2, h3⟩ := key
  obtain ⟨s2, l2, g1, g2, g3, g4⟩ := h.2 s' l q (hp.keep h3) h2 hl hq
  refine ⟨s2, l2, ?_, g2, g3, h3.trans g4⟩
  unfold deTupleStruct
  simp only [bind_apply, getSt_apply, hp.nv, Bool.not_false, ↓reduceIte, h1, mapErr_apply, g1]

/-- A struct in parentheses. -/
theorem rangeKey_none {x : Exts} {name p u : Text} {d : St} (hp : NamePre x name p) (hd : d.rest = p ++ '(' :: u) (fields : List Text) :
    rangeStruct name fields d = .ok none d := by
  by_cases hr : RangeLike name fields
  · have hh : ∃ name', name = 'R' :: name' := by
      rcases hr with ⟨rfl, -⟩ | ⟨rfl, -⟩ | ⟨rfl, -⟩ | ⟨rfl, -⟩ | ⟨rfl, -⟩ <;> exact ⟨_, rfl⟩
    obtain ⟨name', rfl⟩ := hh
    apply rangeStruct_none
    rw [hd]
    rcases hp with ⟨-, rfl⟩ | ⟨tok, l, ⟨-, rfl | ⟨rfl, -⟩⟩, -, rfl⟩ <;> exact notNum_char (by decide) (by decide)
  · exact rangeStruct_not hr d

theorem struct_key {x : Exts} {k : Nat} {rec : Ty → P SVal} {isOption : Ty → Bool} {conv : Ty → Number → Except Err SVal} {name p q : Text}
    {deny : Bool} {fields : List (Text × Ty)} {es : List Text} {gs : List (Option (Text × SVal))} {fs : List (Text × SVal)}
    (hp : NamePre x name p) (hw : Delim '(' ')' es q) (h2 : All2 (KeyText x k rec deny fields) es gs) (hn : (keysOf gs).Nodup)
    (hc : collectFields isOption (gotOf gs fun _ => none) fields = .ok fs) :
    Reads x ((if es = [] then 0 else k + 1) + 1) (deStruct rec isOption conv name deny fields) (p ++ q) (.struct name fs) := by
  obtain ⟨w', rfl, hi⟩ := delim_inner hw
  refine ⟨hp.tokStart _, fun d l q hpre hd hl hq => ?_⟩
  have hd' : d.rest = p ++ '(' :: (w' ++ (l ++ q)) := by rw [hd]; simp
  have h0 := rangeKey_none hp hd' (fields.map Prod.fst)
  obtain ⟨b0, s0, g1, ⟨l0, g2, g3⟩, g4⟩ := structKey_opt hp hpre.exts hd'
  obtain ⟨s1, a1, a2, a3⟩ := skipWs_tok g3 g2 (noLayout_paren _)
  obtain ⟨s2, b1, b2, b3⟩ := structAfterName_ok name (hpre.keep (g4.trans a3)) a2 fun d' hp' hd' => by
    obtain ⟨s', c1, c2, c3⟩ := visitStruct_keys hi h2 hn hc hp' hd'
    exact ⟨s', [], c1, c2, .nil, c3⟩
  refine ⟨s2, l, ?_, b2, hl, (g4.trans a3).trans b3⟩
  unfold deStruct
  simp only [bind_apply, h0, getSt_apply, hpre.nv, Bool.not_false, ↓reduceIte, g1, a1, b1, pure_apply]

theorem structVariant_keys {x : Exts} {rec : Ty → P SVal} {isOption : Ty → Bool} {k : Nat} {deny : Bool} {fields : List (Text × Ty)} {es : List Text} {gs : List (Option (Text × SVal))}
    {fs : List (Text × SVal)} {name id l0 q0 : Text} (h0 : All2 (KeyText x k rec deny fields) es gs) (hn : (keysOf gs).Nodup)
    (hc : collectFields isOption (gotOf gs fun _ => none) fields = .ok fs) (hl0 : Layout l0) (hq0 : Delim '(' ')' es q0)
    {d : St} {l q : Text} (hp : Pre x ((if es = [] then 0 else k + 1) + 1) d) (hd : d.rest = l0 ++ q0 ++ (l ++ q)) (hl : Layout l) :
    RunsTo (variantData rec isOption name id (.struct deny fields)) d (.structVariant name id fs) q := by
  obtain ⟨w', rfl, hi⟩ := delim_inner hq0
  obtain ⟨s1, a1, a2, a3⟩ := skipWs_tok (r := '(' :: (w' ++ (l ++ q))) (by rw [hd]; simp) hl0 (noLayout_paren _)
  obtain ⟨s2, b1, b2, b3⟩ := structAfterName_ok [] (hp.keep a3) a2 fun d' hp' hd' => by
    obtain ⟨s', c1, c2, c3⟩ := visitStruct_keys hi h0 hn hc hp' hd'
    exact ⟨s', [], c1, c2, .nil, c3⟩
  refine ⟨s2, l, ?_, b2, hl, a3.trans b3⟩
  simp only [variantData, bind_apply, getSt_apply, a1, mapErr_apply, b1, pure_apply]

end Ron
