import Verif.Spec.Through
import Verif.Spec.HasTy
import Verif.Lemmas.ValueDe
import Verif.Lemmas.TyRange
/-!
# Lemmas on typed data read from a `Value`
-/
set_option linter.unusedSimpArgs false

namespace Ron

theorem All2.length {α β : Type} {R : α → β → Prop} : ∀ {as : List α} {bs : List β}, All2 R as bs → as.length = bs.length
  | [], [], _ => rfl
  | _ :: _, _ :: _, h => by simp [All2.length h.2]
  | [], _ :: _, h => h.elim
  | _ :: _, [], h => h.elim

/-- A pointwise relation carries over to a permutation of one side. -/
theorem All2.perm {α β : Type} {R : α → β → Prop} {as as' : List α} (hp : as.Perm as') : ∀ {bs : List β}, All2 R as bs →
    ∃ bs' : List β, bs.Perm bs' ∧ All2 R as' bs' := by
  induction hp with
  | nil => intro bs h; exact ⟨bs, .refl _, h⟩
  | cons x _ ih =>
    intro bs h
    cases bs with
    | nil => exact h.elim
    | cons b bs =>
      obtain ⟨bs', h1, h2⟩ := ih h.2
      exact ⟨b :: bs', h1.cons b, h.1, h2⟩
  | swap x y l =>
    intro bs h
    match bs, h with
    | [], h => exact h.elim
    | [_], h => exact h.2.elim
    | b :: c :: bs, h => exact ⟨c :: b :: bs, List.Perm.swap c b bs, h.2.1, h.1, h.2.2⟩
  | trans _ _ ih1 ih2 =>
    intro bs h
    obtain ⟨bs1, h1, h2⟩ := ih1 h
    obtain ⟨bs2, h3, h4⟩ := ih2 h2
    exact ⟨bs2, h1.trans h3, h4⟩

/-- Tuples take their elements one after the other. -/
theorem tupleProg_takes {α : Type} {fin : List SVal → α} : ∀ (seeds : List (Value → Except Err SVal)) (vs : List Value) (us acc : List SVal),
    All2 (fun (s : (Value → Except Err SVal) × Value) u => s.1 s.2 = .ok u) (seeds.zip vs) us → seeds.length = vs.length →
    Takes (tupleProg fin seeds acc) vs (.ok (fin (acc.reverse ++ us))) vs.length
  | [], [], us, acc, h, _ => by
    cases us with
    | nil => simp only [tupleProg, List.append_nil, List.length_nil]; exact .done
    | cons => exact h.elim
  | s :: seeds, v :: vs, us, acc, h, hl => by
    cases us with
    | nil => exact h.elim
    | cons u us =>
      obtain ⟨h1, h2⟩ := h
      simp only [tupleProg, List.length_cons]
      refine .step h1 ?_
      have := tupleProg_takes (fin := fin) seeds vs us (u :: acc) h2 (by simpa using hl)
      simpa only [List.reverse_cons, List.append_assoc, List.singleton_append] using this
  | [], _ :: _, _, _, _, hl => by simp at hl
  | _ :: _, [], _, _, _, hl => by simp at hl

variable [Env]

/-- New keys are only added. -/
theorem mapInsert_perm (m : List (Value × Value)) (k v : Value) (h : k ∉ m.map Prod.fst) :
    ((mapInsert m k v).2).Perm (m ++ [(k, v)]) := by
  unfold mapInsert
  split
  · rw [ixInsert_new m k v h]
  · rename_i hx
    clear hx
    induction m with
    | nil => exact .refl _
    | cons p m ih =>
      obtain ⟨k', v'⟩ := p
      simp only [List.map_cons, List.mem_cons, not_or] at h
      unfold btInsert
      cases hc : k.cmp k' with
      | lt =>
        have : ((k, v) :: ((k', v') :: m)).Perm (((k', v') :: m) ++ [(k, v)]) := by
          exact (List.perm_append_comm (l₁ := [(k, v)]) (l₂ := (k', v') :: m))
        simpa only [hc] using this
      | eq => exact absurd (Value.cmp_eq hc) h.1
      | gt => simpa only [hc, List.cons_append] using (ih h.2).cons (k', v')

theorem mapOfList_perm {es : List (Value × Value)} (h : NodupKeys es) : (mapOfList es).Perm es := by
  have key : ∀ (es acc : List (Value × Value)), NodupKeys (acc ++ es) →
      (es.foldl (fun m kv => (mapInsert m kv.1 kv.2).2) acc).Perm (acc ++ es) := by
    intro es
    induction es with
    | nil => intro acc _; simp
    | cons p es ih =>
      intro acc h
      obtain ⟨k, v⟩ := p
      have hk : k ∉ acc.map Prod.fst := by
        intro hm
        unfold NodupKeys at h
        rw [List.map_append, List.nodup_append] at h
        exact h.2.2 k hm k (by simp) rfl
      have hp := mapInsert_perm acc k v hk
      have hp2 : ((mapInsert acc k v).2 ++ es).Perm (acc ++ (k, v) :: es) := by
        simpa using hp.append_right es
      refine (ih _ ?_).trans hp2
      unfold NodupKeys at h ⊢
      exact ((hp2.map Prod.fst).nodup_iff).mpr h
  simpa [mapOfList] using key es [] (by simpa using h)

omit [Env] in
/-- Structs take all their fields, in any order. -/
theorem structProg_takes {α : Type} {rec : Ty → Value → Except Err SVal} {deny : Bool} {fields : List (Text × Ty)}
    {fin : (Text → Option SVal) → MapProg α} : ∀ (es : List (Value × Value)) (ds : List (Text × SVal)) (n : Nat)
    (got : Text → Option SVal) (w : Option Value),
    All2 (fun (e : Value × Value) d => e.1 = .str d.1 ∧ ∃ t, fields.find? (fun x => x.1 = d.1) = some (d.1, t) ∧ rec t e.2 = .ok d.2) es ds →
    (ds.map Prod.fst).Nodup → (∀ d ∈ ds, got d.1 = none) → es.length < n →
    ∃ got', (∀ d ∈ ds, got' d.1 = some d.2) ∧ (∀ k, k ∉ ds.map Prod.fst → got' k = got k) ∧
      ∀ a, fin got' = .done a → TakesM (structProg rec deny fields fin n got) w es (.ok a) es.length
  | [], [], n, got, w, _, _, _, hn => by
    obtain ⟨n, rfl⟩ : ∃ m, n = m + 1 := ⟨n - 1, by simp at hn; omega⟩
    refine ⟨got, by simp, by simp, fun a ha => ?_⟩
    simp only [structProg, List.length_nil]
    refine .stop ?_
    simp only [ha]
    exact .done
  | e :: es, d :: ds, n, got, w, h, hd, hg, hn => by
    obtain ⟨n, rfl⟩ : ∃ m, n = m + 1 := ⟨n - 1, by simp at hn; omega⟩
    obtain ⟨⟨h1, t, h2, h3⟩, h4⟩ := h
    obtain ⟨e1, e2⟩ := e
    obtain ⟨d1, d2⟩ := d
    simp only at h1 h2 h3
    subst h1
    simp only [List.map_cons, List.nodup_cons] at hd
    obtain ⟨hg1, hg2⟩ := List.forall_mem_cons.mp hg
    obtain ⟨got', a1, a2, a3⟩ := structProg_takes (rec := rec) (deny := deny) (fin := fin) es ds n
      (fun k => if k = d1 then some d2 else got k) none h4 hd.2
      (fun d hm => by
        have : d.1 ≠ d1 := by rintro rfl; exact hd.1 (List.mem_map_of_mem hm)
        simp only [if_neg this]; exact hg2 d hm) (by simp at hn; omega)
    refine ⟨got', ?_, ?_, fun a ha => ?_⟩
    · refine List.forall_mem_cons.mpr ⟨?_, a1⟩
      have := a2 d1 hd.1
      simpa using this
    · intro k hk
      simp only [List.map_cons, List.mem_cons, not_or] at hk
      rw [a2 k hk.2]
      simp [hk.1]
    · simp only [structProg, List.length_cons]
      have hc : (fields.map Prod.fst).contains d1 = true := by
        have := List.mem_of_find?_eq_some h2
        rw [List.contains_iff_mem]
        exact List.mem_map_of_mem (f := Prod.fst) this
      refine .key (b := some d1) ?_ ?_
      · simp only [fieldOfKey, fieldOfKey.named, hc, ↓reduceIte]
      · have hn1 : (got d1).isSome = false := by rw [hg1]; rfl
        simp only [hn1, Bool.false_eq_true, ↓reduceIte, h2]
        exact .value h3 (a3 a ha)
  | [], _ :: _, _, _, _, h, _, _, _ => h.elim
  | _ :: _, [], _, _, _, h, _, _, _ => h.elim

theorem selfDescAll_all2 {x : Exts} {sfx : Bool} : ∀ {vs : List SVal} {Vs : List Value}, SelfDescAll x sfx vs Vs → All2 (fun V v => SelfDesc x sfx v V) Vs vs
  | [], [], _ => trivial
  | _ :: _, _ :: _, h => by simp only [SelfDescAll] at h; exact ⟨h.1, selfDescAll_all2 h.2⟩
  | [], _ :: _, h => by simp [SelfDescAll] at h
  | _ :: _, [], h => by simp [SelfDescAll] at h
theorem selfDescEntries_all2 {x : Exts} {sfx : Bool} : ∀ {vs : List (SVal × SVal)} {Vs : List (Value × Value)}, SelfDescEntries x sfx vs Vs →
    All2 (fun (V : Value × Value) (v : SVal × SVal) => SelfDesc x sfx v.1 V.1 ∧ SelfDesc x sfx v.2 V.2) Vs vs
  | [], [], _ => trivial
  | (_, _) :: _, (_, _) :: _, h => by simp only [SelfDescEntries] at h; exact ⟨h.1, selfDescEntries_all2 h.2⟩
  | [], _ :: _, h => by simp [SelfDescEntries] at h
  | _ :: _, [], h => by simp [SelfDescEntries] at h
theorem selfDescFields_all2 {x : Exts} {sfx : Bool} : ∀ {vs : List (Text × SVal)} {Vs : List (Value × Value)}, SelfDescFields x sfx vs Vs →
    All2 (fun (V : Value × Value) (v : Text × SVal) => V.1 = .str v.1 ∧ SelfDesc x sfx v.2 V.2) Vs vs
  | [], [], _ => trivial
  | (_, _) :: _, (_, _) :: _, h => by simp only [SelfDescFields] at h; exact ⟨h.1, selfDescFields_all2 h.2⟩
  | [], _ :: _, h => by simp [SelfDescFields] at h
  | _ :: _, [], h => by simp [SelfDescFields] at h
theorem throughAll_mem {x : Exts} {sfx : Bool} : ∀ {vs : List SVal}, ThroughAll x sfx vs → ∀ v ∈ vs, v.Through x sfx
  | [], _, _, h => by simp at h
  | v :: vs, h, u, hu => by
    simp only [ThroughAll] at h
    rcases List.mem_cons.mp hu with rfl | hu
    · exact h.1
    · exact throughAll_mem h.2 u hu
theorem throughEntries_mem {x : Exts} {sfx : Bool} : ∀ {vs : List (SVal × SVal)}, ThroughEntries x sfx vs → ∀ v ∈ vs, v.1.Through x sfx ∧ v.2.Through x sfx
  | [], _, _, h => by simp at h
  | (k, v) :: vs, h, u, hu => by
    simp only [ThroughEntries] at h
    rcases List.mem_cons.mp hu with rfl | hu
    · exact h.1
    · exact throughEntries_mem h.2 u hu
theorem throughFields_mem {x : Exts} {sfx : Bool} : ∀ {vs : List (Text × SVal)}, ThroughFields x sfx vs → ∀ v ∈ vs, v.2.Through x sfx
  | [], _, _, h => by simp at h
  | (k, v) :: vs, h, u, hu => by
    simp only [ThroughFields] at h
    rcases List.mem_cons.mp hu with rfl | hu
    · exact h.1
    · exact throughFields_mem h.2 u hu

theorem zip_seeds {D : Nat → Ty} {n f : Nat} {x : Exts} {sfx : Bool}
    (ih : ∀ T v V, HasTy D n T v → v.Through x sfx → SelfDesc x sfx v V → Value.into D f T V = .ok v) :
    ∀ (ts : List Ty) (vs : List SVal) (Vs : List Value), All2 (HasTy D n) ts vs → (∀ v ∈ vs, v.Through x sfx) →
    All2 (fun V v => SelfDesc x sfx v V) Vs vs →
    All2 (fun (s : (Value → Except Err SVal) × Value) u => s.1 s.2 = .ok u) ((ts.map (Value.into D f)).zip Vs) vs
  | [], [], [], _, _, _ => trivial
  | t :: ts, v :: vs, V :: Vs, h1, h2, h3 =>
    ⟨ih t v V h1.1 (h2 v (by simp)) h3.1, zip_seeds ih ts vs Vs h1.2 (fun u hu => h2 u (by simp [hu])) h3.2⟩
  | [], _ :: _, _, h, _, _ => h.elim
  | _ :: _, [], _, h, _, _ => h.elim
  | _, [], _ :: _, _, _, h => h.elim
  | _, _ :: _, [], _, _, h => h.elim

omit [Env] in
theorem find_field {α : Type} : ∀ {fields : List (Text × α)} {e : Text × α}, (fields.map Prod.fst).Nodup → e ∈ fields →
    fields.find? (fun x => x.1 = e.1) = some e
  | [], _, _, h => by simp at h
  | g :: fields, e, hn, h => by
    simp only [List.map_cons, List.nodup_cons] at hn
    rcases List.mem_cons.mp h with rfl | h
    · simp
    · have : g.1 ≠ e.1 := by intro he; exact hn.1 (he ▸ List.mem_map_of_mem h)
      rw [List.find?_cons_of_neg (by simpa using this)]
      exact find_field hn.2 h

/-- The untyped reading of data, converted to the type of the data, is the data. -/
theorem through_value (D : Nat → Ty) {x : Exts} {sfx : Bool} (hi : x.implicitSome = false) (hu : x.unwrapNewtypes = false) :
    ∀ (n f : Nat) (T : Ty) (v : SVal) (V : Value), n ≤ f → HasTy D n T v → v.Through x sfx → SelfDesc x sfx v V →
    Value.into D f T V = .ok v := by
  intro n
  induction n with
  | zero => intro f T v V _ h; simp [HasTy] at h
  | succ n ih0 =>
    intro f T v V hf hT hv hV
    obtain ⟨f, rfl⟩ : ∃ m, f = m + 1 := ⟨f - 1, by omega⟩
    have ih : ∀ T v V, HasTy D n T v → v.Through x sfx → SelfDesc x sfx v V → Value.into D f T V = .ok v :=
      fun T v V => ih0 f T v V (by omega)
    cases T with
    | bool => obtain ⟨b, rfl⟩ := hT; simp only [SelfDesc] at hV; subst hV; rfl
    | int t =>
      obtain ⟨i, rfl, h1, h2⟩ := hT
      simp only [SelfDesc] at hV; subst hV
      have hna : ¬ ((t = .i128 ∨ t = .u128) ∧ Env.int128 = false) := by rintro ⟨a, b⟩; rw [h1 a] at b; cases b
      simp only [Value.into, if_neg hna, Value.visit]
      exact into_int sfx h2
    | f32 =>
      obtain ⟨b, rfl, h1⟩ := hT
      simp only [SelfDesc] at hV; subst hV
      exact into_f32 sfx h1 (by simpa [SVal.Through] using hv)
    | f64 =>
      obtain ⟨b, rfl, h1⟩ := hT
      simp only [SelfDesc] at hV; subst hV
      exact into_f64 sfx h1
    | char => obtain ⟨b, rfl⟩ := hT; simp only [SelfDesc] at hV; subst hV; rfl
    | str => obtain ⟨b, rfl⟩ := hT; simp only [SelfDesc] at hV; subst hV; rfl
    | bytes => obtain ⟨b, rfl⟩ := hT; simp only [SelfDesc] at hV; subst hV; rfl
    | unit => cases hT; simp only [SelfDesc] at hV; subst hV; rfl
    | unitStruct name => cases hT; simp only [SelfDesc] at hV; subst hV; rfl
    | newtype name t =>
      obtain ⟨u, rfl, h1⟩ := hT
      simp only [SelfDesc, hu, Bool.false_eq_true, ↓reduceIte] at hV
      obtain ⟨V', h2, rfl⟩ := hV
      have h3 := ih t u V' h1 (by simpa [SVal.Through] using hv) h2
      simp only [Value.into]
      refine visit_seq_ok _ ?_
      exact tupleProg_takes (fin := fun vs => SVal.newtypeStruct name (vs.headD .unit)) [Value.into D f t] [V'] [u] [] ⟨h3, trivial⟩ rfl
    | option t =>
      rcases hT with rfl | ⟨u, rfl, h1⟩
      · simp only [SelfDesc] at hV; subst hV; rfl
      · simp only [SelfDesc, hi, Bool.false_eq_true, false_and, or_false] at hV
        obtain ⟨V', h2, rfl⟩ := hV
        have h3 := ih t u V' h1 (by simpa [SVal.Through] using hv) h2
        show (Value.into D f t V').map SVal.some = _
        rw [h3]; rfl
    | seq t =>
      obtain ⟨vs, rfl, h1⟩ := hT
      simp only [SelfDesc] at hV
      obtain ⟨Vs, h2, rfl⟩ := hV
      have hv' := throughAll_mem (by simpa only [SVal.Through] using hv)
      have h3 : All2 (fun V v => Value.into D f t V = .ok v) Vs vs :=
        (selfDescAll_all2 h2).mono fun V _ v hm h => ih t v V (h1 v hm) (hv' v hm) h
      simp only [Value.into]
      refine visit_seq_ok _ ?_
      have := collectSeq_takes (fin := fun vs => SVal.seq (Option.some vs.length) vs) Vs vs [] (Vs.length + 1) h3 (by omega)
      simpa only [List.reverse_nil, List.nil_append] using this
    | tuple ts =>
      obtain ⟨vs, rfl, h1⟩ := hT
      simp only [SVal.Through] at hv
      simp only [SelfDesc, hv.1, false_and, or_false] at hV
      obtain ⟨Vs, h2, rfl⟩ := hV
      have h3 := selfDescAll_all2 h2
      simp only [Value.into]
      refine visit_seq_ok _ ?_
      have := tupleProg_takes (fin := SVal.tuple) (ts.map (Value.into D f)) Vs vs [] (zip_seeds ih ts vs Vs h1 (throughAll_mem hv.2) h3)
        (by rw [List.length_map, h1.length, ← h3.length])
      simpa only [List.reverse_nil, List.nil_append] using this
    | tupleStruct name ts =>
      obtain ⟨vs, rfl, h1⟩ := hT
      simp only [SVal.Through] at hv
      simp only [SelfDesc, hv.1, false_and, or_false] at hV
      obtain ⟨Vs, h2, rfl⟩ := hV
      have h3 := selfDescAll_all2 h2
      simp only [Value.into]
      refine visit_seq_ok _ ?_
      have := tupleProg_takes (fin := SVal.tupleStruct name) (ts.map (Value.into D f)) Vs vs [] (zip_seeds ih ts vs Vs h1 (throughAll_mem hv.2) h3)
        (by rw [List.length_map, h1.length, ← h3.length])
      simpa only [List.reverse_nil, List.nil_append] using this
    | map k w =>
      obtain ⟨kvs, rfl, h1⟩ := hT
      simp only [SVal.Through] at hv
      simp only [SelfDesc] at hV
      obtain ⟨es, h2, rfl⟩ := hV
      rw [mapOfList_inv (hv.1 es h2)]
      have hv' := throughEntries_mem hv.2
      have h3 : All2 (fun (e : Value × Value) (b : SVal × SVal) => Value.into D f k e.1 = .ok b.1 ∧ Value.into D f w e.2 = .ok b.2) es kvs :=
        (selfDescEntries_all2 h2).mono fun V _ v hm h =>
          ⟨ih k v.1 V.1 (h1 v hm).1 (hv' v hm).1 h.1, ih w v.2 V.2 (h1 v hm).2 (hv' v hm).2 h.2⟩
      simp only [Value.into]
      refine visit_map_ok _ ?_
      have := collectMap_takes (ins := fun es a b => es ++ [(a, b)]) (fin := fun es => SVal.map (Option.some es.length) es) es kvs []
        (es.length + 1) Option.none h3 (by omega)
      have hfold : ∀ (l acc : List (SVal × SVal)), l.foldl (fun a b => a ++ [(b.1, b.2)]) acc = acc ++ l := by
        intro l
        induction l with
        | nil => simp
        | cons a l ihl => intro acc; rw [List.foldl_cons, ihl]; simp
      rw [hfold] at this
      simpa only [List.nil_append] using this
    | struct name deny fields =>
      obtain ⟨fs, rfl, hn, h1⟩ := hT
      simp only [SVal.Through] at hv
      simp only [SelfDesc, hv.1, false_and, or_false, ne_eq, not_false_eq_true, true_and] at hV
      obtain ⟨es, h2, rfl⟩ := hV
      have hv' := throughFields_mem hv.2
      have h3 := selfDescFields_all2 h2
      have hnames : fields.map Prod.fst = fs.map Prod.fst := by
        have key : ∀ {fields : List (Text × Ty)} {fs : List (Text × SVal)}, All2 (fun F f => F.1 = f.1 ∧ HasTy D n F.2 f.2) fields fs →
            fields.map Prod.fst = fs.map Prod.fst := by
          intro fields
          induction fields with
          | nil => intro fs h; cases fs with
            | nil => rfl
            | cons => exact h.elim
          | cons a l ihl => intro fs h; cases fs with
            | nil => exact h.elim
            | cons b fs => simp only [List.map_cons, h.1.1, ihl h.2]
        exact key h1
      have hkeys : es.map Prod.fst = (fs.map Prod.fst).map Value.str := by
        have key : ∀ {es : List (Value × Value)} {fs : List (Text × SVal)}, All2 (fun (V : Value × Value) (v : Text × SVal) => V.1 = .str v.1 ∧ SelfDesc x sfx v.2 V.2) es fs →
            es.map Prod.fst = (fs.map Prod.fst).map Value.str := by
          intro es
          induction es with
          | nil => intro fs h; cases fs with
            | nil => rfl
            | cons => exact h.elim
          | cons a l ihl => intro fs h; cases fs with
            | nil => exact h.elim
            | cons b fs => simp only [List.map_cons, h.1.1, ihl h.2]
        exact key h3
      have hnd : NodupKeys es := by
        unfold NodupKeys
        rw [hkeys, ← hnames]
        exact hn.map Value.str fun a b h1 h2 => h1 (by injection h2)
      have h4 : All2 (fun (e : Value × Value) (d : Text × SVal) => e.1 = .str d.1 ∧
          ∃ t, fields.find? (fun x => x.1 = d.1) = some (d.1, t) ∧ Value.into D f t e.2 = .ok d.2) es fs := by
        refine h3.mono fun e _ d hd h => ⟨h.1, ?_⟩
        obtain ⟨F, hF, hFd⟩ : ∃ F ∈ fields, F.1 = d.1 ∧ HasTy D n F.2 d.2 := by
          have key : ∀ {fields : List (Text × Ty)} {fs : List (Text × SVal)}, All2 (fun F f => F.1 = f.1 ∧ HasTy D n F.2 f.2) fields fs →
              ∀ d ∈ fs, ∃ F ∈ fields, F.1 = d.1 ∧ HasTy D n F.2 d.2 := by
            intro fields
            induction fields with
            | nil => intro fs h; cases fs with
              | nil => simp
              | cons => exact h.elim
            | cons a l ihl => intro fs h; cases fs with
              | nil => exact h.elim
              | cons b fs =>
                intro d hd
                rcases List.mem_cons.mp hd with rfl | hd
                · exact ⟨a, by simp, h.1⟩
                · obtain ⟨F, hF, hh⟩ := ihl h.2 d hd
                  exact ⟨F, by simp [hF], hh⟩
          exact key h1 d hd
        have := find_field hn hF
        obtain ⟨F1, F2⟩ := F
        obtain ⟨hF1, hF2⟩ := hFd
        simp only at hF1 hF2
        subst hF1
        exact ⟨F2, this, ih F2 d.2 e.2 hF2 (hv' d hd) h.2⟩
      obtain ⟨ds, hp, h5⟩ := h4.perm (mapOfList_perm hnd).symm
      have hds : (ds.map Prod.fst).Nodup := ((hp.map Prod.fst).nodup_iff).mp (hnames ▸ hn)
      obtain ⟨got, g1, -, g3⟩ := structProg_takes (rec := Value.into D f) (deny := deny)
        (fin := fun got => MapProg.ofExcept ((collectFields (fieldOf D f) got fields).map (SVal.struct name)))
        (mapOfList es) ds ((mapOfList es).length + 1) (fun _ => Option.none) Option.none h5 hds (fun _ _ => rfl) (by omega)
      have hc : collectFields (fieldOf D f) got fields = .ok fs := by
        refine collectFields_ok (h1.mono fun F _ d hd h => ⟨h.1, .inl ?_⟩)
        rw [h.1]
        exact g1 d ((hp.mem_iff).mp hd)
      simp only [Value.into]
      refine visit_map_ok _ ?_
      exact g3 (.struct name fs) (by rw [hc]; rfl)
    | enum name variants =>
      obtain ⟨id, k, _, _, h⟩ := hT
      cases k with
      | unit => cases h; simp [SVal.Through] at hv
      | newtype => obtain ⟨u, rfl, _⟩ := h; simp [SVal.Through] at hv
      | tuple => obtain ⟨u, rfl, _⟩ := h; simp [SVal.Through] at hv
      | struct => obtain ⟨u, rfl, _⟩ := h; simp [SVal.Through] at hv
    | value => exact hT.elim
    | raw => exact hT.elim
    | ref i => exact ih (D i) v V hT hv hV

end Ron
