import Verif.Lemmas.Fields
import Verif.Lemmas.LangDoc
import Verif.Props.C22
/-!
# C49: unknown fields are ignored unless they are denied

Directly from text, whatever value of the language stands in the unknown field, and from a map of a `Value`.
-/

set_option linter.unusedSectionVars false

namespace Ron

section
variable [Env]

/-- The items of the text of a struct: the fields `gs` in this order, and between them fields with other names and any value that needs
no more than `k` levels. -/
def RendOthers (x : Exts) (sfx : Bool) (k : Nat) (names : List Text) : List (Text × SVal) → List Text → Prop
  | gs, [] => gs = []
  | gs, e :: es =>
    (∃ g gs', gs = g :: gs' ∧ (∃ kt vt, NameTok g.1 kt ∧ Rend x sfx false g.2 vt ∧ Entry kt vt e) ∧ RendOthers x sfx k names gs' es) ∨
    ((∃ key kt vt n V, key ∉ names ∧ n ≤ k ∧ NameTok key kt ∧ Lang n vt V ∧ Entry kt vt e) ∧ RendOthers x sfx k names gs es)

theorem others_texts {x : Exts} (hx : x.unwrapVariantNewtypes = false) {sfx : Bool} {k n f : Nat} {D : Nat → Ty} {fields : List (Text × Ty)}
    (hn : (fields.map Prod.fst).Nodup) (hf : n ≤ f) :
    ∀ (es : List Text) (gs : List (Text × SVal)), FieldsIn D n fields gs → RendOthers x sfx k (fields.map Prod.fst) gs es →
      (∀ g ∈ gs, g.2.cost ≤ k) →
      ∃ os : List (Option (Text × SVal)), os.filterMap id = gs ∧ All2 (FieldText x k (deTy D f) false fields) es os
  | [], gs, _, h, _ => by cases h; exact ⟨[], rfl, trivial⟩
  | e :: es, gs, h1, h2, h3 => by
    rcases h2 with ⟨⟨key, v⟩, gs', rfl, ⟨kt, vt, g1, g2, g3⟩, h2⟩ | ⟨⟨key, kt, vt, m, V, hk, hm, g1, g2, g3⟩, h2⟩
    · obtain ⟨os, h4, h5⟩ := others_texts hx hn hf es gs' (fun g hg => h1 g (by simp [hg])) h2 (fun g hg => h3 g (by simp [hg]))
      obtain ⟨T, hT, hv⟩ := h1 (key, v) (by simp)
      refine ⟨some (key, v) :: os, by simp [h4], ?_, h5⟩
      exact ⟨_, kt, vt, g1, g3, rfl, T, find_nodup hT hn, ((ty_reads D n f T v hf hv).1 vt g2).mono (h3 (key, v) (by simp))⟩
    · obtain ⟨os, h4, h5⟩ := others_texts hx hn hf es gs h1 h2 h3
      refine ⟨none :: os, by simpa using h4, ⟨key, kt, vt, g1, g3, rfl, hk, ?_⟩, h5⟩
      have := (lang_reads_value hx g2).mono hm
      unfold deIgnored
      exact this.bind_pure fun _ => ()

/-- A struct that does not deny unknown fields is read as if they were not there, whatever values they hold. -/
theorem C49_ignored (o : Options) (hx : o.defaultExtensions.unwrapVariantNewtypes = false) (D : Nat → Ty) (n f k : Nat) (name : Text)
    (fields : List (Text × Ty)) (gs fs : List (Text × SVal)) (hT : HasTy D n (.struct name false fields) (.struct name fs)) (hf : n ≤ f)
    (ha : Amounts fields gs fs) (sfx : Bool) (ts : List Text) (p q : Text) (hp : OptName o.defaultExtensions name p)
    (hts : RendOthers o.defaultExtensions sfx k (fields.map Prod.fst) gs ts) (hq : Delim '(' ')' ts q)
    (hc : ∀ g ∈ fs, g.2.cost ≤ k) (hk : ∀ m, o.recursionLimit = some m → k + 2 ≤ m) (l l' : Text) (hl : Layout l) (hl' : Layout l') :
    fromStr o (deTy D f (.struct name false fields)) (l ++ (p ++ q ++ l')) = .ok (.struct name fs) := by
  cases n with
  | zero => cases hT
  | succ n =>
  obtain ⟨f, rfl⟩ : ∃ g, f = g + 1 := ⟨f - 1, by omega⟩
  obtain ⟨fs', he, hnd, hall⟩ : ∃ fs', SVal.struct name fs = .struct name fs' ∧ (fields.map Prod.fst).Nodup ∧
      All2 (fun F e => F.1 = e.1 ∧ HasTy D n F.2 e.2) fields fs' := by
    simpa [HasTy] using hT
  cases he
  obtain ⟨h1, h2, h3⟩ := ha
  have hin : FieldsIn D n fields gs := by
    intro g hg
    obtain ⟨F, hF, hF1, hF2⟩ := All2.mem_left (all2_swap hall) g (h2 g hg)
    exact ⟨F.2, by rw [← hF1]; exact hF, hF2⟩
  have hopt : ∀ F ∈ fields, ∀ T, F.2 = .option T → fieldOf D f F.2 = true := by
    intro F hF T hFT
    obtain ⟨e, he, -, he2⟩ := All2.mem_left hall F hF
    cases n with
    | zero => cases he2
    | succ n =>
      obtain ⟨f, rfl⟩ : ∃ g, f = g + 1 := ⟨f - 1, by omega⟩
      rw [hFT]; rfl
  obtain ⟨os, ho1, ho2⟩ := others_texts (f := f) hx hnd (by omega) ts gs hin hts (fun g hg => hc g (h2 g hg))
  have hkeys : keysOf os = gs.map Prod.fst := by simp only [keysOf, ho1]
  have hr := struct_reads (isOption := fieldOf D f) (conv := numTo D f) hp hq ho2 (by rw [hkeys]; exact h1) (fs := fs) (by
      refine collectFields_ok ((all2_left h3).imp fun F e hF => ⟨hF.1.1, ?_⟩)
      rcases hF.1.2 with hg | ⟨ha, ⟨T, hT⟩, hnone⟩
      · refine .inl (gotOf_mem _ _ _ _ (by rw [hkeys]; exact h1) ?_)
        rw [hF.1.1]
        rw [← ho1] at hg
        obtain ⟨d, hd, hde⟩ := List.mem_filterMap.mp hg
        simp only [id] at hde
        subst hde
        exact hd
      · refine .inr ⟨?_, hopt F hF.2 T hT, hnone⟩
        rw [gotOf_not _ _ _ (by rw [hkeys]; exact ha)])
  have hr' := hr.mono (k' := k + 2) (by split <;> omega)
  have := doc_reads (seed := deTy D (f + 1) (.struct name false fields)) (by simpa only [deTy] using hr') (o := o) (l := l) (hdr := []) (l' := l')
    (e := {}) hl .nil (by simp [Exts.union, Exts.empty]) hk hl'
  simpa using this

/-- Which maps make which struct: the keys are names or positions of fields (with `deny_unknown_fields` all of them, else the others are
ignored), no two entries are for the same field, and each field of the struct is converted from its entry or is an absent option. -/
theorem C49_value (D : Nat → Ty) (f : Nat) (name : Text) (deny : Bool) (fields : List (Text × Ty)) (hn : (fields.map Prod.fst).Nodup)
    (es : List (Value × Value)) (v : SVal) :
    Value.into D (f + 1) (.struct name deny fields) (.map es) = .ok v ↔
      ∃ fs, v = .struct name fs ∧
        (∀ e ∈ es, IsKey e.1 ∧ (deny = true → ∃ k, Names (fields.map Prod.fst) e.1 k)) ∧
        (es.Pairwise fun e e' => ∀ k, Names (fields.map Prod.fst) e.1 k → ¬ Names (fields.map Prod.fst) e'.1 k) ∧
        All2 (fun F g => F.1 = g.1 ∧ ((∃ e ∈ es, Names (fields.map Prod.fst) e.1 F.1 ∧ Value.into D f F.2 e.2 = .ok g.2) ∨
          ((∀ e ∈ es, ¬ Names (fields.map Prod.fst) e.1 F.1) ∧ fieldOf D f F.2 = true ∧ g.2 = .none))) fields fs := by
  simp only [Value.into]
  have hiff : ∀ (vis : Visitor SVal), (Value.map es).visit vis = .ok v ↔ TakesM (vis.map es.length) none es (.ok v) es.length := by
    intro vis
    refine ⟨fun h => ?_, visit_map_ok vis⟩
    obtain ⟨r, m, h1, h2, h3⟩ := runMap_takes (vis.map es.length) none es
    rw [(visit_map vis h1).2] at h
    cases r with
    | error e => cases h
    | ok b =>
      simp only [Except.bind] at h
      split at h
      · rename_i hm
        cases h
        exact hm ▸ h1
      · cases h
  rw [hiff]
  simp only
  rw [structProg_iff es _ _ _ (by omega)]
  have hfind : ∀ F ∈ fields, fields.find? (fun x => x.1 = F.1) = some F := fun F hF => find_field hn hF
  constructor
  · rintro ⟨ds, h1, h2, -, h4⟩
    cases hcf : collectFields (fieldOf D f) (gotOf ds fun _ => none) fields with
    | error e => rw [hcf] at h4; cases h4
    | ok fs =>
      rw [hcf] at h4
      simp only [Except.map] at h4
      cases h4
      refine ⟨fs, rfl, ?_, (keys_pairwise h1).mp h2, ?_⟩
      · intro e he
        obtain ⟨d, -, hd⟩ := All2.mem_left h1 e he
        cases d with
        | none =>
          obtain ⟨g1, g2, -⟩ := fieldOfKey_none.mp hd
          exact ⟨g2, by rw [g1]; exact fun h => by cases h⟩
        | some d =>
          have := fieldOfKey_some.mp hd.1
          exact ⟨names_isKey this, fun _ => ⟨_, this⟩⟩
      · refine (all2_left (collectFields_iff.mp hcf)).imp fun F g hF => ⟨hF.1.1, ?_⟩
        obtain ⟨s1, s2⟩ := gotOf_spec h1 h2 (hfind F hF.2) g.2
        rcases hF.1.2 with hg | ⟨hg, h5, h6⟩
        · exact .inl (s1.mp hg)
        · exact .inr ⟨s2.mp hg, h5, h6⟩
  · rintro ⟨fs, rfl, h1, h2, h3⟩
    have hvals : ∀ e ∈ es, ∀ F ∈ fields, Names (fields.map Prod.fst) e.1 F.1 → ∃ v, Value.into D f F.2 e.2 = .ok v := by
      intro e he F hF hnm
      obtain ⟨g, -, hg1, hg2⟩ := All2.mem_left h3 F hF
      rcases hg2 with ⟨e', he', hn', hv⟩ | ⟨hno, -⟩
      · refine ⟨g.2, ?_⟩
        have : e = e' := by
          rcases Classical.em (e = e') with h | h
          · exact h
          · exfalso
            rw [List.pairwise_iff_forall_sublist] at h2
            obtain ⟨a, b, rfl⟩ := List.append_of_mem he
            rcases List.mem_append.mp he' with hm | hm
            · have : [e', e].Sublist (a ++ e :: b) := by
                exact (List.singleton_sublist.mpr hm).append (List.singleton_sublist.mpr (by simp))
              exact h2 this _ hn' hnm
            · rcases List.mem_cons.mp hm with hm | hm
              · exact h hm.symm
              · have : [e, e'].Sublist (a ++ e :: b) := by
                  exact ((List.singleton_sublist.mpr hm).cons₂ e).trans (List.sublist_append_right _ _)
                exact h2 this _ hnm hn'
        rw [this]
        exact hv
      · exact absurd hnm (hno e he)
    obtain ⟨ds, hds⟩ := gives_all (rec := Value.into D f) hn h1 hvals
    have hnd := (keys_pairwise hds).mpr h2
    refine ⟨ds, hds, hnd, fun _ _ => rfl, ?_⟩
    have hcf : collectFields (fieldOf D f) (gotOf ds fun _ => none) fields = .ok fs := by
      refine collectFields_iff.mpr ((all2_left h3).imp fun F g hF => ⟨hF.1.1, ?_⟩)
      obtain ⟨s1, s2⟩ := gotOf_spec hds hnd (hfind F hF.2) g.2
      rcases hF.1.2 with hg | ⟨hg, h5, h6⟩
      · exact .inl (s1.mpr hg)
      · exact .inr ⟨s2.mpr hg, h5, h6⟩
    simp [hcf, Except.map]

/-- An entry with an unknown name makes no difference to a struct that ignores unknown fields. -/
theorem C49_value_ignored (D : Nat → Ty) (f : Nat) (name : Text) (fields : List (Text × Ty)) (hn : (fields.map Prod.fst).Nodup)
    (es es' : List (Value × Value)) (k : Text) (hk : k ∉ fields.map Prod.fst) (V : Value) (v : SVal) :
    Value.into D (f + 1) (.struct name false fields) (.map (es ++ (.str k, V) :: es')) = .ok v ↔
      Value.into D (f + 1) (.struct name false fields) (.map (es ++ es')) = .ok v := by
  have hno : ∀ n, ¬ Names (fields.map Prod.fst) (.str k) n := by
    rintro n h
    cases h with
    | str h => exact hk h
  rw [C49_value D f name false fields hn, C49_value D f name false fields hn]
  refine exists_congr fun fs => and_congr_right fun _ => ?_
  have a1 : (∀ e ∈ es ++ (Value.str k, V) :: es', IsKey e.1 ∧ (false = true → ∃ k, Names (fields.map Prod.fst) e.1 k)) ↔
      (∀ e ∈ es ++ es', IsKey e.1 ∧ (false = true → ∃ k, Names (fields.map Prod.fst) e.1 k)) := by
    constructor
    · intro h e he
      refine h e ?_
      rcases List.mem_append.mp he with h | h <;> simp [h]
    · intro h e he
      rcases List.mem_append.mp he with h' | h'
      · exact h e (by simp [h'])
      · rcases List.mem_cons.mp h' with rfl | h'
        · exact ⟨.str, fun h => by cases h⟩
        · exact h e (by simp [h'])
  refine and_congr a1 (and_congr ?_ ?_)
  · simp only [List.pairwise_append, List.pairwise_cons, List.mem_cons, forall_eq_or_imp]
    constructor
    · rintro ⟨h1, ⟨-, h2⟩, h3⟩
      exact ⟨h1, h2, fun a ha b hb => (h3 a ha).2 b hb⟩
    · rintro ⟨h1, h2, h3⟩
      exact ⟨h1, ⟨fun b _ n hn' => absurd hn' (hno n), h2⟩, fun a ha => ⟨fun n _ => hno n, fun b hb => h3 a ha b hb⟩⟩
  · have key : ∀ P : (Value × Value) → Prop, ¬ P (.str k, V) → ((∃ e ∈ es ++ (Value.str k, V) :: es', P e) ↔ ∃ e ∈ es ++ es', P e) := by
      intro P hP
      constructor
      · rintro ⟨e, he, h⟩
        rcases List.mem_append.mp he with h' | h'
        · exact ⟨e, by simp [h'], h⟩
        · rcases List.mem_cons.mp h' with rfl | h'
          · exact absurd h hP
          · exact ⟨e, by simp [h'], h⟩
      · rintro ⟨e, he, h⟩
        refine ⟨e, ?_, h⟩
        rcases List.mem_append.mp he with h | h <;> simp [h]
    have key2 : ∀ n : Text, (∀ e ∈ es ++ (Value.str k, V) :: es', ¬ Names (fields.map Prod.fst) e.1 n) ↔
        ∀ e ∈ es ++ es', ¬ Names (fields.map Prod.fst) e.1 n := by
      intro n
      have := key (fun e => Names (fields.map Prod.fst) e.1 n) (hno n)
      constructor
      · exact fun h e he hn' => by obtain ⟨e', he', h'⟩ := this.mpr ⟨e, he, hn'⟩; exact h e' he' h'
      · exact fun h e he hn' => by obtain ⟨e', he', h'⟩ := this.mp ⟨e, he, hn'⟩; exact h e' he' h'
    constructor
    · exact fun h => h.imp fun F g hF => ⟨hF.1, hF.2.imp (key (fun e => Names (fields.map Prod.fst) e.1 F.1 ∧ Value.into D f F.2 e.2 = .ok g.2) fun h => hno _ h.1).mp
        fun h => ⟨(key2 F.1).mp h.1, h.2⟩⟩
    · exact fun h => h.imp fun F g hF => ⟨hF.1, hF.2.imp (key (fun e => Names (fields.map Prod.fst) e.1 F.1 ∧ Value.into D f F.2 e.2 = .ok g.2) fun h => hno _ h.1).mpr
        fun h => ⟨(key2 F.1).mpr h.1, h.2⟩⟩

end

/-! ### Examples -/

/-- A struct with a number and an option. -/
def fieldsC49 : List (Text × Ty) := [(c!"a", .int .u8), (c!"b", .option .bool)]

example : let _ : Env := asciiEnv true true
    let T := Ty.struct c!"S" false fieldsC49
    let T' := Ty.struct c!"S" true fieldsC49
    let v := SVal.struct c!"S" [(c!"a", .num (.int .u8 1)), (c!"b", .none)]
    fromStr {} (deTy (fun _ => .unit) 3 T) c!"S(x: {\"k\": [1, (y: Some('z'))]}, a: 1, r#z: B64)" = .ok v ∧
    (fromStr {} (deTy (fun _ => .unit) 3 T') c!"S(x: 1, a: 1)").toOption = none ∧
    Value.into (fun _ => .unit) 3 T (.map [(.str c!"x", .unit), (.char 'a', .num (.int .i8 1))]) = .ok v ∧
    Value.into (fun _ => .unit) 3 T (.map [(.num (.int .u8 7), .unit), (.bytes [97], .num (.int .i8 1))]) = .ok v ∧
    Value.into (fun _ => .unit) 3 T (.map [(.num (.int .u8 0), .num (.int .u8 1))]) = .ok v ∧
    (Value.into (fun _ => .unit) 3 T (.map [(.char 'a', .num (.int .u8 1)), (.num (.int .u8 0), .num (.int .u8 1))])).toOption = none ∧
    (Value.into (fun _ => .unit) 3 T' (.map [(.str c!"x", .unit), (.char 'a', .num (.int .i8 1))])).toOption = none := by
  decide +kernel

/-- The hypotheses of `C49_ignored` are met. -/
example : let _ : Env := asciiEnv true true
    HasTy (fun _ => .unit) 3 (.struct c!"S" false [(c!"a", .bool)]) (.struct c!"S" [(c!"a", .bool true)]) ∧
    Amounts [(c!"a", .bool)] [(c!"a", .bool true)] [(c!"a", .bool true)] ∧
    RendOthers {} false 1 [c!"a"] [(c!"a", .bool true)] [c!"x: None", c!"a:true"] ∧
    Delim '(' ')' [c!"x: None", c!"a:true"] c!"(x: None,a:true)" := by
  intro _
  have ha : NameTok c!"a" c!"a" := ⟨⟨by simp, by decide⟩, .inr ⟨rfl, ⟨'a', [], rfl, by decide, by simp⟩, by decide⟩⟩
  have hx : NameTok c!"x" c!"x" := ⟨⟨by simp, by decide⟩, .inr ⟨rfl, ⟨'x', [], rfl, by decide, by simp⟩, by decide⟩⟩
  refine ⟨⟨_, rfl, by decide, ⟨rfl, ⟨_, rfl⟩⟩, trivial⟩, ⟨by decide, by simp, ⟨rfl, .inl (by simp)⟩, trivial⟩, ?_, ?_⟩
  · refine .inr ⟨⟨c!"x", c!"x", c!"None", 0, .none, by decide, by omega, hx, ?_, .mk .nil (.ws (by decide) .nil)⟩, .inl ⟨_, _, rfl, ⟨c!"a", c!"true", ha, rfl, .mk .nil .nil⟩, rfl⟩⟩
    exact Tok.none
  · exact .items (a := []) (t := []) .nil (.cons (b := []) (a := []) .nil .nil .one) (.plain .nil)

end Ron
