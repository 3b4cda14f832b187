import Verif.Lemmas.Gives
import Verif.Lemmas.MapOps
import Verif.Spec.Typed
import Verif.Props.C06
/-!
What is read belongs to the type it was read as, and is not nested deeper than the recursion limit allows.
-/

set_option linter.unusedSimpArgs false
set_option linter.unusedSectionVars false

namespace Ron

/-! ### Numbers -/

section
variable [Env]

theorem tryFrom_wf {tg : IntTarget} {t0 t : IntTy} {v0 v : Int} {r : Text} {s s' : St} (h : tg.tryFrom t0 v0 r s = .ok (t, v) s') :
    t = t0 ∧ v = v0 ∧ (∀ t', tg = .one t' → t = t') := by
  cases tg with
  | any => cases h; exact ⟨rfl, rfl, by rintro t' ⟨⟩⟩
  | one t' =>
    unfold IntTarget.tryFrom at h
    by_cases e : t0 = t'
    · subst e
      simp only [↓reduceIte] at h
      cases h
      exact ⟨rfl, rfl, by rintro t' ⟨⟩; rfl⟩
    · simp only [e, ↓reduceIte] at h
      cases h

theorem byteLiteral_wf {tg : IntTarget} {t : IntTy} {v : Int} {b : Text} {s s' : St} (h : byteLiteral tg b s = .ok (t, v) s') :
    t = .u8 ∧ IntTy.InRange .u8 v ∧ (∀ t', tg = .one t' → t = t') := by
  unfold byteLiteral at h
  obtain ⟨c, s1, -, h⟩ := bind_ok h
  obtain ⟨n, s2, hn, h⟩ := bind_ok h
  obtain ⟨x, s3, -, h⟩ := bind_ok h
  have hlt : n < 256 := by
    by_cases hc : (c == '\\') = true
    · rw [if_pos hc] at hn
      obtain ⟨e, s4, -, hn⟩ := bind_ok hn
      cases e with
      | ascii b => cases hn; exact b.toNat_lt
      | utf8 c => cases hn
    · rw [if_neg hc] at hn
      by_cases hc' : c.toNat < 128
      · rw [if_pos hc'] at hn; cases hn; omega
      · rw [if_neg hc'] at hn; cases hn
  cases x with
  | false => cases h
  | true =>
    simp only [↓reduceIte] at h
    obtain ⟨s5, s6, -, h⟩ := bind_ok h
    obtain ⟨rfl, rfl, h3⟩ := tryFrom_wf h
    exact ⟨rfl, ⟨by show (0:Int) ≤ _; omega, by show _ ≤ (255:Int); omega⟩, h3⟩

/-- What is read as an integer is in range. -/
theorem integer_wf {tg : IntTarget} {t : IntTy} {v : Int} {s s' : St} (h : integer tg s = .ok (t, v) s') :
    t.InRange v ∧ (∀ t', tg = .one t' → t = t') ∧ (tg = .any → t.Avail) := by
  by_cases hb : startsWith s.rest c!"b'" = false
  · obtain ⟨l, -, -, -, h1, h2, h3, -⟩ := integer_sound hb h
    generalize decide (l.sign = .minus) = neg at h1 h2
    cases hs : l.suffix with
    | none =>
      have h2 := (h2 hs).1
      rw [hs] at h1
      cases tg with
      | one t' =>
        cases h2
        exact ⟨h1, by rintro t' ⟨⟩; rfl, by rintro ⟨⟩⟩
      | any =>
        simp only [intResult, Prod.mk.injEq] at h2
        obtain ⟨rfl, -⟩ := h2
        simp only [litType, Option.getD_none, intTypeOf] at h1
        cases neg with
        | true => obtain ⟨a, b, c, -⟩ := smallestS_spec v h1; exact ⟨c, by rintro t' ⟨⟩, fun _ => a⟩
        | false => obtain ⟨a, b, c, -⟩ := smallestU_spec v h1; exact ⟨c, by rintro t' ⟨⟩, fun _ => a⟩
    | some t' =>
      obtain ⟨rfl, ha, ht, -⟩ := h3 t' hs
      rw [hs] at h1
      refine ⟨h1, ?_, fun _ => ha⟩
      rintro t'' rfl
      rcases ht with h | h
      · cases h
      · cases h; rfl
  · have hb : startsWith s.rest c!"b'" = true := by simpa using hb
    unfold integer at h
    have hr : ∃ r, s.rest = 'b' :: '\'' :: r := by
      match hr : s.rest with
      | [] => rw [hr] at hb; cases hb
      | [_] => rw [hr] at hb; revert hb; simp [startsWith]
      | c :: d :: r =>
        rw [hr] at hb
        simp [startsWith] at hb
        exact ⟨r, by rw [← hb.1, ← hb.2]⟩
    obtain ⟨r, hr⟩ := hr
    obtain ⟨s0, s1, h1, h⟩ := bind_ok h
    cases h1
    obtain ⟨c, s1, h1, h⟩ := bind_ok h
    have hc : c = 'b' := by
      unfold peekCharOrEof at h1
      simp only [bind_apply, peekChar_apply, hr] at h1
      cases h1; rfl
    subst hc
    simp only [show ('b' == '+') = false from rfl, show ('b' == '-') = false from rfl, Bool.false_eq_true, ↓reduceIte,
      show ('b' == 'b') = true from rfl] at h
    obtain ⟨x, s2, h2, h⟩ := bind_ok h
    cases x with
    | true =>
      simp only [↓reduceIte] at h
      obtain ⟨rfl, h5, h6⟩ := byteLiteral_wf h
      exact ⟨h5, h6, fun _ => by intro h; cases h <;> contradiction⟩
    | false =>
      exfalso
      have hs1 : s1 = s := by
        unfold peekCharOrEof at h1
        simp only [bind_apply, peekChar_apply, hr] at h1
        cases h1; rfl
      subst hs1
      obtain ⟨_, _⟩ : ∃ p, consumeStr c!"b'" s1 = .ok true p := by
        rw [consumeStr_apply]
        simp [hr, startsWith]
      simp_all

theorem deInt_wf {t0 t : IntTy} {v : Int} {s s' : St} (h : deInt t0 s = .ok (t, v) s') : t = t0 ∧ t0.Avail ∧ t0.InRange v := by
  unfold deInt at h
  rcases ite_inv h with ⟨-, h⟩ | ⟨hn, h⟩
  · cases h
  · obtain ⟨h1, h2, -⟩ := integer_wf h
    have := h2 t0 rfl
    subst this
    refine ⟨rfl, fun hc => ?_, h1⟩
    cases hi : Env.int128
    · exact absurd ⟨hc, hi⟩ hn
    · rfl

/-- The kind of number a float target accepts. -/
def FloatTarget.Is : FloatTarget → Number → Prop
  | .f32, n => ∃ b, n = .f32 b
  | .f64, n => ∃ b, n = .f64 b
  | .any, n => (∃ b, n = .f32 b) ∨ ∃ b, n = .f64 b

theorem floatParse_is {tg : FloatTarget} {t : Text} {s s' : St} {n : Number} (h : tg.parse t s = .ok n s') : tg.Is n := by
  unfold FloatTarget.parse at h
  cases tg with
  | f32 =>
    dsimp only at h
    cases hp : Env.parse32 t with
    | some b => rw [hp] at h; cases h; exact ⟨_, rfl⟩
    | none => rw [hp] at h; cases h
  | f64 =>
    dsimp only at h
    cases hp : Env.parse64 t with
    | some b => rw [hp] at h; cases h; exact ⟨_, rfl⟩
    | none => rw [hp] at h; cases h
  | any =>
    dsimp only at h
    cases hp : Env.parse64 t with
    | some b =>
      rw [hp] at h
      rcases ite_inv h with ⟨-, h⟩ | ⟨-, h⟩
      · cases h; exact .inl ⟨_, rfl⟩
      · cases h; exact .inr ⟨_, rfl⟩
    | none => rw [hp] at h; cases h

theorem floatTryFrom_is {tg : FloatTarget} {t : Text} {s s' : St} {n m : Number} (hm : FloatTarget.any.Is m) (h : tg.tryFrom m t s = .ok n s') :
    tg.Is n := by
  rcases hm with ⟨b, rfl⟩ | ⟨b, rfl⟩ <;> cases tg <;> first | (cases h; done) | (cases h; exact ⟨_, rfl⟩) | (cases h; exact .inl ⟨_, rfl⟩) | (cases h; exact .inr ⟨_, rfl⟩)

theorem floatSpecial_is {tg : FloatTarget} (ls : List (Text × F32 × F64)) : ∀ {s s' : St} {n : Number}, floatSpecial tg ls s = .ok (some n) s' → tg.Is n := by
  induction ls with
  | nil => intro s s' n h; cases h
  | cons x ls ih =>
    intro s s' n h
    obtain ⟨lit, v32, v64⟩ := x
    unfold floatSpecial at h
    obtain ⟨b, s1, -, h⟩ := bind_ok h
    rcases ite_inv h with ⟨-, h⟩ | ⟨-, h⟩
    · obtain ⟨v, s2, hv, h⟩ := bind_ok h
      cases h
      exact floatParse_is hv
    · obtain ⟨s2, s3, -, h⟩ := bind_ok h
      rcases ite_inv h with ⟨-, h⟩ | ⟨-, h⟩
      · obtain ⟨-, s4, -, h⟩ := bind_ok h
        obtain ⟨v, s5, hv, h⟩ := bind_ok h
        cases h
        exact floatTryFrom_is (.inl ⟨_, rfl⟩) hv
      · rcases ite_inv h with ⟨-, h⟩ | ⟨-, h⟩
        · obtain ⟨-, s4, -, h⟩ := bind_ok h
          obtain ⟨v, s5, hv, h⟩ := bind_ok h
          cases h
          exact floatTryFrom_is (.inr ⟨_, rfl⟩) hv
        · exact ih h

theorem float_is {tg : FloatTarget} {s s' : St} {n : Number} (h : float tg s = .ok n s') : tg.Is n := by
  unfold float at h
  obtain ⟨o, s1, h1, h⟩ := bind_ok h
  cases o with
  | some v => cases h; exact floatSpecial_is _ h1
  | none =>
    dsimp only at h
    obtain ⟨s2, s3, -, h⟩ := bind_ok h
    have plain : ∀ {k : Nat} {f : Text} {s s' : St} {n : Number}, (do let v ← tg.parse f; advance k; pure v : P Number) s = .ok n s' → tg.Is n := by
      intro k f s s' n h
      obtain ⟨v, s4, hv, h⟩ := bind_ok h
      obtain ⟨-, s5, -, h⟩ := bind_ok h
      cases h
      exact floatParse_is hv
    rcases ite_inv h with ⟨-, h⟩ | ⟨-, h⟩
    · cases h
    rcases ite_inv h with ⟨-, h⟩ | ⟨-, h⟩
    · cases h
    generalize floatStrip _ 0 false = fs at h
    cases fs with
    | error i =>
      obtain ⟨-, s4, -, h⟩ := bind_ok h
      cases h
    | ok f =>
      dsimp only at h
      rcases ite_inv h with ⟨-, h⟩ | ⟨-, h⟩
      · obtain ⟨c, s4, -, h⟩ := bind_ok h
        obtain ⟨-, s5, -, h⟩ := bind_ok h
        obtain ⟨w, s6, -, h⟩ := bind_ok h
        cases w with
        | none =>
          obtain ⟨-, s7, -, h⟩ := bind_ok h
          exact plain h
        | some is32 =>
          dsimp only at h
          generalize hp : (if is32 = true then (Env.parse32 f).map Number.f32 else (Env.parse64 f).map Number.f64) = pr at h
          cases pr with
          | none =>
            obtain ⟨-, s7, -, h⟩ := bind_ok h
            cases h
          | some v =>
            obtain ⟨s8, s7, -, h⟩ := bind_ok h
            refine floatTryFrom_is ?_ h
            cases is32 with
            | true =>
              simp only [↓reduceIte, Option.map_eq_some_iff] at hp
              obtain ⟨b, -, rfl⟩ := hp
              exact .inl ⟨_, rfl⟩
            | false =>
              simp only [Bool.false_eq_true, ↓reduceIte, Option.map_eq_some_iff] at hp
              obtain ⟨b, -, rfl⟩ := hp
              exact .inr ⟨_, rfl⟩
      · exact plain h

theorem attempt_ok {α : Type} {f : P α} {s s' : St} {a : α} (h : attempt f s = .ok (.ok a) s') : f s = .ok a s' := by
  rw [attempt_apply] at h
  cases hf : f s with
  | ok b t => rw [hf] at h; cases h; rfl
  | err e t => rw [hf] at h; cases h

/-- What is read as a number of any kind is well-formed. -/
theorem anyNumber_wf {s s' : St} {n : Number} (h : anyNumber s = .ok n s') : n.WF := by
  have hf : ∀ {n}, FloatTarget.any.Is n → n.WF := by
    rintro n (⟨b, rfl⟩ | ⟨b, rfl⟩) <;> trivial
  unfold anyNumber at h
  iterate 6
    obtain ⟨b, s1, -, h⟩ := bind_ok h
    rcases ite_inv h with ⟨-, h⟩ | ⟨-, h⟩
    · cases h; trivial
  obtain ⟨s2, s3, -, h⟩ := bind_ok h
  rcases ite_inv h with ⟨-, h⟩ | ⟨-, h⟩
  · exact hf (float_is h)
  · obtain ⟨c, s4, -, h⟩ := bind_ok h
    obtain ⟨r, s5, hr, h⟩ := bind_ok h
    cases r with
    | ok x =>
      obtain ⟨t, v⟩ := x
      cases h
      obtain ⟨h1, -, h3⟩ := integer_wf (attempt_ok hr)
      exact ⟨h3 rfl, h1⟩
    | error e =>
      dsimp only at h
      obtain ⟨c2, s6, -, h⟩ := bind_ok h
      obtain ⟨-, s7, -, h⟩ := bind_ok h
      obtain ⟨r2, s8, hr2, h⟩ := bind_ok h
      cases r2 with
      | ok v =>
        dsimp only at h
        obtain ⟨s9, s10, -, h⟩ := bind_ok h
        rcases ite_inv h with ⟨-, h⟩ | ⟨-, h⟩
        · cases h
          exact hf (float_is (attempt_ok hr2))
        · obtain ⟨-, s11, -, h⟩ := bind_ok h
          cases h
      | error e =>
        obtain ⟨-, s11, -, h⟩ := bind_ok h
        cases h
end

/-! ### Nesting -/

/-- Data nested at most one level deeper than the budget (ranges in compact syntax take none). -/
def Bd (l : Option Nat) (v : SVal) : Prop := ∀ n, l = some n → v.nesting ≤ n + 1
/-- The same for items. -/
def Bi (l : Option Nat) (v : SVal) : Prop := ∀ n, l = some n → v.nesting ≤ n

theorem Bd.item {l : Option Nat} {v : SVal} (hl : l ≠ some 0) (h : Bd (l.map (· - 1)) v) : Bi l v := by
  rintro n rfl
  have := h (n - 1) rfl
  have : n ≠ 0 := fun e => hl (by rw [e])
  omega
theorem Bd.up {l : Option Nat} {v : SVal} (h : Bd (l.map (· - 1)) v) : Bd l v := by
  rintro n rfl
  have := h (n - 1) rfl
  omega
theorem Bi.wrap {l : Option Nat} {v w : SVal} (h : Bi l v) (hw : w.nesting = v.nesting + 1) : Bd l w := by
  rintro n rfl
  have := h n rfl
  omega
theorem Bd.zero {l : Option Nat} {v : SVal} (h : v.nesting ≤ 1) : Bd l v := fun n _ => by omega

theorem nestingAll_bound {n : Nat} {vs : List SVal} (h : ∀ v ∈ vs, v.nesting ≤ n) : nestingAll vs ≤ n + 1 := by
  induction vs with
  | nil => simp [nestingAll]
  | cons v vs ih =>
    have h1 := h v (by simp)
    have h2 := ih fun v hv => h v (by simp [hv])
    simp only [nestingAll]
    omega
theorem nestingEntries_bound {n : Nat} {kvs : List (SVal × SVal)} (h : ∀ e ∈ kvs, e.1.nesting ≤ n ∧ e.2.nesting ≤ n) : nestingEntries kvs ≤ n + 1 := by
  induction kvs with
  | nil => simp [nestingEntries]
  | cons v vs ih =>
    have h1 := h v (by simp)
    have h2 := ih fun v hv => h v (by simp [hv])
    obtain ⟨a, b⟩ := v
    simp only [nestingEntries] at h1 ⊢
    omega
theorem nestingFields_bound {n : Nat} {fs : List (Text × SVal)} (h : ∀ e ∈ fs, e.2.nesting ≤ n) : nestingFields fs ≤ n + 1 := by
  induction fs with
  | nil => simp [nestingFields]
  | cons v vs ih =>
    have h1 := h v (by simp)
    have h2 := ih fun v hv => h v (by simp [hv])
    obtain ⟨a, b⟩ := v
    simp only [nestingFields] at h1 ⊢
    omega

/-! ### Self-describing data -/

section
variable [Env]

theorem btInsert_all {A B : Value → Prop} (m : List (Value × Value)) (k v : Value) (hm : ∀ e ∈ m, A e.1 ∧ B e.2) (hk : A k) (hv : B v) :
    ∀ e ∈ (btInsert m k v).2, A e.1 ∧ B e.2 := by
  induction m with
  | nil => intro e he; simp [btInsert] at he; subst he; exact ⟨hk, hv⟩
  | cons x m ih =>
    obtain ⟨k', v'⟩ := x
    obtain ⟨h1, h2⟩ := List.forall_mem_cons.mp hm
    unfold btInsert
    split
    · exact List.forall_mem_cons.mpr ⟨⟨hk, hv⟩, hm⟩
    · exact List.forall_mem_cons.mpr ⟨⟨h1.1, hv⟩, h2⟩
    · exact List.forall_mem_cons.mpr ⟨h1, ih h2⟩
theorem ixInsert_all {A B : Value → Prop} (m : List (Value × Value)) (k v : Value) (hm : ∀ e ∈ m, A e.1 ∧ B e.2) (hk : A k) (hv : B v) :
    ∀ e ∈ (ixInsert m k v).2, A e.1 ∧ B e.2 := by
  induction m with
  | nil => intro e he; simp [ixInsert] at he; subst he; exact ⟨hk, hv⟩
  | cons x m ih =>
    obtain ⟨k', v'⟩ := x
    obtain ⟨h1, h2⟩ := List.forall_mem_cons.mp hm
    unfold ixInsert
    split
    · exact List.forall_mem_cons.mpr ⟨⟨h1.1, hv⟩, h2⟩
    · exact List.forall_mem_cons.mpr ⟨h1, ih h2⟩

theorem mapInsert_ok {A B : Value → Prop} (m : List (Value × Value)) (k v : Value) (hi : MapInv m) (hm : ∀ e ∈ m, A e.1 ∧ B e.2) (hk : A k) (hv : B v) :
    MapInv (mapInsert m k v).2 ∧ ∀ e ∈ (mapInsert m k v).2, A e.1 ∧ B e.2 := by
  refine ⟨runOp_inv (.insert k v) hi, ?_⟩
  unfold mapInsert
  split
  · exact ixInsert_all m k v hm hk hv
  · exact btInsert_all m k v hm hk hv

theorem mapOfList_ok {A B : Value → Prop} (es : List (Value × Value)) (h : ∀ e ∈ es, A e.1 ∧ B e.2) :
    MapInv (mapOfList es) ∧ ∀ e ∈ mapOfList es, A e.1 ∧ B e.2 := by
  have key : ∀ (es m : List (Value × Value)), (∀ e ∈ es, A e.1 ∧ B e.2) → MapInv m → (∀ e ∈ m, A e.1 ∧ B e.2) →
      MapInv (es.foldl (fun m kv => (mapInsert m kv.1 kv.2).2) m) ∧ ∀ e ∈ es.foldl (fun m kv => (mapInsert m kv.1 kv.2).2) m, A e.1 ∧ B e.2 := by
    intro es
    induction es with
    | nil => intro m _ h1 h2; exact ⟨h1, h2⟩
    | cons e es ih =>
      intro m he h1 h2
      obtain ⟨h3, h4⟩ := List.forall_mem_cons.mp he
      obtain ⟨h5, h6⟩ := mapInsert_ok m e.1 e.2 h1 h2 h3.1 h3.2
      exact ih _ h4 h5 h6
  refine key es [] h ?_ (by simp)
  unfold MapInv
  split <;> simp [NodupKeys, Sorted]

/-- A value whose numbers are well-formed and whose nesting keeps to the budget. -/
def PV (l : Option Nat) (V : Value) : Prop := V.Holds Number.WF ∧ Bd l V.toS
/-- The same for items. -/
def PI (l : Option Nat) (V : Value) : Prop := V.Holds Number.WF ∧ Bi l V.toS

theorem PV.item {l : Option Nat} {V : Value} (hl : l ≠ some 0) (h : PV (l.map (· - 1)) V) : PI l V := ⟨h.1, h.2.item hl⟩
theorem PV.up {l : Option Nat} {V : Value} (h : PV (l.map (· - 1)) V) : PV l V := ⟨h.1, h.2.up⟩

theorem PI.seq {l : Option Nat} {vs : List Value} (h : ∀ V ∈ vs, PI l V) : PV l (.seq vs) := by
  refine ⟨?_, ?_⟩
  · simp only [Value.Holds]
    induction vs with
    | nil => trivial
    | cons v vs ih =>
      obtain ⟨h1, h2⟩ := List.forall_mem_cons.mp h
      exact ⟨h1.1, ih h2⟩
  · rintro n rfl
    simp only [Value.toS, SVal.nesting]
    refine nestingAll_bound fun w hw => ?_
    induction vs with
    | nil => simp [valuesToS] at hw
    | cons v vs ih =>
      obtain ⟨h1, h2⟩ := List.forall_mem_cons.mp h
      simp only [valuesToS, List.mem_cons] at hw
      rcases hw with rfl | hw
      · exact h1.2 n rfl
      · exact ih h2 hw

theorem PI.map {l : Option Nat} {es : List (Value × Value)} (h : ∀ e ∈ es, PI l e.1 ∧ PI l e.2) : PV l (.map (mapOfList es)) := by
  obtain ⟨h0, h⟩ := mapOfList_ok es h
  generalize mapOfList es = m at h0 h
  refine ⟨?_, ?_⟩
  · simp only [Value.Holds]
    refine ⟨h0, ?_⟩
    clear h0
    induction m with
    | nil => trivial
    | cons v vs ih =>
      obtain ⟨h1, h2⟩ := List.forall_mem_cons.mp h
      exact ⟨⟨h1.1.1, h1.2.1⟩, ih h2⟩
  · rintro n rfl
    clear h0
    simp only [Value.toS, SVal.nesting]
    refine nestingEntries_bound fun w hw => ?_
    induction m with
    | nil => simp [entriesToS] at hw
    | cons v vs ih =>
      obtain ⟨h1, h2⟩ := List.forall_mem_cons.mp h
      obtain ⟨k, v⟩ := v
      simp only [entriesToS, List.mem_cons] at hw
      rcases hw with rfl | hw
      · exact ⟨h1.1.2 n rfl, h1.2.2 n rfl⟩
      · exact ih h2 hw

theorem PI.leaf {l : Option Nat} {V : Value} (h : V.Holds Number.WF) (h0 : V.toS.nesting = 0) : PI l V := ⟨h, fun n _ => by omega⟩
theorem PV.leaf {l : Option Nat} {V : Value} (h : V.Holds Number.WF) (h0 : V.toS.nesting = 0) : PV l V := ⟨h, fun n _ => by omega⟩
theorem PI.num {l : Option Nat} {n : Number} (h : n.WF) : PI l (.num n) := .leaf (by simpa only [Value.Holds] using h) (by simp [Value.toS, SVal.nesting])
theorem PI.str {l : Option Nat} {t : Text} : PI l (.str t) := .leaf (by simp only [Value.Holds]) (by simp [Value.toS, SVal.nesting])
theorem PV.num {l : Option Nat} {n : Number} (h : n.WF) : PV l (.num n) := .leaf (by simpa only [Value.Holds] using h) (by simp [Value.toS, SVal.nesting])

theorem Y.anyNumber {l : Option Nat} : Y l anyNumber Number.WF := Y.last (by repeat dw_step) fun _ _ _ h => anyNumber_wf h

theorem Y.floatRangeOrValue {l : Option Nat} {n : Number} (h : n.WF) : Y l (floatRangeOrValue n) (PV l) := by
  unfold Ron.floatRangeOrValue
  have e1 : ∀ {m : Number}, m.WF → PV l (.map (mapOfList [(.str c!"start", .num n), (.str c!"end", .num m)])) := fun hm => PI.map (by
    intro e he
    simp only [List.mem_cons, List.not_mem_nil, or_false] at he
    rcases he with rfl | rfl
    · exact ⟨.str, .num h⟩
    · exact ⟨.str, .num hm⟩)
  have e2 : PV l (.map (mapOfList [(.str c!"start", .num n)])) := PI.map (by
    intro e he
    simp only [List.mem_cons, List.not_mem_nil, or_false] at he
    subst he
    exact ⟨.str, .num h⟩)
  refine Y.skip (by repeat dw_step) fun _ => Y.ite (fun _ => Y.anyNumber.bind fun m hm => Y.pure (e1 hm)) fun _ => ?_
  refine Y.skip (by repeat dw_step) fun _ => Y.ite (fun _ => Y.getSt fun s hs => ?_) fun _ => Y.pure (.num h)
  exact Y.ite (fun _ => Y.pure e2) fun _ => Y.anyNumber.bind fun m hm => Y.pure (e1 hm)

variable {any : P Value} (hany : ∀ l, Y l any (PV l))
include hany

theorem anyG {l : Option Nat} : YG l any (PI l) := fun hl => (hany _).conseq fun _ h => h.item hl

theorem Y.visitSeq {c : Char} {l : Option Nat} : Y l (visitSeq c any) (PV l) := by
  unfold Ron.visitSeq
  exact (Y.readSeq (anyG hany)).bind fun vs h => Y.pure (PI.seq h)
omit hany in
theorem Y.deIdentValue {l : Option Nat} : Y l deIdentValue (fun v => ∃ t, v = .str t) := by
  unfold Ron.deIdentValue
  exact Y.skip (by repeat dw_step) fun id => Y.pure ⟨id, rfl⟩
theorem Y.visitMap {c : Char} {key : P Value} {l : Option Nat} (hk : YG l key (PI l)) : Y l (visitMap c key any) (PV l) := by
  unfold Ron.visitMap
  exact (Y.readMap hk (anyG hany)).bind fun vs h => Y.pure (PI.map h)
omit hany in
theorem identG {l : Option Nat} : YG l deIdentValue (PI l) := fun _ => Y.deIdentValue.conseq fun v ⟨t, h⟩ => h ▸ .str

theorem visitSeqG {c : Char} {l : Option Nat} : YG l (visitSeq c any) (PV l) := fun _ => (Y.visitSeq hany).conseq fun _ h => h.up
theorem visitMapG {c : Char} {l : Option Nat} : YG l (visitMap c any any) (PV l) := fun _ => (Y.visitMap hany (anyG hany)).conseq fun _ h => h.up
theorem visitStructG {c : Char} {l : Option Nat} : YG l (visitMap c deIdentValue any) (PV l) := fun _ => (Y.visitMap hany identG).conseq fun _ h => h.up

theorem Y.anyStruct {l : Option Nat} : Y l (anyStruct any) (PV l) := by
  unfold Ron.anyStruct
  refine Y.skip (by repeat dw_step) fun t => ?_
  split
  · exact Y.pure (.leaf (by simp only [Value.Holds]) (by simp [Value.toS, SVal.nesting]))
  · exact Y.structAfterName (visitStructG hany)
  · exact Y.deTuple (visitSeqG hany)

theorem Y.anyChar {l : Option Nat} : Y l (anyChar any) (PV l) := by
  unfold Ron.anyChar
  have lf : ∀ {V : Value}, V.Holds Number.WF → V.toS.nesting = 0 → PV l V := PV.leaf
  have e1 : ∀ {m : Number}, m.WF → PV l (.map (mapOfList [(.str c!"end", .num m)])) := fun hm => PI.map (by
    intro e he
    simp only [List.mem_cons, List.not_mem_nil, or_false] at he
    subst he
    exact ⟨.str, .num hm⟩)
  refine Y.skip (by repeat dw_step) fun c => Y.getSt fun s hs => ?_
  refine Y.ite (fun _ => Y.anyStruct hany) fun _ => Y.ite (fun _ => Y.deSeq (visitSeqG hany)) fun _ =>
    Y.ite (fun _ => Y.deMap (visitMapG hany)) fun _ => Y.ite (fun _ => ?_) fun _ => Y.ite (fun _ => ?_) fun _ => Y.ite (fun _ => ?_) fun _ => Y.fail
  · refine Y.ite (fun _ => ?_) fun _ => ?_
    · exact Y.skip (by repeat dw_step) fun b => Y.pure (lf (by simp only [Value.Holds]) (by simp [Value.toS, SVal.nesting]))
    · refine Y.skip (by repeat dw_step) fun _ => Y.ite (fun _ => Y.anyNumber.bind fun m hm => Y.pure (e1 hm)) fun _ => ?_
      refine Y.skip (by repeat dw_step) fun _ => Y.ite (fun _ => ?_) fun _ => Y.anyNumber.bind fun m hm => Y.floatRangeOrValue hm
      refine Y.ite (fun _ => Y.anyNumber.bind fun m hm => Y.pure (e1 hm)) fun _ => ?_
      exact Y.pure (lf (by simp only [Value.Holds]) (by simp [Value.toS, SVal.nesting]))
  · exact Y.skip (by repeat dw_step) fun b => Y.pure (lf (by simp only [Value.Holds]) (by simp [Value.toS, SVal.nesting]))
  · exact Y.skip (by repeat dw_step) fun b => Y.pure (lf (by simp only [Value.Holds]) (by simp [Value.toS, SVal.nesting]))

theorem Y.anyPlain {l : Option Nat} : Y l (anyPlain any) (PV l) := by
  unfold Ron.anyPlain
  have lf : ∀ {V : Value}, V.Holds Number.WF → V.toS.nesting = 0 → PV l V := PV.leaf
  refine Y.skip (by repeat dw_step) fun _ => Y.ite (fun _ => Y.pure (lf (by simp only [Value.Holds]) (by simp [Value.toS, SVal.nesting]))) fun _ => ?_
  refine Y.skip (by repeat dw_step) fun _ => Y.ite (fun _ => Y.pure (lf (by simp only [Value.Holds]) (by simp [Value.toS, SVal.nesting]))) fun _ => ?_
  refine Y.skip (by repeat dw_step) fun _ => Y.ite (fun _ => ?_) fun _ => ?_
  · refine Y.deOption (lf (by simp only [Value.Holds]) (by simp [Value.toS, SVal.nesting])) fun hl => (hany _).bind fun v hv => Y.pure ⟨?_, ?_⟩
    · simpa only [Value.Holds] using hv.1
    · exact (hv.2.item hl).wrap (by simp [Value.toS, SVal.nesting])
  refine Y.skip (by repeat dw_step) fun _ => Y.ite (fun _ => Y.pure (lf (by simp only [Value.Holds]) (by simp [Value.toS, SVal.nesting]))) fun _ => ?_
  refine Y.skip (by repeat dw_step) fun _ => Y.ite (fun _ => Y.pure (lf (by simp only [Value.Holds]) (by simp [Value.toS, SVal.nesting]))) fun _ => ?_
  iterate 6 refine Y.skip (by repeat dw_step) fun _ => Y.ite (fun _ => Y.floatRangeOrValue trivial) fun _ => ?_
  refine Y.skip (by repeat dw_step) fun r => ?_
  cases r with
  | some _ => exact Y.skip (by repeat dw_step) fun _ => Y.anyStruct hany
  | none => exact Y.anyChar hany

theorem Y.anyBody {l : Option Nat} : Y l (anyBody any) (PV l) := by
  unfold Ron.anyBody
  refine Y.getSt fun s hs => Y.ite (fun _ => ?_) fun _ => Y.anyPlain hany
  refine Y.skip (by repeat dw_step) fun _ => Y.ite (fun _ => ?_) fun _ => ?_
  · exact Y.skip (by repeat dw_step) fun _ => Y.pure (.leaf (by simp only [Value.Holds]) (by simp [Value.toS, SVal.nesting]))
  refine Y.skip (by repeat dw_step) fun t => ?_
  split
  · exact Y.structAfterName (visitStructG hany)
  · exact Y.deTuple (visitSeqG hany)
  · exact Y.deTuple (visitSeqG hany)
  · exact Y.skip (by repeat dw_step) fun _ => Y.anyPlain hany
omit hany

theorem Y.deAny (f : Nat) : ∀ l, Y l (deAny f) (PV l) := by
  induction f with
  | zero => exact fun _ => Y.fail
  | succ f ih => exact fun l => Y.anyBody ih
theorem Y.deValue {l : Option Nat} : Y l deValue (PV l) := Y.getSt fun _ _ => Y.deAny _ _

end

/-! ### Typed data -/

section
variable [Env]

theorem Y.tupleLoop {l : Option Nat} {ex : Text} {rec : Ty → P SVal} {Q : Ty → SVal → Prop} (ts : List Ty) (h : ∀ t ∈ ts, YG l (rec t) (Q t)) :
    ∀ i had, Y l (tupleLoop ex (ts.map rec) i had) (All2 Q ts) := by
  induction ts with
  | nil => exact fun i had => Y.pure trivial
  | cons t ts ih =>
    intro i had
    obtain ⟨h1, h2⟩ := List.forall_mem_cons.mp h
    simp only [List.map_cons]
    unfold Ron.tupleLoop
    refine Y.bind (Y.nextElement h1) fun r hr => ?_
    cases r with
    | none => exact Y.fail
    | some x => exact Y.bind (ih h2 _ _) fun vs hvs => Y.pure ⟨hr x rfl, hvs⟩

/-- What the fields collected so far are. -/
def Got (Q : Ty → SVal → Prop) (fields : List (Text × Ty)) (got : Text → Option SVal) : Prop :=
  ∀ key v, got key = some v → ∃ e, fields.find? (fun e => e.1 = key) = some e ∧ Q e.2 v

theorem Y.structLoop {l : Option Nat} {rec : Ty → P SVal} {Q : Ty → SVal → Prop} {deny : Bool} {fields : List (Text × Ty)}
    (h : ∀ e ∈ fields, YG l (rec e.2) (Q e.2)) (f : Nat) : ∀ had got, Got Q fields got →
    Y l (structLoop rec deIgnored deny fields f had got) (Got Q fields) := by
  induction f with
  | zero => exact fun _ _ _ => Y.fail
  | succ f ih =>
    intro had got hg
    unfold Ron.structLoop
    refine Y.skip ?_ fun r => ?_
    · refine DW.nextKey ?_
      unfold fieldKey
      repeat dw_step
    · cases r with
      | none => exact Y.pure hg
      | some o =>
        cases o with
        | none => exact Y.skip (by repeat dw_step) fun x => ih _ _ hg
        | some key =>
          dsimp only
          refine Y.ite (fun _ => Y.fail) fun _ => ?_
          generalize he : List.find? (fun e => decide (e.1 = key)) fields = o
          cases o with
          | none => exact Y.fail
          | some e =>
            obtain ⟨k, t⟩ := e
            refine Y.bind (Y.nextValue (h _ (List.mem_of_find?_eq_some he))) fun x hx => ih _ _ ?_
            intro key' v hv
            dsimp only at hv
            by_cases hk : key' = key
            · rw [if_pos hk] at hv
              cases hv
              subst hk
              exact ⟨_, he, hx⟩
            · rw [if_neg hk] at hv
              exact hg key' v hv

theorem collectFields_of {io : Ty → Bool} {Q : Ty → SVal → Prop} {all : List (Text × Ty)} {got : Text → Option SVal} (hn : (all.map Prod.fst).Nodup)
    (hg : Got Q all got) : ∀ (fields : List (Text × Ty)), (∀ e ∈ fields, e ∈ all) → ∀ fs, collectFields io got fields = .ok fs →
    All2 (fun F f => F.1 = f.1 ∧ (Q F.2 f.2 ∨ (io F.2 = true ∧ f.2 = .none))) fields fs := by
  intro fields
  induction fields with
  | nil => intro _ fs h; cases h; trivial
  | cons F fields ih =>
    intro hm fs h
    obtain ⟨name, t⟩ := F
    obtain ⟨hm1, hm2⟩ := List.forall_mem_cons.mp hm
    unfold collectFields at h
    cases hgot : got name with
    | some v =>
      rw [hgot] at h
      cases hc : collectFields io got fields with
      | error e => rw [hc] at h; cases h
      | ok rest =>
        rw [hc] at h
        cases h
        refine ⟨⟨rfl, .inl ?_⟩, ih hm2 rest hc⟩
        obtain ⟨e, he, hq⟩ := hg name v hgot
        have hmem := List.mem_of_find?_eq_some he
        have hname : e.1 = name := by simpa using List.find?_some he
        have : e = (name, t) := by
          have key : ∀ (all : List (Text × Ty)), (all.map Prod.fst).Nodup → e ∈ all → (name, t) ∈ all → e = (name, t) := by
            intro all
            induction all with
            | nil => intro _ h; cases h
            | cons a all ih =>
              intro hn h1 h2
              simp only [List.map_cons, List.nodup_cons] at hn
              rcases List.mem_cons.mp h1 with rfl | h1'
              · rcases List.mem_cons.mp h2 with h2 | h2'
                · exact h2.symm
                · exact absurd (List.mem_map.mpr ⟨_, h2', hname.symm⟩) hn.1
              · rcases List.mem_cons.mp h2 with rfl | h2'
                · exact absurd (List.mem_map.mpr ⟨_, h1', hname⟩) hn.1
                · exact ih hn.2 h1' h2'
          exact key all hn hmem hm1
        rw [this] at hq
        exact hq
    | none =>
      rw [hgot] at h
      dsimp only at h
      split at h
      · rename_i hio
        cases hc : collectFields io got fields with
        | error e => rw [hc] at h; cases h
        | ok rest =>
          rw [hc] at h
          cases h
          exact ⟨⟨rfl, .inr ⟨hio, rfl⟩⟩, ih hm2 rest hc⟩
      · cases h

theorem Y.visitStruct {l : Option Nat} {rec : Ty → P SVal} {io : Ty → Bool} {Q : Ty → SVal → Prop} {deny : Bool} {fields : List (Text × Ty)}
    (hn : (fields.map Prod.fst).Nodup) (h : ∀ e ∈ fields, YG l (rec e.2) (Q e.2)) :
    Y l (visitStruct rec io deny fields) (All2 (fun F f => F.1 = f.1 ∧ (Q F.2 f.2 ∨ (io F.2 = true ∧ f.2 = .none))) fields) := by
  unfold Ron.visitStruct
  refine Y.getSt fun s hs => Y.bind (Y.structLoop h _ _ _ (by intro k v hv; cases hv)) fun got hg => ?_
  intro s a s' hl e
  cases hc : collectFields io got fields with
  | error x => rw [hc] at e; cases e
  | ok fs =>
    rw [hc] at e
    cases e
    exact ⟨hl, collectFields_of hn hg fields (fun _ h => h) _ hc⟩

theorem visitRange_go {conv : Ty → Number → Except Err SVal} {Q : Ty → SVal → Prop} {fields : List (Text × Ty)}
    (es : List (Text × Number)) (hc : ∀ e ∈ es, ∀ t v, conv t e.2 = .ok v → Q t v) : ∀ got got', Got Q fields got →
    visitRange.go conv fields es got = .ok got' → Got Q fields got' := by
  induction es with
  | nil => intro got got' hg h; cases h; exact hg
  | cons e es ih =>
    intro got got' hg h
    obtain ⟨key, n⟩ := e
    obtain ⟨h1, h2⟩ := List.forall_mem_cons.mp hc
    unfold visitRange.go at h
    cases he : List.find? (fun e => decide (e.1 = key)) fields with
    | none => rw [he] at h; cases h
    | some e =>
      obtain ⟨k, t⟩ := e
      rw [he] at h
      dsimp only at h
      cases hv : conv t n with
      | error x => rw [hv] at h; cases h
      | ok v =>
        rw [hv] at h
        refine ih h2 _ _ ?_ h
        intro key' v' hv'
        dsimp only at hv'
        by_cases hk : key' = key
        · rw [if_pos hk] at hv'
          cases hv'
          subst hk
          exact ⟨_, he, h1 t v hv⟩
        · rw [if_neg hk] at hv'
          exact hg key' v' hv'

theorem visitRange_ok {conv : Ty → Number → Except Err SVal} {io : Ty → Bool} {Q : Ty → SVal → Prop} {fields : List (Text × Ty)}
    {es : List (Text × Number)} {fs : List (Text × SVal)} (hn : (fields.map Prod.fst).Nodup) (hc : ∀ e ∈ es, ∀ t v, conv t e.2 = .ok v → Q t v)
    (h : visitRange conv io fields es = .ok fs) :
    All2 (fun F f => F.1 = f.1 ∧ (Q F.2 f.2 ∨ (io F.2 = true ∧ f.2 = .none))) fields fs := by
  unfold visitRange at h
  cases hg : visitRange.go conv fields es (fun _ => none) with
  | error x => rw [hg] at h; cases h
  | ok got =>
    rw [hg] at h
    exact collectFields_of hn (visitRange_go es hc _ _ (by intro k v hv; cases hv) hg) fields (fun _ h => h) _ h

theorem Y.rangeStruct {l : Option Nat} {name : Text} {fields : List Text} :
    Y l (rangeStruct name fields) (fun r => ∀ es, r = some es → ∀ e ∈ es, e.2.WF) := by
  unfold Ron.rangeStruct
  refine Y.getSt fun s hs => ?_
  refine Y.ite (fun _ => ?_) fun _ => Y.ite (fun _ => ?_) fun _ => Y.ite (fun _ => ?_) fun _ => Y.ite (fun _ => ?_) fun _ => Y.pure (by rintro es ⟨⟩)
  · refine Y.ite (fun _ => ?_) fun _ => Y.pure (by rintro es ⟨⟩)
    refine Y.bind Y.anyNumber fun a ha => Y.skip (by repeat dw_step) fun incl => Y.ite (fun _ => Y.fail) fun _ => Y.ite (fun _ => Y.fail) fun _ => ?_
    refine Y.bind Y.anyNumber fun e he => Y.pure ?_
    rintro es ⟨⟩ x hx
    simp only [List.mem_cons, List.not_mem_nil, or_false] at hx
    rcases hx with rfl | rfl <;> assumption
  · refine Y.skip (by repeat dw_step) fun sp => Y.ite (fun _ => ?_) fun _ => Y.pure (by rintro es ⟨⟩)
    refine Y.bind Y.anyNumber fun a ha => Y.skip (by repeat dw_step) fun _ => Y.ite (fun _ => Y.fail) fun _ => ?_
    refine Y.skip (by repeat dw_step) fun _ => Y.ite (fun _ => Y.fail) fun _ => Y.pure ?_
    rintro es ⟨⟩ x hx
    simp only [List.mem_cons, List.not_mem_nil, or_false] at hx
    subst hx
    exact ha
  · refine Y.skip (by repeat dw_step) fun sp => Y.ite (fun _ => Y.fail) fun _ => Y.skip (by repeat dw_step) fun _ => ?_
    refine Y.bind Y.anyNumber fun a ha => Y.pure ?_
    rintro es ⟨⟩ x hx
    simp only [List.mem_cons, List.not_mem_nil, or_false] at hx
    subst hx
    exact ha
  · refine Y.skip (by repeat dw_step) fun sp => Y.ite (fun _ => Y.skip (by repeat dw_step) fun _ => Y.fail) fun _ => ?_
    refine Y.bind Y.anyNumber fun a ha => Y.pure ?_
    rintro es ⟨⟩ x hx
    simp only [List.mem_cons, List.not_mem_nil, or_false] at hx
    subst hx
    exact ha

theorem fieldOf_none {D : Nat → Ty} : ∀ f t, fieldOf D f t = true → Typed D f t .none := by
  intro f
  induction f with
  | zero => intro t h; cases h
  | succ f ih =>
    intro t h
    cases t with
    | option t => exact .inl rfl
    | ref i => exact ih _ h
    | _ => cases h

theorem numTo_ok {D : Nat → Ty} {n : Number} (hn : n.WF) : ∀ f t v, numTo D f t n = .ok v → Typed D f t v ∧ v.nesting = 0 := by
  intro f
  induction f with
  | zero => intro t v h; cases h
  | succ f ih =>
    intro t v h
    cases t with
    | ref i => exact ih _ _ (by simpa only [numTo] using h)
    | int t =>
      cases n with
      | int t' i =>
        simp only [numTo] at h
        split at h
        · cases h
          rename_i hr
          exact ⟨⟨i, rfl, hr.1⟩, by simp [SVal.nesting]⟩
        · cases h
      | _ => cases h
    | f32 =>
      cases n <;> simp only [numTo] at h
      · split at h <;> cases h
        exact ⟨⟨_, rfl⟩, by simp [SVal.nesting]⟩
      all_goals (cases h; exact ⟨⟨_, rfl⟩, by simp [SVal.nesting]⟩)
    | f64 =>
      cases n <;> simp only [numTo] at h
      · split at h <;> cases h
        exact ⟨⟨_, rfl⟩, by simp [SVal.nesting]⟩
      all_goals (cases h; exact ⟨⟨_, rfl⟩, by simp [SVal.nesting]⟩)
    | value => simp only [numTo] at h; cases h; exact ⟨⟨.num n, rfl, by simpa only [Value.Holds] using hn⟩, by simp [SVal.nesting]⟩
    | _ => simp only [numTo] at h; cases h

theorem Y.liftE {α : Type} {l : Option Nat} {x : Except Err α} {Q : α → Prop} (h : ∀ a, x = .ok a → Q a) : Y l (liftE x) Q := by
  cases x with
  | error e => exact Y.fail
  | ok a => exact Y.pure (h a rfl)

theorem All2.nesting {Q : Ty → SVal → Prop} {n : Nat} : ∀ {ts : List Ty} {vs : List SVal}, All2 (fun t v => Q t v ∧ v.nesting ≤ n) ts vs → nestingAll vs ≤ n + 1
  | [], [], _ => by simp [nestingAll]
  | [], _ :: _, h => h.elim
  | _ :: _, [], h => h.elim
  | _ :: ts, v :: vs, h => by
    have h1 := h.1.2
    have h2 := All2.nesting h.2
    simp only [nestingAll]
    omega
theorem All2.nestingF {Q : Text × Ty → Text × SVal → Prop} {n : Nat} : ∀ {fs : List (Text × Ty)} {vs : List (Text × SVal)},
    All2 (fun t v => Q t v ∧ v.2.nesting ≤ n) fs vs → nestingFields vs ≤ n + 1
  | [], [], _ => by simp [nestingFields]
  | [], _ :: _, h => h.elim
  | _ :: _, [], h => h.elim
  | _ :: ts, (a, v) :: vs, h => by
    have h1 : v.nesting ≤ n := h.1.2
    have h2 := All2.nestingF h.2
    simp only [nestingFields]
    omega
theorem All2.weaken {A B : Type} {P Q : A → B → Prop} (h : ∀ a b, P a b → Q a b) : ∀ {as : List A} {bs : List B}, All2 P as bs → All2 Q as bs
  | [], [], _ => trivial
  | [], _ :: _, h => h.elim
  | _ :: _, [], h => h.elim
  | _ :: _, _ :: _, h' => ⟨h _ _ h'.1, All2.weaken h h'.2⟩

/-- Data of a type, with the nesting that the budget allows. -/
def QT (D : Nat → Ty) (f : Nat) (l : Option Nat) (T : Ty) (v : SVal) : Prop := Typed D f T v ∧ Bd l v
/-- The same for items. -/
def QI (D : Nat → Ty) (f : Nat) (l : Option Nat) (T : Ty) (v : SVal) : Prop := Typed D f T v ∧ Bi l v

section
variable {D : Nat → Ty} {f : Nat} (ih : ∀ (t : Ty) (l : Option Nat), t.Every Ty.Distinct → Y l (deTy D f t) (QT D f l t))

theorem QT.item {l : Option Nat} {t : Ty} {v : SVal} (hl : l ≠ some 0) (h : QT D f (l.map (· - 1)) t v) : QI D f l t v := ⟨h.1, h.2.item hl⟩

theorem QI.up {l : Option Nat} {t : Ty} {v : SVal} (h : QI D f (l.map (· - 1)) t v) : QI D f l t v := ⟨h.1, by
  rintro n rfl
  have := h.2 (n - 1) rfl
  omega⟩

include ih
theorem tyG {l : Option Nat} {t : Ty} (ht : t.Every Ty.Distinct) : YG l (deTy D f t) (QI D f l t) := fun hl => (ih _ _ ht).conseq fun _ h => h.item hl
omit ih

theorem PartsAll_mem {p : Ty → Prop} : ∀ {ts : List Ty}, PartsAll p ts → ∀ t ∈ ts, t.Every p
  | [], _, t, h => by cases h
  | _ :: ts, h, t, hm => by
    simp only [PartsAll] at h
    rcases List.mem_cons.mp hm with rfl | hm
    · exact h.1
    · exact PartsAll_mem h.2 t hm
theorem PartsFields_mem {p : Ty → Prop} : ∀ {fs : List (Text × Ty)}, PartsFields p fs → ∀ e ∈ fs, e.2.Every p
  | [], _, t, h => by cases h
  | (_, _) :: ts, h, t, hm => by
    simp only [PartsFields] at h
    rcases List.mem_cons.mp hm with rfl | hm
    · exact h.1
    · exact PartsFields_mem h.2 t hm
theorem PartsVariants_mem {p : Ty → Prop} : ∀ {vs : List (Text × Variant)}, PartsVariants p vs → ∀ e ∈ vs, e.2.Parts p
  | [], _, t, h => by cases h
  | (_, _) :: ts, h, t, hm => by
    simp only [PartsVariants] at h
    rcases List.mem_cons.mp hm with rfl | hm
    · exact h.1
    · exact PartsVariants_mem h.2 t hm

include ih
theorem tupG {l : Option Nat} {ex : Text} {ts : List Ty} (hts : PartsAll Ty.Distinct ts) :
    YG l (Ron.tupleLoop ex (ts.map (deTy D f)) 0 true) (All2 (QI D f l) ts) := fun _ =>
  (Y.tupleLoop ts (fun t ht => tyG ih (PartsAll_mem hts t ht)) _ _).conseq fun _ h => All2.weaken (fun _ _ h => h.up) h

/-- What the fields of a struct become. -/
def FI (D : Nat → Ty) (f : Nat) (l : Option Nat) (F : Text × Ty) (x : Text × SVal) : Prop := (F.1 = x.1 ∧ Typed D f F.2 x.2) ∧ Bi l x.2

omit ih in
theorem FI.of {l : Option Nat} {F : Text × Ty} {x : Text × SVal} (h : F.1 = x.1 ∧ (QI D f l F.2 x.2 ∨ (fieldOf D f F.2 = true ∧ x.2 = .none))) : FI D f l F x := by
  obtain ⟨h1, h2 | ⟨h2, h3⟩⟩ := h
  · exact ⟨⟨h1, h2.1⟩, h2.2⟩
  · refine ⟨⟨h1, ?_⟩, ?_⟩
    · rw [h3]; exact fieldOf_none _ _ h2
    · rw [h3]; intro n _; simp [SVal.nesting]

theorem structG {l : Option Nat} {deny : Bool} {fields : List (Text × Ty)} (hn : (fields.map Prod.fst).Nodup) (hts : PartsFields Ty.Distinct fields) :
    YG l (Ron.visitStruct (deTy D f) (fieldOf D f) deny fields) (All2 (FI D f l) fields) := fun _ =>
  (Y.visitStruct hn fun e he => tyG ih (PartsFields_mem hts e he)).conseq fun _ h => All2.weaken (fun F x h => FI.of ⟨h.1, h.2.imp QI.up id⟩) h

omit ih in
theorem All2.bd {l : Option Nat} {ts : List Ty} {vs : List SVal} (h : All2 (QI D f l) ts vs) : ∀ n, l = some n → nestingAll vs ≤ n + 1 := by
  rintro n rfl
  exact All2.nesting (Q := fun _ _ => True) (All2.weaken (fun _ _ h => ⟨trivial, h.2 n rfl⟩) h)
omit ih in
theorem All2.bdF {l : Option Nat} {ts : List (Text × Ty)} {vs : List (Text × SVal)} (h : All2 (FI D f l) ts vs) : ∀ n, l = some n → nestingFields vs ≤ n + 1 := by
  rintro n rfl
  exact All2.nestingF (Q := fun _ _ => True) (All2.weaken (fun _ _ h => ⟨trivial, h.2 n rfl⟩) h)

theorem Y.deStruct {l : Option Nat} {name : Text} {deny : Bool} {fields : List (Text × Ty)} (hn : (fields.map Prod.fst).Nodup)
    (hts : PartsFields Ty.Distinct fields) :
    Y l (deStruct (deTy D f) (fieldOf D f) (numTo D f) name deny fields) (QT D (f + 1) l (.struct name deny fields)) := by
  have fin : ∀ fs, All2 (FI D f l) fields fs → QT D (f + 1) l (.struct name deny fields) (.struct name fs) := fun fs h =>
    ⟨⟨fs, rfl, All2.weaken (fun _ _ h => h.1) h⟩, fun n hl => by simpa only [SVal.nesting] using All2.bdF h n hl⟩
  unfold Ron.deStruct
  refine Y.bind Y.rangeStruct fun r hr => ?_
  cases r with
  | some es =>
    refine Y.bind (Y.liftE fun fs hfs => ?_) fun fs h => Y.pure (fin fs h)
    refine All2.weaken (fun F x h => FI.of ⟨h.1, h.2⟩) (visitRange_ok (Q := QI D f l) hn (fun e he t v hv => ?_) hfs)
    obtain ⟨h1, h2⟩ := numTo_ok (hr es rfl e he) f t v hv
    exact ⟨h1, fun n _ => by omega⟩
  | none =>
    refine Y.getSt fun s hs => ?_
    have rest : Y l (do
        skipWs
        let fs ← Ron.structAfterName name (Ron.visitStruct (deTy D f) (fieldOf D f) deny fields)
        Pure.pure (SVal.struct name fs)) (QT D (f + 1) l (.struct name deny fields)) :=
      Y.skip (by repeat dw_step) fun _ => Y.bind (Y.structAfterName (structG ih hn hts)) fun fs h => Y.pure (fin fs h)
    dsimp only
    cases hnv : s.nv with
    | false => exact Y.skip (by repeat dw_step) fun _ => rest
    | true => exact rest

theorem Y.visitEnum {l : Option Nat} {name : Text} {variants : List (Text × Variant)} (hd : Ty.Distinct (.enum name variants))
    (hts : PartsVariants Ty.Distinct variants) : Y l (visitEnum (deTy D f) (fieldOf D f) name variants) (QT D (f + 1) l (.enum name variants)) := by
  unfold Ron.visitEnum
  refine Y.skip (by repeat dw_step) fun _ => ?_
  refine Y.bind (Q := fun x => x ∈ variants) (Y.guardQ fun _ => ?_) ?_
  · refine Y.skip (by repeat dw_step) fun id => ?_
    cases hf : List.find? (fun e => decide (e.1 = id)) variants with
    | none => exact Y.fail
    | some e =>
      have h1 := List.mem_of_find?_eq_some hf
      have h2 : e.1 = id := by simpa using List.find?_some hf
      obtain ⟨a, k⟩ := e
      subst h2
      exact Y.pure h1
  · rintro ⟨id, k⟩ hm
    have hp := PartsVariants_mem hts _ hm
    have hds := hd.2 _ hm
    dsimp only at hp hds ⊢
    unfold variantData
    cases k with
    | unit => exact Y.pure ⟨⟨id, .unit, hm, rfl⟩, fun n _ => by simp [SVal.nesting]⟩
    | newtype t =>
      simp only [Variant.Parts] at hp
      exact Y.bind (Y.newtypeVariant (tyG ih hp)) fun v hv => Y.pure ⟨⟨id, .newtype t, hm, v, rfl, hv.1⟩, hv.2.wrap (by simp [SVal.nesting])⟩
    | tuple ts =>
      simp only [Variant.Parts] at hp
      exact Y.skip (by repeat dw_step) fun _ => Y.bind (Y.deTuple (tupG ih hp)) fun vs hv => Y.pure
        ⟨⟨id, .tuple ts, hm, vs, rfl, All2.weaken (fun _ _ h => h.1) hv⟩, fun n hl => by simpa only [SVal.nesting] using All2.bd hv n hl⟩
    | struct deny fs =>
      simp only [Variant.Parts] at hp
      refine Y.getSt fun _ _ => Y.skip (by repeat dw_step) fun _ => Y.bind (Y.mapErr (Y.structAfterName (structG ih (hds deny fs rfl) hp))) fun vs hv => Y.pure
        ⟨⟨id, .struct deny fs, hm, vs, rfl, All2.weaken (fun _ _ h => h.1) hv⟩, fun n hl => by simpa only [SVal.nesting] using All2.bdF hv n hl⟩
end

theorem KeepLim.deRaw : KeepLim deRaw := by
  intro s a s' h
  unfold Ron.deRaw at h
  obtain ⟨s0, s1, h0, h⟩ := bind_ok h
  cases h0
  obtain ⟨x, s2, h2, h⟩ := bind_ok h
  obtain ⟨x, s3, h3, h⟩ := bind_ok h
  obtain ⟨x, s4, h4, h⟩ := bind_ok h
  obtain ⟨x, s5, h5, h⟩ := bind_ok h
  have k2 : KeepLim skipWs := by repeat dw_step
  have k3 : KeepLim deIgnored := by repeat dw_step
  have k5 : KeepLim hasUnclosedLineComment := by intro s a s' h; cases h; rfl
  have e := (k5 _ _ _ h5).trans ((k2 _ _ _ h4).trans ((k3 _ _ _ h3).trans (k2 _ _ _ h2)))
  cases x with
  | true => cases h
  | false =>
    simp only [Bool.false_eq_true, ↓reduceIte] at h
    obtain ⟨s6, s7, h6, h⟩ := bind_ok h
    cases h6
    generalize fromStr _ _ _ = r at h
    cases r with
    | ok _ => cases h; exact e
    | error _ => cases h

/-- What is ignored could have been kept. -/
theorem ignored_read {o : Options} {t : Text} {a : Unit} (h : fromStr o deIgnored t = .ok a) : ∃ V, fromStr o Ron.deValue t = .ok V := by
  unfold fromStr at h ⊢
  generalize hr : readDoc o deIgnored (St.init t) = r at h
  cases r with
  | err e s => cases h
  | ok x s =>
    unfold readDoc at hr ⊢
    obtain ⟨_, s1, h1, hr⟩ := bind_ok hr
    obtain ⟨_, s2, h2, hr⟩ := bind_ok hr
    obtain ⟨_, s3, h3, hr⟩ := bind_ok hr
    cases hr
    unfold deIgnored at h2
    obtain ⟨V, s2', h2, h4⟩ := bind_ok h2
    cases h4
    refine ⟨V, ?_⟩
    simp only [bind_apply, h1, h2, h3, pure_apply]
    rfl

/-- A raw value is by itself a document. -/
theorem deRaw_kept {s s' : St} {t : Text} (h : deRaw s = .ok t s') : ∃ V, fromStr {} Ron.deValue t = .ok V := by
  unfold deRaw at h
  rw [getSt_bind] at h
  obtain ⟨_, s1, -, h⟩ := bind_ok h
  obtain ⟨_, s2, -, h⟩ := bind_ok h
  obtain ⟨_, s4, -, h⟩ := bind_ok h
  replace h := bind_ok h; obtain ⟨b, s4', -, h⟩ := h
  rcases ite_inv h with ⟨-, h⟩ | ⟨-, h⟩
  · cases h
  rw [getSt_bind] at h
  generalize hx : fromStr {} deIgnored _ = res at h
  cases res with
  | ok _ => cases h; exact ignored_read hx
  | error _ => cases h

/-- What is read as a type belongs to it, and keeps to the recursion limit. -/
theorem Y.deTy {D : Nat → Ty} (hD : ∀ i, (D i).Every Ty.Distinct) (f : Nat) : ∀ (t : Ty) (l : Option Nat), t.Every Ty.Distinct →
    Y l (deTy D f t) (QT D f l t) := by
  induction f with
  | zero => exact fun _ _ _ => Y.fail
  | succ f ih =>
    intro t l ⟨ht, hp⟩
    have lf : ∀ {v : SVal}, v.nesting = 0 → Bd l v := fun h n _ => by omega
    unfold Ron.deTy
    cases t with
    | bool => exact Y.skip (by repeat dw_step) fun b => Y.pure ⟨⟨b, rfl⟩, lf (by simp [SVal.nesting])⟩
    | int t =>
      refine Y.bind (Q := fun x => x.1 = t ∧ t.InRange x.2) (Y.last (by repeat dw_step) fun s a s' h => ?_) fun x hx => ?_
      · obtain ⟨h1, -, h2⟩ := deInt_wf (t := a.1) (v := a.2) h
        exact ⟨h1, h2⟩
      · obtain ⟨a, b⟩ := x
        obtain ⟨rfl, h2⟩ := hx
        exact Y.pure ⟨⟨b, rfl, h2⟩, lf (by simp [SVal.nesting])⟩
    | f32 =>
      refine Y.bind (Q := FloatTarget.Is .f32) (Y.last (by repeat dw_step) fun s a s' h => float_is h) fun x hx => Y.pure ?_
      cases x <;> first | (simp [FloatTarget.Is] at hx; done) | exact ⟨⟨_, rfl⟩, lf (by simp [SVal.nesting])⟩
    | f64 =>
      refine Y.bind (Q := FloatTarget.Is .f64) (Y.last (by repeat dw_step) fun s a s' h => float_is h) fun x hx => Y.pure ?_
      cases x <;> first | (simp [FloatTarget.Is] at hx; done) | exact ⟨⟨_, rfl⟩, lf (by simp [SVal.nesting])⟩
    | char => exact Y.skip (by repeat dw_step) fun b => Y.pure ⟨⟨b, rfl⟩, lf (by simp [SVal.nesting])⟩
    | str => exact Y.skip (by repeat dw_step) fun b => Y.pure ⟨⟨b, rfl⟩, lf (by simp [SVal.nesting])⟩
    | bytes => exact Y.skip (by repeat dw_step) fun b => Y.pure ⟨⟨b, rfl⟩, lf (by simp [SVal.nesting])⟩
    | unit => exact Y.skip (by repeat dw_step) fun b => Y.pure ⟨rfl, lf (by simp [SVal.nesting])⟩
    | unitStruct _ => exact Y.skip (by repeat dw_step) fun b => Y.pure ⟨rfl, lf (by simp [SVal.nesting])⟩
    | newtype name t =>
      simp only [Ty.Parts] at hp
      exact Y.bind (Y.deNewtype (tyG ih hp)) fun v hv => Y.pure ⟨⟨v, rfl, hv.1⟩, hv.2.wrap (by simp [SVal.nesting])⟩
    | option t =>
      simp only [Ty.Parts] at hp
      refine Y.deOption ⟨.inl rfl, lf (by simp [SVal.nesting])⟩ fun hl => Y.bind (tyG ih hp hl) fun v hv => Y.pure ?_
      exact ⟨.inr ⟨v, rfl, hv.1⟩, hv.2.wrap (by simp [SVal.nesting])⟩
    | seq t =>
      simp only [Ty.Parts] at hp
      refine Y.bind (Y.deSeq (Q := fun vs => ∀ v ∈ vs, QI D f l t v) fun hl => (Y.readSeq (tyG ih hp)).conseq fun vs h v hv => (h v hv).up) fun vs h => Y.pure ?_
      refine ⟨⟨vs, rfl, fun v hv => (h v hv).1⟩, fun n hl => ?_⟩
      simpa only [SVal.nesting] using nestingAll_bound fun v hv => (h v hv).2 n hl
    | tuple ts =>
      simp only [Ty.Parts] at hp
      exact Y.bind (Y.deTuple (tupG ih hp)) fun vs hv => Y.pure
        ⟨⟨vs, rfl, All2.weaken (fun _ _ h => h.1) hv⟩, fun n hl => by simpa only [SVal.nesting] using All2.bd hv n hl⟩
    | tupleStruct name ts =>
      simp only [Ty.Parts] at hp
      exact Y.bind (Y.deTupleStruct (tupG ih hp)) fun vs hv => Y.pure
        ⟨⟨vs, rfl, All2.weaken (fun _ _ h => h.1) hv⟩, fun n hl => by simpa only [SVal.nesting] using All2.bd hv n hl⟩
    | map k v =>
      simp only [Ty.Parts] at hp
      refine Y.bind (Y.deMap (Q := fun es => ∀ e ∈ es, QI D f l k e.1 ∧ QI D f l v e.2) fun hl =>
        (Y.readMap (tyG ih hp.1) (tyG ih hp.2)).conseq fun vs h e he => ⟨(h e he).1.up, (h e he).2.up⟩) fun es h => Y.pure ?_
      refine ⟨⟨es, rfl, fun e he => ⟨(h e he).1.1, (h e he).2.1⟩⟩, fun n hl => ?_⟩
      simpa only [SVal.nesting] using nestingEntries_bound fun e he => ⟨(h e he).1.2 n hl, (h e he).2.2 n hl⟩
    | struct name deny fields =>
      simp only [Ty.Parts] at hp
      exact Y.deStruct ih ht hp
    | enum name variants =>
      simp only [Ty.Parts] at hp
      refine Y.deEnum fun _ => (Y.visitEnum ih ht hp).conseq fun v h => ⟨h.1, h.2.up⟩
    | value => exact Y.deValue.bind fun V hV => Y.pure ⟨⟨V, rfl, hV.1⟩, hV.2⟩
    | raw =>
      exact (Y.last KeepLim.deRaw fun s a s' h => deRaw_kept h).bind fun t ht => Y.pure ⟨⟨t, rfl, ht⟩, fun n _ => by simp [SVal.nesting]⟩
    | ref i => exact (ih _ _ (hD i)).conseq fun v h => h

end

end Ron
