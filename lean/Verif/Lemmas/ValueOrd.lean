import Verif.Model.Value
/-!
# Order laws of `Number` and `Value`

`Value.cmp` is shown to be the lexicographic order of a prefix-free code, from which the order laws follow.
-/
set_option linter.unusedSimpArgs false

namespace Ron

/-- Lexicographic comparison. -/
def lexCmp : List Int → List Int → Ordering
  | [], [] => .eq
  | [], _ :: _ => .lt
  | _ :: _, [] => .gt
  | a :: as, b :: bs => (compare a b).then (lexCmp as bs)

theorem lexCmp_refl (a : List Int) : lexCmp a a = .eq := by
  induction a with
  | nil => rfl
  | cons x a ih => simp [lexCmp, ih, Std.ReflCmp.compare_self]

theorem lexCmp_swap (a b : List Int) : lexCmp b a = (lexCmp a b).swap := by
  induction a generalizing b with
  | nil => cases b <;> rfl
  | cons x a ih =>
    cases b with
    | nil => rfl
    | cons y b =>
      simp only [lexCmp]
      rw [ih b, Std.OrientedCmp.eq_swap (cmp := (compare : Int → Int → Ordering)) (a := y) (b := x), Ordering.swap_then]

theorem compare_int (x y : Int) : compare x y = if x < y then .lt else if x = y then .eq else .gt := rfl
theorem compare_nat (x y : Nat) : compare x y = if x < y then .lt else if x = y then .eq else .gt := rfl

theorem lexCmp_trans (a b c : List Int) (h1 : lexCmp a b ≠ .gt) (h2 : lexCmp b c ≠ .gt) : lexCmp a c ≠ .gt := by
  induction a generalizing b c with
  | nil => cases c <;> simp [lexCmp]
  | cons x a ih =>
    cases b with
    | nil => simp [lexCmp] at h1
    | cons y b =>
      cases c with
      | nil => simp [lexCmp] at h2
      | cons z c =>
        simp only [lexCmp, compare_int] at h1 h2 ⊢
        have ih := ih b c
        rcases Int.lt_trichotomy x y with h | h | h
        · rcases Int.lt_trichotomy y z with h' | h' | h'
          · rw [if_pos (by omega : x < z)]; simp [Ordering.then]
          · rw [if_pos (by omega : x < z)]; simp [Ordering.then]
          · rw [if_neg (by omega), if_neg (by omega)] at h2; simp [Ordering.then] at h2
        · rcases Int.lt_trichotomy y z with h' | h' | h'
          · rw [if_pos (by omega : x < z)]; simp [Ordering.then]
          · rw [if_neg (by omega), if_pos (by omega)] at h1 h2 ⊢
            exact ih h1 h2
          · rw [if_neg (by omega), if_neg (by omega)] at h2; simp [Ordering.then] at h2
        · rw [if_neg (by omega), if_neg (by omega)] at h1; simp [Ordering.then] at h1

theorem compare_eq_of_key {α : Type} {f : α → Int} (hf : ∀ a b, f a = f b → a = b) {a b : α}
    (h : compare (f a) (f b) = .eq) : a = b := hf _ _ (by
  rw [compare_int] at h; split at h <;> simp_all)

theorem natCmp (x y : Nat) : compare x y = compare (x : Int) (y : Int) := by
  rw [compare_int, compare_nat]; simp only [Int.ofNat_lt, Int.ofNat_inj]

theorem F32.totalKey_inj (a b : F32) (h : a.totalKey = b.totalKey) : a = b := by
  apply BitVec.eq_of_toNat_eq
  have := a.isLt; have := b.isLt
  unfold F32.totalKey at h; split at h <;> split at h <;> omega

theorem F64.totalKey_inj (a b : F64) (h : a.totalKey = b.totalKey) : a = b := by
  apply BitVec.eq_of_toNat_eq
  have := a.isLt; have := b.isLt
  unfold F64.totalKey at h; split at h <;> split at h <;> omega

/-- The code of a number. -/
def Number.code : Number → List Int
  | .int t v => [(Number.int t v).rank, v]
  | .f32 b => [10, b.totalKey]
  | .f64 b => [11, b.totalKey]

theorem rank_int_inj {t t' : IntTy} {v v' : Int} (h : (Number.int t v).rank = (Number.int t' v').rank) : t = t' := by
  cases t <;> cases t' <;> simp [Number.rank] at h ⊢

theorem rank_int_lt (t : IntTy) (v : Int) : (Number.int t v).rank < 10 := by cases t <;> simp [Number.rank]

theorem then_assoc' (a b c : Ordering) : (a.then b).then c = a.then (b.then c) := by cases a <;> rfl

theorem Number.cmp_code (a b : Number) (x y : List Int) :
    lexCmp (a.code ++ x) (b.code ++ y) = (a.cmp b).then (lexCmp x y) := by
  cases a with
  | int t v =>
    cases b with
    | int t' v' =>
      simp only [Number.code, Number.cmp, List.cons_append, List.nil_append, lexCmp]
      rw [natCmp]
      cases compare ((Number.int t v).rank : Int) ((Number.int t' v').rank : Int) <;> simp [Ordering.then]
    | f32 _ | f64 _ =>
      cases t <;> simp [Number.code, Number.cmp, lexCmp, Number.rank, Ordering.then, compare_int, compare_nat]
  | f32 v =>
    cases b with
    | int t' v' =>
      cases t' <;> simp [Number.code, Number.cmp, lexCmp, Number.rank, Ordering.then, compare_int, compare_nat]
    | f32 _ | f64 _ => simp [Number.code, Number.cmp, lexCmp, Number.rank, Ordering.then, compare_int, compare_nat]
  | f64 v =>
    cases b with
    | int t' v' =>
      cases t' <;> simp [Number.code, Number.cmp, lexCmp, Number.rank, Ordering.then, compare_int, compare_nat]
    | f32 _ | f64 _ => simp [Number.code, Number.cmp, lexCmp, Number.rank, Ordering.then, compare_int, compare_nat]

theorem Number.code_inj (a b : Number) (x y : List Int) (h : a.code ++ x = b.code ++ y) : a = b ∧ x = y := by
  cases a with
  | int t v =>
    have := rank_int_lt t v
    cases b with
    | int t' v' =>
      simp only [Number.code, List.cons_append, List.nil_append, List.cons.injEq] at h
      have : t = t' := rank_int_inj (by omega : (Number.int t v).rank = (Number.int t' v').rank)
      subst this; exact ⟨by rw [h.2.1], h.2.2⟩
    | f32 _ | f64 _ =>
      simp only [Number.code, List.cons_append, List.nil_append, List.cons.injEq] at h; omega
  | f32 v =>
    cases b with
    | int t' v' =>
      have := rank_int_lt t' v'
      simp only [Number.code, List.cons_append, List.nil_append, List.cons.injEq] at h; omega
    | f32 w =>
      simp only [Number.code, List.cons_append, List.nil_append, List.cons.injEq] at h
      exact ⟨by rw [F32.totalKey_inj _ _ h.2.1], h.2.2⟩
    | f64 _ => simp [Number.code] at h
  | f64 v =>
    cases b with
    | int t' v' =>
      have := rank_int_lt t' v'
      simp only [Number.code, List.cons_append, List.nil_append, List.cons.injEq] at h; omega
    | f64 w =>
      simp only [Number.code, List.cons_append, List.nil_append, List.cons.injEq] at h
      exact ⟨by rw [F64.totalKey_inj _ _ h.2.1], h.2.2⟩
    | f32 _ => simp [Number.code] at h

/-- The code of a list of naturals. -/
def natsCode : List Nat → List Int
  | [] => [0]
  | a :: as => 1 :: (a : Int) :: natsCode as

mutual
/-- The code of a value. -/
def Value.code : Value → List Int
  | .bool b => [0, b.toNat]
  | .char c => [1, c.toNat]
  | .map m => 2 :: entriesCode m
  | .num n => 3 :: n.code
  | .none => [4, 0]
  | .some v => 4 :: 1 :: Value.code v
  | .str t => 5 :: natsCode (t.map Char.toNat)
  | .bytes b => 6 :: natsCode (b.map UInt8.toNat)
  | .seq vs => 7 :: valuesCode vs
  | .unit => [8]
/-- The code of a list of values. -/
def valuesCode : List Value → List Int
  | [] => [0]
  | a :: as => 1 :: (Value.code a ++ valuesCode as)
/-- The code of a list of entries. -/
def entriesCode : List (Value × Value) → List Int
  | [] => [0]
  | (k, v) :: m => 1 :: (Value.code k ++ (Value.code v ++ entriesCode m))
end

theorem text_code (a b : Text) (x y : List Int) :
    lexCmp (natsCode (a.map Char.toNat) ++ x) (natsCode (b.map Char.toNat) ++ y) = (cmpText a b).then (lexCmp x y) := by
  induction a generalizing b with
  | nil => cases b <;> simp [natsCode, lexCmp, cmpText, compare_int, Ordering.then]
  | cons c a ih =>
    cases b with
    | nil => simp [natsCode, lexCmp, cmpText, compare_int, Ordering.then]
    | cons d b =>
      simp only [List.map_cons, natsCode, List.cons_append, lexCmp, ih b, cmpText, natCmp, then_assoc']
      simp [compare_int]

theorem bytes_code (a b : List UInt8) (x y : List Int) :
    lexCmp (natsCode (a.map UInt8.toNat) ++ x) (natsCode (b.map UInt8.toNat) ++ y) = (cmpBytes a b).then (lexCmp x y) := by
  induction a generalizing b with
  | nil => cases b <;> simp [natsCode, lexCmp, cmpBytes, compare_int, Ordering.then]
  | cons c a ih =>
    cases b with
    | nil => simp [natsCode, lexCmp, cmpBytes, compare_int, Ordering.then]
    | cons d b =>
      simp only [List.map_cons, natsCode, List.cons_append, lexCmp, ih b, cmpBytes, natCmp, then_assoc']
      simp [compare_int]

theorem then_eq' (a : Ordering) : Ordering.eq.then a = a := rfl
theorem then_lt' (a : Ordering) : Ordering.lt.then a = .lt := rfl
theorem then_gt' (a : Ordering) : Ordering.gt.then a = .gt := rfl
theorem compare_self' (a : Int) : compare a a = .eq := Std.ReflCmp.compare_self

mutual
theorem Value.cmp_code (a b : Value) (x y : List Int) :
    lexCmp (a.code ++ x) (b.code ++ y) = (a.cmp b).then (lexCmp x y) := by
  cases a with
  | bool p =>
    cases b with
    | bool q => simp only [Value.code, Value.cmp, List.cons_append, List.nil_append, lexCmp, natCmp, compare_self', then_eq']
    | _ => simp [Value.code, Value.cmp, lexCmp, Value.rank, compare_int, compare_nat, then_lt', then_gt']
  | char p =>
    cases b with
    | char q => simp only [Value.code, Value.cmp, List.cons_append, List.nil_append, lexCmp, natCmp, compare_self', then_eq']
    | _ => simp [Value.code, Value.cmp, lexCmp, Value.rank, compare_int, compare_nat, then_lt', then_gt']
  | map p =>
    cases b with
    | map q => simp only [Value.code, Value.cmp, List.cons_append, lexCmp, compare_self', then_eq', cmpEntries_code p q]
    | _ => simp [Value.code, Value.cmp, lexCmp, Value.rank, compare_int, compare_nat, then_lt', then_gt']
  | num p =>
    cases b with
    | num q => simp only [Value.code, Value.cmp, List.cons_append, lexCmp, compare_self', then_eq', Number.cmp_code]
    | _ => simp [Value.code, Value.cmp, lexCmp, Value.rank, compare_int, compare_nat, then_lt', then_gt']
  | none => cases b <;> simp [Value.code, Value.cmp, lexCmp, Value.rank, compare_int, compare_nat, then_lt', then_gt', then_eq']
  | some p =>
    cases b with
    | some q => simp only [Value.code, Value.cmp, List.cons_append, lexCmp, compare_self', then_eq', Value.cmp_code p q]
    | _ => simp [Value.code, Value.cmp, lexCmp, Value.rank, compare_int, compare_nat, then_lt', then_gt', then_eq']
  | str p =>
    cases b with
    | str q => simp only [Value.code, Value.cmp, List.cons_append, lexCmp, compare_self', then_eq', text_code p q]
    | _ => simp [Value.code, Value.cmp, lexCmp, Value.rank, compare_int, compare_nat, then_lt', then_gt', then_eq']
  | bytes p =>
    cases b with
    | bytes q => simp only [Value.code, Value.cmp, List.cons_append, lexCmp, compare_self', then_eq', bytes_code p q]
    | _ => simp [Value.code, Value.cmp, lexCmp, Value.rank, compare_int, compare_nat, then_lt', then_gt', then_eq']
  | seq p =>
    cases b with
    | seq q => simp only [Value.code, Value.cmp, List.cons_append, lexCmp, compare_self', then_eq', cmpValues_code p q]
    | _ => simp [Value.code, Value.cmp, lexCmp, Value.rank, compare_int, compare_nat, then_lt', then_gt', then_eq']
  | unit => cases b <;> simp [Value.code, Value.cmp, lexCmp, Value.rank, compare_int, compare_nat, then_lt', then_gt', then_eq']
theorem cmpValues_code (a b : List Value) (x y : List Int) :
    lexCmp (valuesCode a ++ x) (valuesCode b ++ y) = (cmpValues a b).then (lexCmp x y) := by
  cases a with
  | nil => cases b <;> simp [valuesCode, cmpValues, lexCmp, compare_int, then_lt', then_gt', then_eq']
  | cons p a =>
    cases b with
    | nil => simp [valuesCode, cmpValues, lexCmp, compare_int, then_lt', then_gt', then_eq']
    | cons q b =>
      simp only [valuesCode, cmpValues, List.cons_append, List.append_assoc, lexCmp, compare_self', then_eq',
        Value.cmp_code p q, cmpValues_code a b, then_assoc']
theorem cmpEntries_code (a b : List (Value × Value)) (x y : List Int) :
    lexCmp (entriesCode a ++ x) (entriesCode b ++ y) = (cmpEntries a b).then (lexCmp x y) := by
  cases a with
  | nil => cases b <;> simp [entriesCode, cmpEntries, lexCmp, compare_int, then_lt', then_gt', then_eq']
  | cons p a =>
    obtain ⟨pk, pv⟩ := p
    cases b with
    | nil => simp [entriesCode, cmpEntries, lexCmp, compare_int, then_lt', then_gt', then_eq']
    | cons q b =>
      obtain ⟨qk, qv⟩ := q
      simp only [entriesCode, cmpEntries, List.cons_append, List.append_assoc, lexCmp, compare_self', then_eq',
        Value.cmp_code pk qk, Value.cmp_code pv qv, cmpEntries_code a b, then_assoc']
end

theorem then_eq_iff (a b : Ordering) : a.then b = .eq ↔ a = .eq ∧ b = .eq := by cases a <;> simp [Ordering.then]

theorem compare_nat_eq {x y : Nat} (h : compare x y = .eq) : x = y := by
  rw [compare_nat] at h; split at h <;> simp_all

theorem Number.cmp_refl (a : Number) : a.cmp a = .eq := by
  cases a <;> simp [Number.cmp, compare_nat, compare_int]

theorem Number.cmp_eq {a b : Number} (h : a.cmp b = .eq) : a = b := by
  have := Number.cmp_code a b [] []
  simp only [List.append_nil, h, lexCmp, then_eq'] at this
  have hh : ∀ x y, lexCmp x y = .eq → x = y := by
    intro x
    induction x with
    | nil => intro y; cases y <;> simp [lexCmp]
    | cons c x ih =>
      intro y
      cases y with
      | nil => simp [lexCmp]
      | cons d y =>
        simp only [lexCmp, then_eq_iff]
        rintro ⟨h1, h2⟩
        rw [ih _ h2, compare_eq_of_key (f := id) (fun _ _ h => h) h1]
  exact (Number.code_inj a b [] [] (by simpa using hh _ _ this)).1

theorem cmpText_eq {a b : Text} (h : cmpText a b = .eq) : a = b := by
  induction a generalizing b with
  | nil => cases b <;> simp [cmpText] at h ⊢
  | cons c a ih =>
    cases b with
    | nil => simp [cmpText] at h
    | cons d b =>
      rw [cmpText, then_eq_iff] at h
      rw [ih h.2, Char.toNat_inj.1 (compare_nat_eq h.1)]

theorem cmpBytes_eq {a b : List UInt8} (h : cmpBytes a b = .eq) : a = b := by
  induction a generalizing b with
  | nil => cases b <;> simp [cmpBytes] at h ⊢
  | cons c a ih =>
    cases b with
    | nil => simp [cmpBytes] at h
    | cons d b =>
      rw [cmpBytes, then_eq_iff] at h
      rw [ih h.2, UInt8.toNat_inj.1 (compare_nat_eq h.1)]

mutual
theorem Value.cmp_eq {a b : Value} (h : a.cmp b = .eq) : a = b := by
  cases a with
  | bool p =>
    cases b with
    | bool q => rw [Value.cmp] at h; have := compare_nat_eq h; cases p <;> cases q <;> simp_all
    | _ => simp [Value.cmp, Value.rank, compare_nat] at h
  | char p =>
    cases b with
    | char q => rw [Value.cmp] at h; rw [Char.toNat_inj.1 (compare_nat_eq h)]
    | _ => simp [Value.cmp, Value.rank, compare_nat] at h
  | map p =>
    cases b with
    | map q => rw [Value.cmp] at h; rw [cmpEntries_eq h]
    | _ => simp [Value.cmp, Value.rank, compare_nat] at h
  | num p =>
    cases b with
    | num q => rw [Value.cmp] at h; rw [Number.cmp_eq h]
    | _ => simp [Value.cmp, Value.rank, compare_nat] at h
  | none => cases b <;> first | rfl | simp [Value.cmp, Value.rank, compare_nat] at h
  | some p =>
    cases b with
    | some q => rw [Value.cmp] at h; rw [Value.cmp_eq h]
    | _ => simp [Value.cmp, Value.rank, compare_nat] at h
  | str p =>
    cases b with
    | str q => rw [Value.cmp] at h; rw [cmpText_eq h]
    | _ => simp [Value.cmp, Value.rank, compare_nat] at h
  | bytes p =>
    cases b with
    | bytes q => rw [Value.cmp] at h; rw [cmpBytes_eq h]
    | _ => simp [Value.cmp, Value.rank, compare_nat] at h
  | seq p =>
    cases b with
    | seq q => rw [Value.cmp] at h; rw [cmpValues_eq h]
    | _ => simp [Value.cmp, Value.rank, compare_nat] at h
  | unit => cases b <;> first | rfl | simp [Value.cmp, Value.rank, compare_nat] at h
theorem cmpValues_eq {a b : List Value} (h : cmpValues a b = .eq) : a = b := by
  cases a with
  | nil => cases b <;> simp [cmpValues] at h ⊢
  | cons p a =>
    cases b with
    | nil => simp [cmpValues] at h
    | cons q b =>
      rw [cmpValues, then_eq_iff] at h
      rw [Value.cmp_eq h.1, cmpValues_eq h.2]
theorem cmpEntries_eq {a b : List (Value × Value)} (h : cmpEntries a b = .eq) : a = b := by
  cases a with
  | nil => cases b <;> simp [cmpEntries] at h ⊢
  | cons p a =>
    obtain ⟨pk, pv⟩ := p
    cases b with
    | nil => simp [cmpEntries] at h
    | cons q b =>
      obtain ⟨qk, qv⟩ := q
      rw [cmpEntries, then_eq_iff, then_eq_iff] at h
      rw [Value.cmp_eq h.1.1, Value.cmp_eq h.1.2, cmpEntries_eq h.2]
end

theorem Value.cmp_lex (a b : Value) : a.cmp b = lexCmp a.code b.code := by
  have := Value.cmp_code a b [] []
  simp only [List.append_nil, lexCmp] at this
  rw [this]; cases a.cmp b <;> rfl

theorem Number.cmp_lex (a b : Number) : a.cmp b = lexCmp a.code b.code := by
  have := Number.cmp_code a b [] []
  simp only [List.append_nil, lexCmp] at this
  rw [this]; cases a.cmp b <;> rfl

theorem Value.cmp_refl (a : Value) : a.cmp a = .eq := by rw [Value.cmp_lex, lexCmp_refl]
theorem Value.cmp_swap (a b : Value) : b.cmp a = (a.cmp b).swap := by rw [Value.cmp_lex, Value.cmp_lex, lexCmp_swap]
theorem Value.cmp_trans (a b c : Value) (h1 : a.cmp b ≠ .gt) (h2 : b.cmp c ≠ .gt) : a.cmp c ≠ .gt := by
  rw [Value.cmp_lex] at *; exact lexCmp_trans _ _ _ h1 h2
theorem Number.cmp_swap (a b : Number) : b.cmp a = (a.cmp b).swap := by rw [Number.cmp_lex, Number.cmp_lex, lexCmp_swap]
theorem Number.cmp_trans (a b c : Number) (h1 : a.cmp b ≠ .gt) (h2 : b.cmp c ≠ .gt) : a.cmp c ≠ .gt := by
  rw [Number.cmp_lex] at *; exact lexCmp_trans _ _ _ h1 h2

theorem Value.cmp_eq_iff (a b : Value) : a.cmp b = .eq ↔ a = b :=
  ⟨Value.cmp_eq, fun h => h ▸ Value.cmp_refl a⟩
theorem Number.cmp_eq_iff (a b : Number) : a.cmp b = .eq ↔ a = b :=
  ⟨Number.cmp_eq, fun h => h ▸ Number.cmp_refl a⟩

theorem Value.cmp_gt_iff (a b : Value) : a.cmp b = .gt ↔ b.cmp a = .lt := by
  rw [Value.cmp_swap b a]; cases b.cmp a <;> simp [Ordering.swap]

theorem Value.lt_trans {a b c : Value} (h1 : a.cmp b = .lt) (h2 : b.cmp c = .lt) : a.cmp c = .lt := by
  have := Value.cmp_trans a b c (by simp [h1]) (by simp [h2])
  cases h : a.cmp c with
  | lt => rfl
  | gt => exact absurd h this
  | eq =>
    have := Value.cmp_eq h; subst this
    rw [Value.cmp_swap, h1] at h2; simp [Ordering.swap] at h2

theorem Number.eqv_iff (a b : Number) : a.eqv b = true ↔ a = b := by
  cases a <;> cases b <;> simp [Number.eqv]
  · exact ⟨fun h => F32.totalKey_inj _ _ h, fun h => by rw [h]⟩
  · exact ⟨fun h => F64.totalKey_inj _ _ h, fun h => by rw [h]⟩

mutual
theorem Value.eqv_refl (a : Value) : a.eqv a = true := by
  cases a with
  | map m => 
    have := Value.cmp_refl (.map m)
    rw [Value.cmp] at this
    simp [Value.eqv, this, Ordering.isEq]
  | num n => rw [Value.eqv]; exact (Number.eqv_iff n n).2 rfl
  | some v => rw [Value.eqv]; exact Value.eqv_refl v
  | seq vs => rw [Value.eqv]; exact eqvValues_refl vs
  | _ => simp [Value.eqv]
theorem eqvValues_refl (a : List Value) : eqvValues a a = true := by
  cases a with
  | nil => rfl
  | cons v a => rw [eqvValues, Value.eqv_refl v, eqvValues_refl a]; rfl
end

mutual
theorem Value.eqv_eq {a b : Value} (h : a.eqv b = true) : a = b := by
  cases a with
  | some p =>
    cases b with
    | some q => rw [Value.eqv] at h; rw [Value.eqv_eq h]
    | _ => simp [Value.eqv] at h
  | seq p =>
    cases b with
    | seq q => rw [Value.eqv] at h; rw [eqvValues_eq h]
    | _ => simp [Value.eqv] at h
  | map p =>
    cases b with
    | map q => rw [Value.eqv, Ordering.isEq_iff_eq_eq] at h; rw [cmpEntries_eq h]
    | _ => simp [Value.eqv] at h
  | num p =>
    cases b with
    | num q => rw [Value.eqv, Number.eqv_iff] at h; rw [h]
    | _ => simp [Value.eqv] at h
  | _ => cases b <;> simp_all [Value.eqv]
theorem eqvValues_eq {a b : List Value} (h : eqvValues a b = true) : a = b := by
  cases a with
  | nil => cases b <;> simp [eqvValues] at h ⊢
  | cons p a =>
    cases b with
    | nil => simp [eqvValues] at h
    | cons q b =>
      rw [eqvValues, Bool.and_eq_true] at h
      rw [Value.eqv_eq h.1, eqvValues_eq h.2]
end

theorem Value.eqv_iff (a b : Value) : a.eqv b = true ↔ a = b := ⟨Value.eqv_eq, fun h => h ▸ Value.eqv_refl a⟩

end Ron
