import Verif.Spec.SelfDesc
import Verif.Lemmas.SerMain
/-! Typed text is self-describing text. -/

set_option linter.unusedSimpArgs false

namespace Ron

variable [Env]

/-! ### Monotonicity -/

omit [Env] in
theorem All2.imp {α β : Type} {R S : α → β → Prop} (h : ∀ a b, R a b → S a b) :
    ∀ {as : List α} {bs : List β}, All2 R as bs → All2 S as bs
  | [], [], _ => trivial
  | _ :: _, _ :: _, ⟨h1, h2⟩ => ⟨h _ _ h1, All2.imp h h2⟩
  | [], _ :: _, h => h.elim
  | _ :: _, [], h => h.elim

omit [Env] in
theorem All2.imp_mem {α β : Type} {R S : α → β → Prop} : ∀ {as : List α} {bs : List β},
    (∀ a ∈ as, ∀ b, R a b → S a b) → All2 R as bs → All2 S as bs
  | [], [], _, _ => trivial
  | _ :: _, _ :: _, h, ⟨h1, h2⟩ => ⟨h _ (by simp) _ h1, All2.imp_mem (fun a ha => h a (by simp [ha])) h2⟩
  | [], _ :: _, _, h => h.elim
  | _ :: _, [], _, h => h.elim

theorem Level.imp {S D E S' D' E' : Text → Value → Prop} (hs : ∀ t v, S t v → S' t v) (hd : ∀ t v, D t v → D' t v) (he : ∀ t v, E t v → E' t v)
    {w : Text} {v : Value} (h : Level S D E w v) : Level S' D' E' w v := by
  cases h with
  | scalar h => exact .scalar (hs _ _ h)
  | some h1 h2 h3 h4 => exact .some h1 h2 (hd _ _ h3) h4
  | seq h1 h2 => exact .seq (h1.imp he) h2
  | map h1 h2 => exact .map (h1.imp fun _ _ ⟨k, v, h3, h4, h5⟩ => ⟨k, v, he _ _ h3, he _ _ h4, h5⟩) h2
  | tuple h1 h2 h3 h4 => exact .tuple h1 (h2.imp he) h3 h4
  | struct h1 h2 h3 h4 => exact .struct h1 h2 (h3.imp fun _ _ ⟨k, v, h5, h6, h7⟩ => ⟨k, v, h5, he _ _ h6, h7⟩) h4

theorem den_succ {S : Text → Value → Prop} : ∀ {n : Nat} {w : Text} {v : Value}, Gram S n w v → Gram S (n + 1) w v
  | 0, _, _, h => .scalar h
  | 1, _, _, h => Level.imp (fun _ _ h => h) (fun _ _ h => den_succ (n := 0) h) (fun _ _ h => h.elim) h
  | n + 2, _, _, h => Level.imp (fun _ _ h => h) (fun _ _ h => den_succ (n := n + 1) h) (fun _ _ h => den_succ (n := n) h) h

theorem den_mono {S : Text → Value → Prop} {n m : Nat} (h : n ≤ m) {w : Text} {v : Value} (hd : Gram S n w v) : Gram S m w v := by
  induction h with
  | refl => exact hd
  | step _ ih => exact den_succ ih

omit [Env] in
theorem body_mem {ts : List Text} {u : Text} (h : Body ts u) : ∀ t ∈ ts, t.length ≤ u.length := by
  induction h with
  | one => simp
  | cons _ _ _ ih =>
    intro t ht
    simp only [List.length_append, List.length_cons]
    rcases List.mem_cons.mp ht with rfl | ht
    · omega
    · have := ih t ht; omega

omit [Env] in
theorem delim_mem {o c : Char} {ts : List Text} {w : Text} (h : Delim o c ts w) : 2 ≤ w.length ∧ ∀ t ∈ ts, t.length + 2 ≤ w.length := by
  cases h with
  | nil _ => simp
  | items _ h2 _ =>
    refine ⟨by simp; omega, fun t ht => ?_⟩
    have := body_mem h2 t ht
    simp; omega

omit [Env] in
theorem entry_length {k v e : Text} (h : Entry k v e) : k.length ≤ e.length ∧ v.length ≤ e.length := by
  cases h; simp; omega

/-- A family of languages that grows with its index and is closed under the grammar. -/
theorem level_length_of {S D E : Text → Value → Prop} {G : Nat → Text → Value → Prop} (h0 : ∀ t v, S t v → G 0 t v)
    (hm : ∀ {n m : Nat} {t : Text} {v : Value}, n ≤ m → G n t v → G m t v)
    (h2 : ∀ m t v, Level S (G (m + 1)) (G m) t v → G (m + 2) t v) (hd : ∀ t v, D t v → G t.length t v)
    (he : ∀ t v, E t v → G t.length t v)
    {w : Text} {v : Value} (h : Level S D E w v) : G w.length w v := by
  have key : ∀ m, (∀ t v, D t v → t.length ≤ m + 1 → G (m + 1) t v) ∧ (∀ t v, E t v → t.length ≤ m → G m t v) :=
    fun m => ⟨fun t v h hl => hm hl (hd t v h), fun t v h hl => hm hl (he t v h)⟩
  cases h with
  | scalar h => exact hm (Nat.zero_le _) (h0 _ _ h)
  | @some l a t b v h1 h5 h3 h4 =>
    generalize hw : (c!"Some" ++ (l ++ '(' :: (a ++ (t ++ (b ++ [')']))))) = w
    have hlen : w.length = (w.length - 2) + 2 ∧ t.length ≤ w.length - 2 + 1 := by
      have : w.length = 4 + (l.length + 1 + a.length + t.length + b.length + 1) := by rw [← hw]; simp; omega
      omega
    rw [hlen.1, ← hw]
    rw [hw]
    have := Level.some (S := S) (E := G (w.length - 2)) h1 h5 ((key (w.length - 2)).1 _ _ h3 hlen.2) h4
    rw [hw] at this
    exact h2 _ _ _ this
  | @seq ts vs w h1 h3 =>
    obtain ⟨g1, g2⟩ := delim_mem h3
    have e : w.length = (w.length - 2) + 2 := by omega
    rw [e]
    refine h2 _ _ _ (Level.seq (All2.imp_mem (fun t ht v hv => (key _).2 t v hv (by have := g2 t ht; omega)) h1) h3)
  | @map es kvs w h1 h3 =>
    obtain ⟨g1, g2⟩ := delim_mem h3
    have e : w.length = (w.length - 2) + 2 := by omega
    rw [e]
    refine h2 _ _ _ (Level.map (All2.imp_mem (fun t ht v hv => ?_) h1) h3)
    obtain ⟨k, x, hk, hx, hen⟩ := hv
    have := g2 t ht
    have := entry_length hen
    exact ⟨k, x, (key _).2 _ _ hk (by omega), (key _).2 _ _ hx (by omega), hen⟩
  | @tuple p w ts vs hp h1 h3 h4 =>
    obtain ⟨g1, g2⟩ := delim_mem h3
    have hl : (p ++ w).length = p.length + w.length := by simp
    have e : (p ++ w).length = ((p ++ w).length - 2) + 2 := by omega
    rw [e]
    exact h2 _ _ _ (Level.tuple hp (All2.imp_mem (fun t ht v hv => (key _).2 t v hv (by have := g2 t ht; omega)) h1) h3 h4)
  | @struct p w es fs hp hne h1 h3 =>
    obtain ⟨g1, g2⟩ := delim_mem h3
    have hl : (p ++ w).length = p.length + w.length := by simp
    have e : (p ++ w).length = ((p ++ w).length - 2) + 2 := by omega
    rw [e]
    refine h2 _ _ _ (Level.struct hp hne (All2.imp_mem (fun t ht v hv => ?_) h1) h3)
    obtain ⟨k, x, hk, hx, hen⟩ := hv
    have := g2 t ht
    have := entry_length hen
    exact ⟨k, x, hk, (key _).2 _ _ hx (by omega), hen⟩

theorem level_length {S D E : Text → Value → Prop} (hd : ∀ t v, D t v → Gram S t.length t v)
    (he : ∀ t v, E t v → Gram S t.length t v)
    {w : Text} {v : Value} (h : Level S D E w v) : Gram S w.length w v :=
  level_length_of (G := Gram S) (fun _ _ h => h) (fun hl h => den_mono hl h) (fun _ _ _ h => h) hd he h

/-- The budget is bounded by the length of the text. -/
theorem den_length {S : Text → Value → Prop} : ∀ {n : Nat} {w : Text} {v : Value}, Gram S n w v → Gram S w.length w v
  | 0, _, _, h => den_mono (Nat.zero_le _) (show Gram S 0 _ _ from h)
  | 1, _, _, h => level_length (fun _ _ h => den_length (n := 0) h) (fun _ _ h => h.elim) h
  | n + 2, _, _, h => level_length (fun _ _ h => den_length (n := n + 1) h) (fun _ _ h => den_length (n := n) h) h

/-! ### Compound values from elements -/

/-- Elements of a compound value with budget `m`. -/
def ElemOf : Nat → Text → Value → Prop
  | 0 => fun _ _ => False
  | 1 => fun _ _ => False
  | m + 2 => Den m

theorem den_eq (m : Nat) : Den (m + 1) = Level Scalar (Den m) (ElemOf (m + 1)) := by cases m <;> rfl

theorem elemOf_mono {n m : Nat} (h : n ≤ m) {w : Text} {v : Value} (hd : ElemOf n w v) : ElemOf m w v := by
  match n, m, h, hd with
  | n + 2, m + 2, h, hd => exact den_mono (by omega) hd
  | 0, _, _, hd => exact hd.elim
  | 1, _, _, hd => exact hd.elim
  | _ + 2, 0, h, _ => omega
  | _ + 2, 1, h, _ => omega

theorem den_compound {m : Nat} (hm : 1 ≤ m) {w : Text} {v : Value} (h : Level Scalar (Den (m - 1)) (ElemOf m) w v) : Den m w v := by
  cases m with
  | zero => omega
  | succ m => rw [den_eq]; exact h

/-- Texts of the grammar are not empty. -/
theorem den_ne {n : Nat} {w : Text} {v : Value} (h : Den n w v) : w ≠ [] :=
  (den_reads (x := {}) rfl n (n + 1) (by omega) w v h).1.1.ne

theorem elemOf_ne {n : Nat} {w : Text} {v : Value} (h : ElemOf n w v) : w ≠ [] := by
  match n, h with
  | n + 2, h => exact den_ne h
  | 0, h => exact h.elim
  | 1, h => exact h.elim

omit [Env] in
theorem delim_unit {ts : List Text} (h : Delim '(' ')' ts c!"()") : ts = [] ∨ ts = [[]] := by
  generalize hw : c!"()" = w at h
  cases h with
  | nil _ => exact .inl rfl
  | @items a u t ts _ h2 _ =>
    right
    have hl := congrArg List.length hw
    simp at hl
    have hu : u = [] := List.length_eq_zero_iff.mp (by omega)
    subst hu
    generalize hu : ([] : Text) = u at h2
    cases h2 with
    | one => rw [← hu]
    | cons => simp at hu

theorem den_tuple {m : Nat} (hm : 1 ≤ m) {p q : Text} {ts : List Text} {Vs : List Value} (hp : Prefix p)
    (h1 : All2 (ElemOf m) ts Vs) (h2 : Delim '(' ')' ts q) :
    Den m (p ++ q) (.seq Vs) ∨ (p = [] ∧ ts = [] ∧ Den m (p ++ q) .unit) := by
  by_cases hw : p ++ q = c!"()"
  · have hq := (delim_mem h2).1
    have hl := congrArg List.length hw
    simp at hl
    have hp0 : p = [] := List.length_eq_zero_iff.mp (by omega)
    subst hp0
    simp only [List.nil_append] at hw
    subst hw
    rcases delim_unit h2 with rfl | rfl
    · exact .inr ⟨rfl, rfl, den_compound hm (.scalar .unit)⟩
    · cases Vs with
      | nil => exact h1.elim
      | cons V Vs => exact absurd rfl (elemOf_ne h1.1)
  · exact .inl (den_compound hm (.tuple hp h1 h2 hw))

theorem optName_prefix {x : Exts} {name p : Text} (h : OptName x name p) : Prefix p := by
  rcases h with ⟨-, rfl⟩ | ⟨tok, l, h1, h2, rfl⟩
  · exact .none
  · exact .name h1 h2
theorem optNameTight_prefix {x : Exts} {name p : Text} (h : OptNameTight x name p) : Prefix p := by
  rcases h with ⟨-, rfl⟩ | h1
  · exact .none
  · simpa using Prefix.name h1 .nil

omit [Env] in
theorem paren_delim {R : Text → Prop} {w : Text} (h : Paren R w) : ∃ t, R t ∧ Delim '(' ')' [t] w := by
  obtain ⟨a, t, b, h1, h2, h3, rfl⟩ := h
  exact ⟨t, h2, .items h1 .one h3.1⟩

omit [Env] in
theorem levelsAll_pos (x : Exts) : ∀ vs, 1 ≤ levelsAll x vs
  | [] => by simp [levelsAll]
  | v :: vs => by simp only [levelsAll]; omega
omit [Env] in
theorem levelsEntries_pos (x : Exts) : ∀ vs, 1 ≤ levelsEntries x vs
  | [] => by simp [levelsEntries]
  | (k, v) :: vs => by simp only [levelsEntries]; omega
omit [Env] in
theorem levelsFields_pos (x : Exts) : ∀ vs, 1 ≤ levelsFields x vs
  | [] => by simp [levelsFields]
  | (k, v) :: vs => by simp only [levelsFields]; omega

/-! ### Typed text is self-describing text -/

/-- One element in parentheses. -/
theorem den_newtype {n : Nat} {p q t : Text} {V : Value} (hp : Prefix p) (h : Den n t V) (hd : Delim '(' ')' [t] q) :
    Den (n + 2) (p ++ q) (.seq [V]) := by
  rcases den_tuple (m := n + 2) (by omega) hp (ts := [t]) (Vs := [V]) ⟨h, trivial⟩ hd with h | ⟨-, h, -⟩
  · exact h
  · cases h

theorem scalar_den {w : Text} {v : Value} (h : Scalar w v) : ∀ n, Den n w v
  | 0 => h
  | 1 => .scalar h
  | _ + 2 => .scalar h

/-- A range reads as the map of its bounds. -/
theorem range_den {x : Exts} {sfx : Bool} {name w : Text} {fs : List (Text × SVal)} (h : RangeRend sfx name fs w) :
    ∃ V, SelfDesc x sfx (.struct name fs) V ∧ Den (SVal.levels x (.struct name fs)) w V := by
  obtain ⟨es, rfl, h1, h2⟩ := h
  refine ⟨_, ?_, scalar_den (.range h1 fun e he => ⟨(h2 e he).1, (h2 e he).2.1⟩) _⟩
  simp only [SelfDesc]
  refine .inl ⟨?_, _, ?_, rfl⟩
  · cases h1 <;> simp
  · have : ∀ es : List (Text × Number), SelfDescFields x sfx (es.map fun e => (e.1, SVal.num e.2))
        (es.map fun e => (.str e.1, .num (if sfx then e.2.canon else e.2.untyped))) := by
      intro es
      induction es with
      | nil => trivial
      | cons e es ih => exact ⟨⟨rfl, rfl⟩, ih⟩
    exact this es

mutual
theorem rend_den {x : Exts} (hx : x.unwrapVariantNewtypes = false) {sfx : Bool} :
    ∀ (v : SVal) {w : Text}, Rend x sfx false v w → ∃ V, SelfDesc x sfx v V ∧ Den (v.levels x) w V
  | .bool b, w, h => by
    simp only [Rend] at h
    subst h
    refine ⟨.bool b, by simp [SelfDesc], ?_⟩
    cases b
    · exact Scalar.false
    · exact Scalar.true
  | .num n, w, h => by
    simp only [Rend] at h
    obtain ⟨h1, rfl⟩ := h
    refine ⟨_, by simp only [SelfDesc]; rfl, ?_⟩
    cases sfx
    · exact Scalar.untyped h1
    · exact Scalar.typed h1
  | .char c, w, h => by
    simp only [Rend] at h
    subst h
    exact ⟨.char c, by simp [SelfDesc], Scalar.char⟩
  | .str t, w, h => by
    simp only [Rend] at h
    exact ⟨.str t, by simp [SelfDesc], Scalar.str h⟩
  | .bytes t, w, h => by
    simp only [Rend] at h
    exact ⟨.bytes t, by simp [SelfDesc], Scalar.bytes h⟩
  | .none, w, h => by
    simp only [Rend] at h
    subst h
    exact ⟨.none, by simp [SelfDesc], Scalar.none⟩
  | .some v, w, h => by
    simp only [Rend, hx] at h
    rcases h with ⟨l, p, hl, ⟨a, t, b, h1, h2, h3, rfl⟩, rfl⟩ | ⟨hi, h, -⟩
    · obtain ⟨V, g1, g2⟩ := rend_den hx v h2
      refine ⟨.some V, by simp only [SelfDesc]; exact .inl ⟨V, g1, rfl⟩, ?_⟩
      simp only [SVal.levels]
      rw [den_eq]
      exact .some hl h1 g2 h3.1
    · obtain ⟨V, g1, g2⟩ := rend_den hx v h
      exact ⟨V, by simp only [SelfDesc]; exact .inr ⟨hi, g1⟩, den_succ g2⟩
  | .unit, w, h => by
    simp only [Rend] at h
    subst h
    exact ⟨.unit, by simp [SelfDesc], Scalar.unit⟩
  | .unitStruct name, w, h => by
    simp only [Rend, Bool.false_eq_true, ↓reduceIte] at h
    refine ⟨.unit, by simp [SelfDesc], ?_⟩
    rcases h with (⟨-, rfl⟩ | h) | ⟨-, rfl⟩
    · exact Scalar.unit
    · exact Scalar.name h
    · exact Scalar.full
  | .unitVariant e v, w, h => by
    simp only [Rend] at h
    exact ⟨.unit, by simp [SelfDesc], Scalar.name h⟩
  | .newtypeStruct name v, w, h => by
    simp only [Rend, Bool.or_false] at h
    simp only [SVal.levels, SelfDesc]
    split at h
    · rename_i hu
      simp only [hu, ↓reduceIte]
      exact rend_den hx v h
    · rename_i hu
      simp only [hu, ↓reduceIte]
      obtain ⟨p, q, h1, h2, rfl⟩ := h
      obtain ⟨t, h3, h4⟩ := paren_delim h2
      obtain ⟨V, g1, g2⟩ := rend_den hx v h3
      exact ⟨.seq [V], ⟨V, g1, rfl⟩, den_newtype (optName_prefix h1) g2 h4⟩
  | .newtypeVariant e n v, w, h => by
    simp only [Rend, hx] at h
    obtain ⟨k, l, p, h1, h2, h3, rfl⟩ := h
    obtain ⟨t, h4, h5⟩ := paren_delim h3
    obtain ⟨V, g1, g2⟩ := rend_den hx v h4
    refine ⟨.seq [V], by simp only [SelfDesc]; exact ⟨V, g1, rfl⟩, ?_⟩
    have := den_newtype (.name h1 h2) g2 h5
    simpa [SVal.levels] using this
  | .seq n vs, w, h => by
    simp only [Rend] at h
    obtain ⟨ts, h1, h2⟩ := h
    obtain ⟨Vs, g1, g2⟩ := rendAll_den hx vs h1
    refine ⟨.seq Vs, by simp only [SelfDesc]; exact ⟨Vs, g1, rfl⟩, ?_⟩
    simp only [SVal.levels]
    exact den_compound (levelsAll_pos x vs) (.seq g2 h2)
  | .tuple vs, w, h => by
    simp only [Rend, Bool.false_eq_true, ↓reduceIte] at h
    obtain ⟨ts, h1, h2⟩ := h
    obtain ⟨Vs, g1, g2⟩ := rendAll_den hx vs h1
    simp only [SVal.levels, SelfDesc]
    rcases den_tuple (levelsAll_pos x vs) .none g2 h2 with h | ⟨-, rfl, h⟩
    · exact ⟨.seq Vs, .inl ⟨Vs, g1, rfl⟩, h⟩
    · refine ⟨.unit, .inr ⟨?_, rfl⟩, h⟩
      cases vs with
      | nil => rfl
      | cons => exact h1.elim
  | .tupleStruct name vs, w, h => by
    simp only [Rend, Bool.false_eq_true, ↓reduceIte] at h
    obtain ⟨ts, h1, p, q, h3, h2, rfl⟩ := h
    obtain ⟨Vs, g1, g2⟩ := rendAll_den hx vs h1
    simp only [SVal.levels, SelfDesc]
    rcases den_tuple (levelsAll_pos x vs) (optNameTight_prefix h3) g2 h2 with h | ⟨-, rfl, h⟩
    · exact ⟨.seq Vs, .inl ⟨Vs, g1, rfl⟩, h⟩
    · refine ⟨.unit, .inr ⟨?_, rfl⟩, h⟩
      cases vs with
      | nil => rfl
      | cons => exact h1.elim
  | .tupleVariant e n vs, w, h => by
    simp only [Rend] at h
    obtain ⟨ts, h1, k, l, q, h3, h4, h2, rfl⟩ := h
    obtain ⟨Vs, g1, g2⟩ := rendAll_den hx vs h1
    simp only [SVal.levels, SelfDesc]
    rcases den_tuple (levelsAll_pos x vs) (.name h3 h4) g2 h2 with h | ⟨h, -⟩
    · exact ⟨.seq Vs, ⟨Vs, g1, rfl⟩, by simpa using h⟩
    · exact absurd (List.append_eq_nil_iff.mp h).1 h3.tokStart.ne
  | .map n kvs, w, h => by
    simp only [Rend] at h
    obtain ⟨ts, h1, h2⟩ := h
    obtain ⟨Vs, g1, g2⟩ := rendEntries_den hx kvs h1
    refine ⟨.map (mapOfList Vs), by simp only [SelfDesc]; exact ⟨Vs, g1, rfl⟩, ?_⟩
    simp only [SVal.levels]
    exact den_compound (levelsEntries_pos x kvs) (.map g2 h2)
  | .struct name fs, w, h => by
    simp only [Rend, Bool.false_eq_true, ↓reduceIte] at h
    rcases h with h | h
    rotate_left
    · exact range_den h
    obtain ⟨es, h1, p, q, h3, h2, rfl⟩ := h
    obtain ⟨gs, g1, g2⟩ := rendFields_den hx fs h1
    simp only [SVal.levels, SelfDesc]
    cases fs with
    | nil =>
      cases es with
      | cons => exact h1.elim
      | nil =>
        rcases den_tuple (m := levelsFields x []) (ts := []) (Vs := []) (by simp [levelsFields]) (optName_prefix h3) trivial h2 with h | ⟨-, -, h⟩
        · exact ⟨_, .inr ⟨rfl, .inr rfl⟩, h⟩
        · exact ⟨_, .inr ⟨rfl, .inl rfl⟩, h⟩
    | cons f fs =>
      refine ⟨_, .inl ⟨by simp, _, g1, rfl⟩, den_compound (levelsFields_pos x _) (.struct (optName_prefix h3) ?_ g2 h2)⟩
      rintro rfl
      obtain ⟨_, _⟩ := f
      exact g1.elim
  | .structVariant e n fs, w, h => by
    simp only [Rend] at h
    obtain ⟨es, h1, k, l, q, h3, h4, h2, rfl⟩ := h
    obtain ⟨gs, g1, g2⟩ := rendFields_den hx fs h1
    simp only [SVal.levels, SelfDesc]
    cases fs with
    | nil =>
      cases es with
      | cons => exact h1.elim
      | nil =>
        rcases den_tuple (m := levelsFields x []) (ts := []) (Vs := []) (by simp [levelsFields]) (.name h3 h4) trivial h2 with h | ⟨h, -⟩
        · exact ⟨_, .inr ⟨rfl, rfl⟩, by simpa using h⟩
        · exact absurd (List.append_eq_nil_iff.mp h).1 h3.tokStart.ne
    | cons f fs =>
      refine ⟨_, .inl ⟨by simp, _, g1, rfl⟩, ?_⟩
      rw [← List.append_assoc]
      refine den_compound (levelsFields_pos x _) (.struct (.name h3 h4) ?_ g2 h2)
      rintro rfl
      obtain ⟨_, _⟩ := f
      exact g1.elim
  | .raw _, w, h => by simp only [Rend] at h
theorem rendAll_den {x : Exts} (hx : x.unwrapVariantNewtypes = false) {sfx : Bool} :
    ∀ (vs : List SVal) {ts : List Text}, RendAll x sfx vs ts →
      ∃ Vs, SelfDescAll x sfx vs Vs ∧ All2 (ElemOf (levelsAll x vs)) ts Vs
  | [], [], _ => ⟨[], trivial, trivial⟩
  | v :: vs, t :: ts, h => by
    obtain ⟨V, h1, h2⟩ := rend_den hx v h.1
    obtain ⟨Vs, g1, g2⟩ := rendAll_den hx vs h.2
    refine ⟨V :: Vs, ⟨h1, g1⟩, ?_, g2.imp fun _ _ h => elemOf_mono (Nat.le_max_right _ _) h⟩
    exact elemOf_mono (n := v.levels x + 2) (Nat.le_max_left _ _) h2
  | [], _ :: _, h => h.elim
  | _ :: _, [], h => h.elim
theorem rendEntries_den {x : Exts} (hx : x.unwrapVariantNewtypes = false) {sfx : Bool} :
    ∀ (kvs : List (SVal × SVal)) {es : List Text}, RendEntries x sfx kvs es →
      ∃ Es, SelfDescEntries x sfx kvs Es ∧
        All2 (fun e kv => ∃ k v, ElemOf (levelsEntries x kvs) k kv.1 ∧ ElemOf (levelsEntries x kvs) v kv.2 ∧ Entry k v e) es Es
  | [], [], _ => ⟨[], trivial, trivial⟩
  | (k, v) :: kvs, t :: ts, h => by
    obtain ⟨⟨kt, vt, h1, h2, h3⟩, h4⟩ := h
    obtain ⟨K, k1, k2⟩ := rend_den hx k h1
    obtain ⟨V, v1, v2⟩ := rend_den hx v h2
    obtain ⟨Es, g1, g2⟩ := rendEntries_den hx kvs h4
    have hm : ∀ {n w V}, n ≤ max (k.levels x) (v.levels x) → Den n w V → ElemOf (levelsEntries x ((k, v) :: kvs)) w V :=
      fun hn hd => elemOf_mono (n := max (k.levels x) (v.levels x) + 2) (Nat.le_max_left _ _) (den_mono hn hd)
    refine ⟨(K, V) :: Es, ⟨⟨k1, v1⟩, g1⟩, ⟨kt, vt, hm (Nat.le_max_left _ _) k2, hm (Nat.le_max_right _ _) v2, h3⟩, ?_⟩
    refine g2.imp fun _ _ ⟨a, b, h1, h2, h3⟩ => ⟨a, b, ?_, ?_, h3⟩
    · exact elemOf_mono (Nat.le_max_right _ _) h1
    · exact elemOf_mono (Nat.le_max_right _ _) h2
  | [], _ :: _, h => h.elim
  | _ :: _, [], h => by simp [RendEntries] at h
theorem rendFields_den {x : Exts} (hx : x.unwrapVariantNewtypes = false) {sfx : Bool} :
    ∀ (fs : List (Text × SVal)) {es : List Text}, RendFields x sfx fs es →
      ∃ gs : List (Text × Value), SelfDescFields x sfx fs (gs.map fun f => (.str f.1, f.2)) ∧
        All2 (fun e f => ∃ k v, KeyTok f.1 k ∧ ElemOf (levelsFields x fs) v f.2 ∧ Entry k v e) es gs
  | [], [], _ => ⟨[], trivial, trivial⟩
  | (k, v) :: fs, t :: ts, h => by
    obtain ⟨⟨kt, vt, h1, h2, h3⟩, h4⟩ := h
    obtain ⟨V, v1, v2⟩ := rend_den hx v h2
    obtain ⟨gs, g1, g2⟩ := rendFields_den hx fs h4
    refine ⟨(k, V) :: gs, ⟨⟨rfl, v1⟩, g1⟩, ⟨kt, vt, h1.keyTok, ?_, h3⟩, ?_⟩
    · exact elemOf_mono (n := v.levels x + 2) (Nat.le_max_left _ _) v2
    · exact g2.imp fun _ _ ⟨a, b, h1, h2, h3⟩ => ⟨a, b, h1, elemOf_mono (Nat.le_max_right _ _) h2, h3⟩
  | [], _ :: _, h => h.elim
  | _ :: _, [], h => by simp [RendFields] at h
end

end Ron
