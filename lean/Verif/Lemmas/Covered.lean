import Verif.Spec.Covered
import Verif.Lemmas.BadMain
import Verif.Lemmas.TyLangSound
import Verif.Lemmas.SafeDoc
/-!
Every text of such a type is read or has a defect.
-/

namespace Ron

theorem torn_line {u : Text} (h : OpenLine u) : ∃ w, u = '/' :: w ∧ ∀ l r, '/' :: w = l ++ r → Layout l → l = [] := by
  obtain ⟨b, rfl, hb⟩ := h
  refine ⟨'/' :: b, rfl, fun l r e hl => ?_⟩
  cases hl with
  | nil => rfl
  | ws hc => injection e with e _; subst e; exact absurd hc (by decide)
  | @line b' l' hb' hl' =>
    simp only [List.cons_append, List.append_assoc, List.cons.injEq, true_and] at e
    exact absurd (by rw [e]; simp) hb
  | block => cases e

theorem torn_error {u : Text} {e : Err} (h : LayoutError u e) : ∃ w, u = '/' :: w ∧ ∀ l r, '/' :: w = l ++ r → Layout l → l = [] := by
  rcases h with ⟨w, rfl, hw, -⟩ | ⟨rfl, -⟩ | ⟨c, w, rfl, h1, h2, -⟩
  · refine ⟨'*' :: w, rfl, fun l r e hl => ?_⟩
    cases hl with
    | nil => rfl
    | ws hc => injection e with e _; subst e; exact absurd hc (by decide)
    | line => cases e
    | @block b l' hb hl' =>
      simp only [List.cons_append, List.append_assoc, List.cons.injEq, true_and] at e
      exact absurd hb (hw _ _ e)
  · refine ⟨[], rfl, fun l r e hl => ?_⟩
    cases hl with
    | nil => rfl
    | ws hc => injection e with e _; subst e; exact absurd hc (by decide)
    | line => simp at e
    | block => simp at e
  · refine ⟨c :: w, rfl, fun l r e hl => ?_⟩
    cases hl with
    | nil => rfl
    | ws hc => injection e with e _; subst e; exact absurd hc (by decide)
    | line => injection e with _ e; injection e with e _; exact absurd e h1
    | block => injection e with _ e; injection e with e _; exact absurd e h2

/-- Layout, and what follows it. -/
theorem layout_split (q : Text) : (∃ l r, q = l ++ r ∧ Layout l ∧ NoLayoutStart r) ∨ Torn q := by
  rcases skipWs_cases (St.init q) with ⟨l, r, e, hl, hr, -⟩ | ⟨l, u, e, hl, hu, -⟩ | ⟨l, u, er, e, hl, hu, -⟩
  · exact .inl ⟨l, r, e, hl, hr⟩
  · obtain ⟨w, rfl, hw⟩ := torn_line hu
    exact .inr ⟨l, w, e, hl, hw⟩
  · obtain ⟨w, rfl, hw⟩ := torn_error hu
    exact .inr ⟨l, w, e, hl, hw⟩

/-! ### Lists -/

theorem Body.push {ts : List Text} {u t b a : Text} (h : Body ts u) (hb : Layout b) (ha : Layout a) : Body (ts ++ [t]) (u ++ (b ++ ',' :: (a ++ t))) := by
  induction h with
  | one => exact .cons hb ha .one
  | @cons t' b' a' u ts h1 h2 h3 ih => simpa using Body.cons (t := t') h1 h2 ih

theorem Before.push {ts : List Text} {p t b a : Text} (h : Before ts p) (hb : Layout b) (ha : Layout a) : Before (ts ++ [t]) (p ++ (t ++ (b ++ ',' :: a))) := by
  cases h with
  | nil h => exact .items h .one hb ha
  | @items a0 b0 a1 u ts h1 h2 h3 h4 =>
    have := Before.items h1 (h2.push (t := t) h3 h4) hb ha
    simpa using this

theorem Before.close {o c : Char} {ts : List Text} {p : Text} (h : Before ts p) : Delim o c ts (o :: (p ++ [c])) := by
  cases h with
  | nil h => exact .nil h
  | @items a0 b0 a1 u ts h1 h2 h3 h4 =>
    have := Delim.items (o := o) (c := c) h1 h2 (.comma h3 h4)
    simpa using this

theorem Before.last {o c : Char} {ts : List Text} {p t b : Text} (h : Before ts p) (hb : Layout b) : Delim o c (ts ++ [t]) (o :: (p ++ (t ++ (b ++ [c])))) := by
  cases h with
  | nil h => exact .items h .one (.plain hb)
  | @items a0 b0 a1 u ts h1 h2 h3 h4 =>
    have := Delim.items (o := o) (c := c) h1 (h2.push (t := t) h3 h4) (.plain hb)
    simpa using this

theorem all2_push {α β : Type} {R : α → β → Prop} {a : α} {b : β} (h : R a b) : ∀ {as : List α} {bs : List β}, All2 R as bs → All2 R (as ++ [a]) (bs ++ [b])
  | [], [], _ => ⟨h, trivial⟩
  | _ :: _, _ :: _, h' => ⟨h'.1, all2_push h h'.2⟩

theorem all3_push {α β γ : Type} {R : α → β → γ → Prop} {a : α} {b : β} {c : γ} (h : R a b c) : ∀ {as : List α} {bs : List β} {cs : List γ},
    All3 R as bs cs → All3 R (as ++ [a]) (bs ++ [b]) (cs ++ [c])
  | [], [], [], _ => ⟨h, trivial⟩
  | _ :: _, _ :: _, _ :: _, h' => ⟨h'.1, all3_push h h'.2⟩

theorem halts_of {c : Char} {q : Text} (h : c ∈ [',', ')', ']', '}', ':']) : Halts (c :: q) := .inr ⟨c, q, rfl, h⟩

theorem head_cases (c : Char) (q : Text) : (∃ q', q = c :: q') ∨ q.head? ≠ some c := by
  cases q with
  | nil => exact .inr (by simp)
  | cons d q =>
    by_cases h : d = c
    · exact .inl ⟨q, by rw [h]⟩
    · exact .inr (by simpa using h)

/-- An integer of type `u8` is a byte. -/
theorem intTok_byte [Env] {t : Text} {i : Int} (h : IntTok .u8 t i) : ∃ b : UInt8, i = b.toNat := by
  have hr : 0 ≤ i ∧ i < 256 := by
    cases h with
    | digits h =>
      have hr : IntTy.u8.InRange i := by cases h <;> assumption
      exact ⟨hr.1, Int.lt_add_one_of_le hr.2⟩
    | byte _ h =>
      cases h with
      | plain _ h => omega
      | esc h =>
        cases h with
        | simple h =>
          have := simpleEsc_lt h
          omega
        | hex h1 h2 =>
          have := hexVal_lt h1
          have := hexVal_lt h2
          omega
  exact ⟨UInt8.ofNat i.toNat, by simp; omega⟩

/-- Every text is sorted by `I`, `B` and `X`. -/
structure Sorts {α : Type} (L : Text → α → Prop) (I : Text → Text → Prop) (B : Text → Err → Text → Prop) (X : Text → Prop) : Prop where
  suffix : ∀ u q, I u q → NoLayoutStart q ∧ ∃ p, u = p ++ q
  text : ∀ u q, I u q → Halts q → ∃ t l v, u = t ++ (l ++ q) ∧ Layout l ∧ L t v
  total : ∀ u, NoLayoutStart u → (∃ q, I u q) ∨ (∃ e r, B u e r) ∨ X u

section
variable {I : Nat → Text → Text → Prop} {B : Nat → Text → Err → Text → Prop} {X : Nat → Text → Prop} {n : Nat}

theorem seq_scan {α : Type} {L : Nat → Text → α → Prop} (hS : Sorts (L n) (I n) (B n) (X n)) : ∀ (k : Nat) (u : Text) (ts : List Text) (vs : List α) (p : Text), u.length ≤ k → Before ts p →
    All2 (L n) ts vs → NoLayoutStart u →
    (∃ ts vs w r, '[' :: (p ++ u) = w ++ r ∧ Delim '[' ']' ts w ∧ All2 (L n) ts vs) ∨ (∃ e r, BadSeq L I B (n + 2) ('[' :: (p ++ u)) e r) ∨ OddSeq L I X (n + 2) ('[' :: (p ++ u)) := by
  intro k
  induction k with
  | zero =>
    intro u ts vs p hk hb ha hn
    obtain rfl : u = [] := List.eq_nil_of_length_eq_zero (by omega)
    have hp : Place ']' [] := ⟨hn, by simp⟩
    rcases hS.total [] hn with ⟨q, hi⟩ | ⟨e, r, hbad⟩ | ho
    · obtain ⟨-, p', hq⟩ := hS.suffix _ _ hi
      obtain ⟨rfl, rfl⟩ := List.append_eq_nil_iff.mp hq.symm
      exact .inr (.inl ⟨_, _, .comma hb ha hp hi ⟨by simp, by simp⟩⟩)
    · exact .inr (.inl ⟨_, _, .item hb ha hp hbad⟩)
    · exact .inr (.inr (.item hb ha hp ho))
  | succ k ih =>
    intro u ts vs p hk hb ha hn
    rcases head_cases ']' u with ⟨r, rfl⟩ | hc
    · exact .inl ⟨ts, vs, '[' :: (p ++ [']']), r, by simp, hb.close, ha⟩
    · have hp : Place ']' u := ⟨hn, hc⟩
      rcases hS.total u hn with ⟨q, hi⟩ | ⟨e, r, hbad⟩ | ho
      · obtain ⟨hq, p', hu⟩ := hS.suffix _ _ hi
        rcases head_cases ',' q with ⟨q', rfl⟩ | hcomma
        · obtain ⟨t, l, v, rfl, hl, ht⟩ := hS.text _ _ hi (halts_of (by simp))
          rcases layout_split q' with ⟨a, r, rfl, ha', hr⟩ | ho
          · have := ih r (ts ++ [t]) (vs ++ [v]) (p ++ (t ++ (l ++ ',' :: a))) (by simp at hk; omega) (hb.push hl ha') (all2_push ht ha) hr
            rcases this with h | h | h
            · left; simpa using h
            · right; left; simpa using h
            · right; right; simpa using h
          · exact .inr (.inr (.comma hb ha hp hi ho))
        · rcases head_cases ']' q with ⟨q', rfl⟩ | hclose
          · obtain ⟨t, l, v, rfl, hl, ht⟩ := hS.text _ _ hi (halts_of (by simp))
            exact .inl ⟨ts ++ [t], vs ++ [v], '[' :: (p ++ (t ++ (l ++ [']']))), q', by simp, hb.last hl, all2_push ht ha⟩
          · exact .inr (.inl ⟨_, _, .comma hb ha hp hi ⟨hcomma, hclose⟩⟩)
      · exact .inr (.inl ⟨_, _, .item hb ha hp hbad⟩)
      · exact .inr (.inr (.item hb ha hp ho))

variable {L : Nat → Text → SVal → Prop}

theorem parens_scan (hS : Sorts (L n) (I n) (B n) (X n)) (close : Err) (w : Text) :
    (∃ q r v, '(' :: w = q ++ r ∧ InParens (fun t => L n t v) q) ∨ (∃ e r, BadParens L I B close (n + 1) ('(' :: w) e r) ∨ OddParens I X (n + 1) ('(' :: w) := by
  rcases layout_split w with ⟨a, u, rfl, ha, hu⟩ | ho
  · rcases hS.total u hu with ⟨q, hi⟩ | ⟨e, r, hbad⟩ | ho
    · obtain ⟨hq, p', hu'⟩ := hS.suffix _ _ hi
      rcases head_cases ',' q with ⟨q', rfl⟩ | hcomma
      · obtain ⟨t, l, v, rfl, hl, ht⟩ := hS.text _ _ hi (halts_of (by simp))
        rcases layout_split q' with ⟨c, r, rfl, hc, hr⟩ | ho
        · rcases head_cases ')' r with ⟨r', rfl⟩ | hclose
          · exact .inl ⟨'(' :: (a ++ (t ++ ((l ++ ',' :: c) ++ [')']))), r', v, by simp, a, t, _, ha, ht, .comma hl hc, rfl⟩
          · exact .inr (.inl ⟨_, _, .more ha ht hl hc ⟨hr, hclose⟩⟩)
        · exact .inr (.inr (.comma ha hu hi ho))
      · rcases head_cases ')' q with ⟨q', rfl⟩ | hclose
        · obtain ⟨t, l, v, rfl, hl, ht⟩ := hS.text _ _ hi (halts_of (by simp))
          exact .inl ⟨'(' :: (a ++ (t ++ (l ++ [')']))), q', v, by simp, a, t, l, ha, ht, .plain hl, rfl⟩
        · exact .inr (.inl ⟨_, _, .close ha hu hi ⟨hcomma, hclose⟩⟩)
    · exact .inr (.inl ⟨_, _, .item ha hu hbad⟩)
    · exact .inr (.inr (.item ha hu ho))
  · exact .inr (.inr (.opening ho))

end

section
variable {K V : Nat → Text → SVal → Prop} {IK IV : Nat → Text → Text → Prop} {BK BV : Nat → Text → Err → Text → Prop} {XK XV : Nat → Text → Prop} {n : Nat}

theorem map_scan (hK : Sorts (K n) (IK n) (BK n) (XK n)) (hV : Sorts (V n) (IV n) (BV n) (XV n)) : ∀ (k : Nat) (u : Text) (ts : List Text) (es : List (SVal × SVal)) (p : Text),
    u.length < k → Before ts p → All2 (fun t e => ∃ k v, K n k e.1 ∧ V n v e.2 ∧ Entry k v t) ts es → NoLayoutStart u →
    (∃ ts es w r, '{' :: (p ++ u) = w ++ r ∧ Delim '{' '}' ts w ∧ All2 (fun t (e : SVal × SVal) => ∃ k v, K n k e.1 ∧ V n v e.2 ∧ Entry k v t) ts es) ∨
      (∃ e r, BadMap K V IK IV BK BV (n + 2) ('{' :: (p ++ u)) e r) ∨ OddMap K V IK IV XK XV (n + 2) ('{' :: (p ++ u)) := by
  intro k
  induction k with
  | zero => intro u ts vs p hk; omega
  | succ k ih =>
    intro u ts es p hk hb ha hn
    rcases head_cases '}' u with ⟨r, rfl⟩ | hc
    · exact .inl ⟨ts, es, '{' :: (p ++ ['}']), r, by simp, hb.close, ha⟩
    · have hp : Place '}' u := ⟨hn, hc⟩
      rcases hK.total u hn with ⟨q, hi⟩ | ⟨e, r, hbad⟩ | ho
      · rcases head_cases ':' q with ⟨q', rfl⟩ | hcolon
        · obtain ⟨t, l, vk, rfl, hl, ht⟩ := hK.text _ _ hi (halts_of (by simp))
          rcases layout_split q' with ⟨l', r, rfl, hl', hr⟩ | ho
          · rcases hV.total r hr with ⟨q2, hi2⟩ | ⟨e, r', hbad⟩ | ho
            · rcases head_cases ',' q2 with ⟨q3, rfl⟩ | hcomma
              · obtain ⟨t2, l2, v2, rfl, hl2, ht2⟩ := hV.text _ _ hi2 (halts_of (by simp))
                rcases layout_split q3 with ⟨a, r, rfl, ha', hr3⟩ | ho
                · have he : Entry t t2 (t ++ (l ++ ':' :: (l' ++ t2))) := .mk hl hl'
                  have := ih r (ts ++ [_]) (es ++ [(vk, v2)]) (p ++ ((t ++ (l ++ ':' :: (l' ++ t2))) ++ (l2 ++ ',' :: a))) (by simp at hk; omega) (hb.push hl2 ha')
                    (all2_push ⟨t, t2, ht, ht2, he⟩ ha) hr3
                  rcases this with h | h | h
                  · left; simpa using h
                  · right; left; simpa using h
                  · right; right; simpa using h
                · exact .inr (.inr (.comma hb ha ht hl hl' hr hi2 ho))
              · rcases head_cases '}' q2 with ⟨q3, rfl⟩ | hclose
                · obtain ⟨t2, l2, v2, rfl, hl2, ht2⟩ := hV.text _ _ hi2 (halts_of (by simp))
                  have he : Entry t t2 (t ++ (l ++ ':' :: (l' ++ t2))) := .mk hl hl'
                  exact .inl ⟨ts ++ [_], es ++ [(vk, v2)], '{' :: (p ++ ((t ++ (l ++ ':' :: (l' ++ t2))) ++ (l2 ++ ['}']))), q3, by simp, hb.last hl2,
                    all2_push ⟨t, t2, ht, ht2, he⟩ ha⟩
                · exact .inr (.inl ⟨_, _, .comma hb ha ht hl hl' hr hi2 ⟨hcomma, hclose⟩⟩)
            · exact .inr (.inl ⟨_, _, .value hb ha ht hl hl' hr hbad⟩)
            · exact .inr (.inr (.value hb ha ht hl hl' hr ho))
          · exact .inr (.inr (.colon hb ha hp hi ho))
        · exact .inr (.inl ⟨_, _, .colon hb ha hp hi hcolon⟩)
      · exact .inr (.inl ⟨_, _, .key hb ha hp hbad⟩)
      · exact .inr (.inr (.key hb ha hp ho))

end

section
variable {L : Ty → Nat → Text → SVal → Prop} {I : Ty → Nat → Text → Text → Prop} {B : Ty → Nat → Text → Err → Text → Prop} {X : Ty → Nat → Text → Prop} {n : Nat}

theorem tuple_scan (called : Text) : ∀ (Us : List Ty) (u : Text) (Ts : List Ty) (ts : List Text) (vs : List SVal) (p : Text),
    (∀ T ∈ Us, Sorts (L T n) (I T n) (B T n) (X T n)) → Before ts p → All3 (fun T => L T n) Ts ts vs → NoLayoutStart u →
    (∃ ts vs w r, '(' :: (p ++ u) = w ++ r ∧ Delim '(' ')' ts w ∧ All3 (fun T => L T n) (Ts ++ Us) ts vs) ∨
      (∃ e r, BadTuple L I B called (Ts ++ Us) (n + 2) ('(' :: (p ++ u)) e r) ∨ OddTuple L I X (Ts ++ Us) (n + 2) ('(' :: (p ++ u)) := by
  intro Us
  induction Us with
  | nil =>
    intro u Ts ts vs p hS hb ha hn
    rcases head_cases ')' u with ⟨r, rfl⟩ | hc
    · exact .inl ⟨ts, vs, '(' :: (p ++ [')']), r, by simp, hb.close, by simpa using ha⟩
    · exact .inr (.inl ⟨_, _, by simpa using BadTuple.long hb ha ⟨hn, hc⟩⟩)
  | cons T Us ih =>
    intro u Ts ts vs p hS hb ha hn
    have hT := hS T (by simp)
    rcases head_cases ')' u with ⟨r, rfl⟩ | hc
    · refine .inr (.inl ⟨.expectedDifferentLength called ts.length, ')' :: r, ?_⟩)
      have := BadTuple.short (L := L) (I := I) (B := B) (called := called) (T := T) (Ts' := Us) (w := '(' :: p) (r := r) (by simpa using hb.close (o := '(') (c := ')')) ha
      simpa using this
    · have hp : Place ')' u := ⟨hn, hc⟩
      rcases hT.total u hn with ⟨q, hi⟩ | ⟨e, r, hbad⟩ | ho
      · rcases head_cases ',' q with ⟨q', rfl⟩ | hcomma
        · obtain ⟨t, l, v, rfl, hl, ht⟩ := hT.text _ _ hi (halts_of (by simp))
          rcases layout_split q' with ⟨a, r, rfl, ha', hr⟩ | ho
          · have := ih r (Ts ++ [T]) (ts ++ [t]) (vs ++ [v]) (p ++ (t ++ (l ++ ',' :: a))) (fun T h => hS T (by simp [h])) (hb.push hl ha') (all3_push (R := fun T => L T n) ht ha) hr
            rcases this with h | h | h
            · left; simpa using h
            · right; left; simpa using h
            · right; right; simpa using h
          · exact .inr (.inr (.comma hb ha hp hi ho))
        · rcases head_cases ')' q with ⟨q', rfl⟩ | hclose
          · obtain ⟨t, l, v, rfl, hl, ht⟩ := hT.text _ _ hi (halts_of (by simp))
            have hd := hb.last (o := '(') (c := ')') (t := t) hl
            have h3 := all3_push (R := fun T => L T n) ht ha
            cases Us with
            | nil => exact .inl ⟨ts ++ [t], vs ++ [v], '(' :: (p ++ (t ++ (l ++ [')']))), q', by simp, hd, h3⟩
            | cons T' Us =>
              refine .inr (.inl ⟨.expectedDifferentLength called (ts ++ [t]).length, ')' :: q', ?_⟩)
              have := BadTuple.short (L := L) (I := I) (B := B) (called := called) (T := T') (Ts' := Us) (w := '(' :: (p ++ (t ++ l))) (r := q') (by simpa using hd) h3
              simpa using this
          · cases Us with
            | nil => exact .inr (.inl ⟨_, _, .close hb ha hp hi ⟨hcomma, hclose⟩⟩)
            | cons T' Us => exact .inr (.inl ⟨_, _, .comma hb ha hp hi ⟨hcomma, hclose⟩⟩)
      · exact .inr (.inl ⟨_, _, .item hb ha hp hbad⟩)
      · exact .inr (.inr (.item hb ha hp ho))

end

/-! ### Names and fields -/

/-- The name of a struct is here, or may be missing, or is not here although it has to be. -/
theorem name_total [Env] (x : Exts) (name u : Text) : (∃ e r, BadName x name u e r) ∨ (x.explicitStructNames = false ∧ NoIdentStart u) ∨
    ∃ tok z, u = tok ++ z ∧ KeyTok name tok ∧ NameEnds tok z := by
  by_cases hu : NoIdentStart u
  · cases he : x.explicitStructNames with
    | true => exact .inl ⟨_, _, .missing he hu⟩
    | false => exact .inr (.inl ⟨rfl, hu⟩)
  · rcases word_total u with ⟨id, tok, z, rfl, ht, hz⟩ | ⟨e, h⟩
    · by_cases hn : name = []
      · exact .inl ⟨_, _, .unnamed hn ht hz⟩
      · by_cases hi : id = name
        · subst hi
          exact .inr (.inr ⟨tok, z, rfl, ht, hz⟩)
        · exact .inl ⟨_, _, .other hn ht hi hz⟩
    · generalize hw : u = u' at h
      cases h with
      | eof => subst hw; exact absurd (fun c r e => by cases e) hu
      | @char c' u' hc =>
        subst hw
        refine absurd (fun c r e => ?_) hu
        injection e with e1 _
        subst e1
        cases hx : Env.xidCont c' with
        | false => rfl
        | true => rw [identRaw_of_xid hx] at hc; cases hc
      | @raw w z h1 h2 h3 =>
        subst hw
        refine .inl ⟨_, _, .raw h1 h2 (fun hs => hu fun c r e => ?_) h3⟩
        cases w with
        | nil => exact absurd rfl h1.1
        | cons c' w =>
          injection e with e1 _
          subst e1
          exact hs _ _ rfl
      | noWord h =>
        subst hw
        exact .inl ⟨_, _, .noWord h⟩

/-- The fields are all there, or one is missing. -/
theorem fields_complete (optional : Ty → Prop) (gs : List (Option (Text × SVal))) : ∀ Gs : List (Text × Ty),
    (∃ fs : List (Text × SVal), All2 (fun F f => F.1 = f.1 ∧ (some (F.1, f.2) ∈ gs ∨ ((∀ v, some (F.1, v) ∉ gs) ∧ optional F.2 ∧ f.2 = .none))) Gs fs) ∨
    ∃ Fs F Fs', Gs = Fs ++ F :: Fs' ∧ (∀ G ∈ Fs, G.1 ∈ (gs.filterMap id).map Prod.fst ∨ optional G.2) ∧ F.1 ∉ (gs.filterMap id).map Prod.fst ∧ ¬ optional F.2
  | [] => .inl ⟨[], trivial⟩
  | F :: Gs => by
    have hm : ∀ key, key ∈ (gs.filterMap id).map Prod.fst ↔ ∃ v, some (key, v) ∈ gs := by
      intro key
      simp only [List.mem_map, List.mem_filterMap, id_eq, exists_eq_right, Prod.exists, exists_and_right, exists_eq_right]
    by_cases h1 : F.1 ∈ (gs.filterMap id).map Prod.fst ∨ optional F.2
    · rcases fields_complete optional gs Gs with ⟨fs, h⟩ | ⟨Fs, G, Fs', rfl, h2, h3, h4⟩
      · left
        by_cases h2 : F.1 ∈ (gs.filterMap id).map Prod.fst
        · obtain ⟨v, hv⟩ := (hm _).mp h2
          exact ⟨(F.1, v) :: fs, ⟨rfl, .inl hv⟩, h⟩
        · exact ⟨(F.1, .none) :: fs, ⟨rfl, .inr ⟨fun v hv => h2 ((hm _).mpr ⟨v, hv⟩), h1.resolve_left h2, rfl⟩⟩, h⟩
      · right
        refine ⟨F :: Fs, G, Fs', rfl, fun G' hG => ?_, h3, h4⟩
        rcases List.mem_cons.mp hG with rfl | hG
        · exact h1
        · exact h2 _ hG
    · exact .inr ⟨[], F, Gs, rfl, by simp, fun h => h1 (.inl h), fun h => h1 (.inr h)⟩

section
variable [Env] {L : Ty → Nat → Text → SVal → Prop} {I : Ty → Nat → Text → Text → Prop} {B : Ty → Nat → Text → Err → Text → Prop} {X : Ty → Nat → Text → Prop} {n : Nat}

theorem fields_scan (i : Bool) (optional : Ty → Prop) (deny : Bool) (fields : List (Text × Ty)) (hS : ∀ F ∈ fields, Sorts (L F.2 n) (I F.2 n) (B F.2 n) (X F.2 n)) :
    ∀ (k : Nat) (u : Text) (es : List Text) (gs : List (Option (Text × SVal))) (p : Text), u.length < k → Before es p →
    All2 (FieldAt i L deny fields (n + 1)) es gs → ((gs.filterMap id).map Prod.fst).Nodup → NoLayoutStart u →
    (∃ w r fs, '(' :: (p ++ u) = w ++ r ∧ FieldsText i L optional deny fields (n + 2) w fs) ∨
      (∃ e r, BadFields i L I B optional deny fields (n + 2) ('(' :: (p ++ u)) e r) ∨ OddFields i L I X deny fields (n + 2) ('(' :: (p ++ u)) := by
  have done : ∀ (es : List Text) (gs : List (Option (Text × SVal))) (w r : Text), Delim '(' ')' es (w ++ [')']) → All2 (FieldAt i L deny fields (n + 1)) es gs →
      ((gs.filterMap id).map Prod.fst).Nodup →
      (∃ w' r' fs, w ++ ')' :: r = w' ++ r' ∧ FieldsText i L optional deny fields (n + 2) w' fs) ∨
      (∃ e r', BadFields i L I B optional deny fields (n + 2) (w ++ ')' :: r) e r') := by
    intro es gs w r hd ha hn
    rcases fields_complete optional gs fields with ⟨fs, h⟩ | ⟨Fs, F, Fs', h1, h2, h3, h4⟩
    · exact .inl ⟨w ++ [')'], r, fs, by simp, es, gs, hd, ha, hn, h⟩
    · exact .inr ⟨_, _, .missing hd ha hn h1 h2 h3 h4⟩
  intro k
  induction k with
  | zero => intro u es gs p hk; omega
  | succ k ih =>
    intro u es gs p hk hb ha hn hu
    rcases head_cases ')' u with ⟨r, rfl⟩ | hc
    · rcases done es gs ('(' :: p) r (by simpa using hb.close (o := '(') (c := ')')) ha hn with h | h
      · exact .inl (by simpa using h)
      · exact .inr (.inl (by simpa using h))
    · have hp : Place ')' u := ⟨hu, hc⟩
      rcases word_total u with ⟨key, kt, z, rfl, hk1, hz⟩ | ⟨e, h⟩
      · by_cases hdup : key ∈ (gs.filterMap id).map Prod.fst
        · exact .inr (.inl ⟨_, _, .twice hb ha hn hk1 hdup hz⟩)
        · by_cases hkn : key ∈ fields.map Prod.fst
          · obtain ⟨T, hf⟩ : ∃ T, fields.find? (fun f => f.1 = key) = some (key, T) := by
              cases hf : fields.find? (fun f => f.1 = key) with
              | none =>
                obtain ⟨F, hF, rfl⟩ := List.mem_map.mp hkn
                have := List.find?_eq_none.mp hf F hF
                simp at this
              | some F =>
                have := List.find?_some hf
                obtain ⟨a, T⟩ := F
                simp only [decide_eq_true_eq] at this
                subst this
                exact ⟨T, rfl⟩
            have hT := hS _ (List.mem_of_find?_eq_some hf)
            rcases layout_split z with ⟨m, q, rfl, hm, hq⟩ | ho
            · rcases head_cases ':' q with ⟨q', rfl⟩ | hcolon
              · rcases layout_split q' with ⟨m', v, rfl, hm', hv⟩ | ho
                · rcases hT.total v hv with ⟨q2, hi⟩ | ⟨e, r', hbad⟩ | ho
                  · rcases head_cases ',' q2 with ⟨q3, rfl⟩ | hcomma
                    · obtain ⟨t, l, V, rfl, hl, ht⟩ := hT.text _ _ hi (halts_of (by simp))
                      have he : Entry kt t (kt ++ (m ++ ':' :: (m' ++ t))) := .mk hm hm'
                      have hF : FieldAt i L deny fields (n + 1) (kt ++ (m ++ ':' :: (m' ++ t))) (some (key, V)) := ⟨key, kt, t, hk1, he, rfl, T, hf, ht⟩
                      rcases layout_split q3 with ⟨a, r, rfl, ha', hr⟩ | ho
                      · have := ih r (es ++ [_]) (gs ++ [some (key, V)]) (p ++ ((kt ++ (m ++ ':' :: (m' ++ t))) ++ (l ++ ',' :: a))) (by simp at hk; omega) (hb.push hl ha')
                          (all2_push hF ha) (by simpa [List.nodup_append] using ⟨hn, fun a x h e => hdup (by subst e; exact List.mem_map.mpr ⟨(a, x), by simpa using h, rfl⟩)⟩) hr
                        rcases this with h | h | h
                        · left; simpa using h
                        · right; left; simpa using h
                        · right; right; simpa using h
                      · exact .inr (.inr (.comma hb ha hn hk1 hf hm hm' hv hi ho))
                    · rcases head_cases ')' q2 with ⟨q3, rfl⟩ | hclose
                      · obtain ⟨t, l, V, rfl, hl, ht⟩ := hT.text _ _ hi (halts_of (by simp))
                        have he : Entry kt t (kt ++ (m ++ ':' :: (m' ++ t))) := .mk hm hm'
                        have hF : FieldAt i L deny fields (n + 1) (kt ++ (m ++ ':' :: (m' ++ t))) (some (key, V)) := ⟨key, kt, t, hk1, he, rfl, T, hf, ht⟩
                        have hd := hb.last (o := '(') (c := ')') (t := kt ++ (m ++ ':' :: (m' ++ t))) hl
                        rcases done (es ++ [_]) (gs ++ [some (key, V)]) ('(' :: (p ++ ((kt ++ (m ++ ':' :: (m' ++ t))) ++ l))) q3 (by simpa using hd) (all2_push hF ha)
                          (by simpa [List.nodup_append] using ⟨hn, fun a x h e => hdup (by subst e; exact List.mem_map.mpr ⟨(a, x), by simpa using h, rfl⟩)⟩) with h | h
                        · exact .inl (by simpa using h)
                        · exact .inr (.inl (by simpa using h))
                      · exact .inr (.inl ⟨_, _, .comma hb ha hn hk1 hdup hf hm hm' hv hi ⟨hcomma, hclose⟩⟩)
                  · exact .inr (.inl ⟨_, _, .value hb ha hn hk1 hdup hf hm hm' hv hbad⟩)
                  · exact .inr (.inr (.value hb ha hn hk1 hf hm hm' hv ho))
                · exact .inr (.inr (.colon hb ha hn hk1 hm ho))
              · exact .inr (.inl ⟨_, _, .colon hb ha hn hk1 hdup hkn hz hm hq hcolon⟩)
            · exact .inr (.inr (.key hb ha hn hk1 ho))
          · by_cases hdeny : deny = true
            · exact .inr (.inl ⟨_, _, .unknown hb ha hn hk1 hkn hdeny hz⟩)
            have hdeny : deny = false := by simpa using hdeny
            rcases layout_split z with ⟨m, q, rfl, hm, hq⟩ | ho
            · rcases head_cases ':' q with ⟨q', rfl⟩ | hcolon
              · rcases layout_split q' with ⟨m', v, rfl, hm', hv⟩ | ho
                · by_cases hex : ∃ t V l c q, v = t ++ (l ++ c :: q) ∧ LangX i n t V ∧ Layout l ∧ (c = ',' ∨ c = ')')
                  · obtain ⟨t, V, l, c, q3, rfl, ht, hl, hc⟩ := hex
                    have he : Entry kt t (kt ++ (m ++ ':' :: (m' ++ t))) := .mk hm hm'
                    have hF : FieldAt i L deny fields (n + 1) (kt ++ (m ++ ':' :: (m' ++ t))) none := ⟨key, kt, t, hk1, he, hdeny, hkn, V, ht⟩
                    rcases hc with rfl | rfl
                    · rcases layout_split q3 with ⟨a, r, rfl, ha', hr⟩ | ho
                      · have := ih r (es ++ [_]) (gs ++ [none]) (p ++ ((kt ++ (m ++ ':' :: (m' ++ t))) ++ (l ++ ',' :: a))) (by simp at hk; omega) (hb.push hl ha')
                          (all2_push hF ha) (by simpa using hn) hr
                        rcases this with h | h | h
                        · left; simpa using h
                        · right; left; simpa using h
                        · right; right; simpa using h
                      · exact .inr (.inr (.ignoredComma hb ha hn hk1 hkn hdeny hm hm' ht hl ho))
                    · have hd := hb.last (o := '(') (c := ')') (t := kt ++ (m ++ ':' :: (m' ++ t))) hl
                      rcases done (es ++ [_]) (gs ++ [none]) ('(' :: (p ++ ((kt ++ (m ++ ':' :: (m' ++ t))) ++ l))) q3 (by simpa using hd) (all2_push hF ha)
                        (by simpa using hn) with h | h
                      · exact .inl (by simpa using h)
                      · exact .inr (.inl (by simpa using h))
                  · exact .inr (.inr (.ignored hb ha hn hk1 hkn hdeny hm hm' hv fun t V l c q e ht hl =>
                      ⟨fun h => hex ⟨t, V, l, c, q, e, ht, hl, .inl h⟩, fun h => hex ⟨t, V, l, c, q, e, ht, hl, .inr h⟩⟩))
                · exact .inr (.inr (.colon hb ha hn hk1 hm ho))
              · exact .inr (.inl ⟨_, _, .ignoredColon hb ha hn hk1 hkn hdeny hz hm hq hcolon⟩)
            · exact .inr (.inr (.key hb ha hn hk1 ho))
      · exact .inr (.inl ⟨_, _, .key hb ha hn hp h⟩)

end

/-! ### Items -/

section
variable [Env] {D : Nat → Ty} {x : Exts} {s : Bool}

omit [Env] in
theorem init_inside (u : Text) : (St.init u).Inside := St.init_inside u

theorem goodInt_suffix {T : IntTy} {u r : Text} {v : Int} (hb : ∀ r, u ≠ 'b' :: '\'' :: r) (h : GoodInt T u v r) : ∃ p, u = p ++ r := by
  obtain ⟨s', h1, h2, -⟩ := integer_good (s := St.init u) rfl hb h
  obtain ⟨t, ht⟩ := (Safe.integer (.one T) |>.from (init_inside u) h1).rest
  exact ⟨t, by rw [← h2]; exact ht.symm⟩

theorem goodFloat_suffix {b : Bool} {u r : Text} {v : Number} (h : GoodFloat b u v r) : ∃ p, u = p ++ r := by
  obtain ⟨s', h1, h2, -⟩ := float_good (s := St.init u) rfl h
  obtain ⟨t, ht⟩ := (Safe.float (realTarget b) |>.from (init_inside u) h1).rest
  exact ⟨t, by rw [← h2]; exact ht.symm⟩

omit [Env] in
theorem ends_of {l q : Text} (hl : Layout l) (hq : Halts q) : Ends (l ++ q) := by
  cases hl with
  | nil =>
    rcases hq with rfl | ⟨c, q', rfl, hc⟩
    · exact .inl rfl
    · refine .inr ⟨c, q', rfl, ?_⟩
      simp only [stopChars, List.mem_append]
      right
      simp only [List.mem_cons, List.not_mem_nil, or_false] at hc ⊢
      rcases hc with rfl | rfl | rfl | rfl | rfl <;> simp
  | ws hc _ => exact .inr ⟨_, _, rfl, by simp [stopChars, hc]⟩
  | line => exact .inr ⟨_, _, rfl, by simp [stopChars]⟩
  | block => exact .inr ⟨_, _, rfl, by simp [stopChars]⟩

theorem wholeAt_suffix {f : Nat} {T : Ty} {n : Nat} {u r : Text} (h : WholeAt D x f T n u r) : ∃ p, u = p ++ r := by
  induction h with
  | ref h ih => exact ih
  | closed => exact ⟨_, rfl⟩
  | int ha hb h => exact goodInt_suffix hb h
  | byte => exact ⟨_, rfl⟩
  | f32 h => exact goodFloat_suffix h
  | f64 h => exact goodFloat_suffix h
  | bool => exact ⟨_, rfl⟩
  | none => exact ⟨_, rfl⟩
  | full => exact ⟨_, rfl⟩
  | fields => exact ⟨_, (List.append_assoc ..).symm⟩
  | range h _ => exact rangeAt_suffix h
  | unitParens => exact ⟨_, rfl⟩
  | unitName => exact ⟨_, rfl⟩
  | variant => exact ⟨_, rfl⟩
  | data => exact ⟨_, (List.append_assoc ..).symm⟩
  | some => exact ⟨_, by simp only [← List.append_assoc]; rfl⟩
  | implicit _ _ _ _ ih =>
    obtain ⟨p, rfl⟩ := ih
    exact ⟨_, (List.append_assoc ..).symm⟩
  | unwrapped _ _ ih => exact ih

theorem itemAt_suffix {f : Nat} {T : Ty} {n : Nat} {u q : Text} (h : ItemAt D x f T n u q) : NoLayoutStart q ∧ ∃ p, u = p ++ q := by
  cases h with
  | delim h hl hq => exact ⟨(halts_stop.mp hq).noLayout, _, (List.append_assoc ..).symm⟩
  | whole h hl hq =>
    obtain ⟨p, hp⟩ := wholeAt_suffix h
    exact ⟨hq, p ++ _, by rw [hp, List.append_assoc]⟩

theorem ends_xid {r : Text} (h : Ends r) : NoIdentStart r := by
  have h1 := headXid_ends (r := []) h
  rintro c r' rfl
  simpa [headXid] using h1

/-- Before a delimiter nothing of what stands there matters. -/
theorem someBare_cut {p t z : Text} (h : SomeBare p (t ++ z)) (hz : NoIdentStart z) : SomeBare p t := by
  have hb : ∀ k, BeginsWord k t → BeginsWord k (t ++ z) := by
    rintro k ⟨u, rfl, hu⟩
    refine ⟨u ++ z, by simp, ?_⟩
    cases u with
    | nil => exact hz
    | cons c u =>
      rintro c' r' e
      cases e
      exact hu c u rfl
  rcases h with ⟨rfl, h1, h2⟩ | ⟨l, rfl, hl, h1, h2⟩
  · exact .inl ⟨rfl, fun h => h1 (hb _ h), fun h => h2 (hb _ h)⟩
  · refine .inr ⟨l, rfl, hl, fun c r' e => ?_, fun u e => ?_⟩
    · exact h1 c (r' ++ z) (by rw [← List.append_assoc, e]; rfl)
    · exact h2 (u ++ z) (by rw [e]; rfl)

theorem wholeAt_text {f : Nat} {T : Ty} {n : Nat} {u r : Text} (h : WholeAt D x f T n u r) (hr : Ends r) : ∃ t v, u = t ++ r ∧ TyLang D x f T n t v := by
  induction h with
  | ref h ih => exact ih hr
  | closed _ h => exact ⟨_, _, rfl, h⟩
  | @int _ _ t u r i ha hb h =>
    obtain ⟨s', h1, h2, -⟩ := integer_good (s := St.init u) rfl hb h
    obtain ⟨w, -, g1, -, g2⟩ := integer_text (init_inside u) rfl h1 (by rw [h2]; exact hr)
    exact ⟨w, .num (.int t i), by rw [← h2]; exact g1, i, ha, g2, rfl⟩
  | @byte _ _ k t r h =>
    refine ⟨t, .num (.int .u8 k), rfl, k, ?_, .byte rfl h, rfl⟩
    rintro (h | h) <;> cases h
  | @f32 _ _ u r m h =>
    obtain ⟨s', h1, h2, -⟩ := float_good (s := St.init u) rfl h
    obtain ⟨w, -, g1, g2⟩ := float_text (init_inside u) h1 (by rw [h2]; exact hr)
    exact ⟨w, .num m, by rw [← h2]; exact g1, m, g2, rfl⟩
  | @f64 _ _ u r m h =>
    obtain ⟨s', h1, h2, -⟩ := float_good (s := St.init u) rfl h
    obtain ⟨w, -, g1, g2⟩ := float_text (init_inside u) h1 (by rw [h2]; exact hr)
    exact ⟨w, .num m, by rw [← h2]; exact g1, m, g2, rfl⟩
  | @bool _ _ b r _ => exact ⟨_, .bool b, rfl, b, rfl, rfl⟩
  | none => exact ⟨_, .none, rfl, .inl ⟨rfl, rfl⟩⟩
  | @fields _ _ name p q r deny fields fs hn h => exact ⟨p ++ q, .struct name fs, by simp, fs, rfl, .inl ⟨p, q, rfl, hn, h⟩⟩
  | @range _ _ name u r deny fields es fs h hf =>
    obtain ⟨t, -, rfl, h2⟩ := rangeAt_cut hr h
    exact ⟨t, .struct name fs, rfl, fs, rfl, .inr ⟨es, h2, hf⟩⟩
  | @full _ _ name r h => exact ⟨_, .unitStruct name, rfl, .inl ⟨h.1, rfl⟩, rfl⟩
  | @unitParens _ _ name r _ he => exact ⟨_, .unitStruct name, rfl, .inr (.inl ⟨he, rfl⟩), rfl⟩
  | @unitName _ _ name tok r _ ht _ => exact ⟨_, .unitStruct name, rfl, .inr (.inr ht), rfl⟩
  | @variant _ _ name id tok r variants ht hf hz =>
    exact ⟨tok, .unitVariant name id, rfl, by omega, id, .unit, tok, [], by simp, ht, hf, rfl, rfl⟩
  | @data _ _ name id tok w r variants k v ht hf hk h => exact ⟨tok ++ w, v, by simp, by omega, id, k, tok, w, rfl, ht, hf, h⟩
  | @some _ _ T l q r v hl h => exact ⟨c!"Some" ++ (l ++ q), .some v, by simp, .inr (.inl ⟨l, q, v, rfl, hl, h, rfl⟩)⟩
  | @implicit _ _ T p u r hi hb _ h ih =>
    obtain ⟨t, v, rfl, h2⟩ := ih hr
    exact ⟨p ++ t, .some v, by simp, .inr (.inr ⟨hi, p, t, v, rfl, someBare_cut hb (ends_xid hr), h2, rfl⟩)⟩
  | @unwrapped _ _ name u r T hu h ih =>
    obtain ⟨t, v, h1, h2⟩ := ih hr
    exact ⟨t, .newtypeStruct name v, h1, v, rfl, by rw [if_pos hu]; exact h2⟩

theorem itemAt_text {f : Nat} {T : Ty} {n : Nat} {u q : Text} (h : ItemAt D x f T n u q) (hq : Halts q) :
    ∃ t l v, u = t ++ (l ++ q) ∧ Layout l ∧ TyLang D x f T n t v := by
  cases h with
  | delim h hl _ => exact ⟨_, _, _, rfl, hl, h⟩
  | whole h hl _ =>
    obtain ⟨t, v, h1, h2⟩ := wholeAt_text h (ends_of hl hq)
    exact ⟨t, _, v, h1, hl, h2⟩

/-- A covered type takes a number or refuses it. -/
theorem covered_number {f : Nat} {T : Ty} (h : Covered D x s f T) : ∀ n, (∃ v, NumAs D f T n v) ∨ NoNumber D f T n := by
  have plain : ∀ {f : Nat} {T : Ty}, (∀ i, T ≠ .ref i) → ∀ n, (∃ v, NumAs D (f + 1) T n v) ∨ NoNumber D (f + 1) T n := by
    intro f T hT n
    by_cases h : ∃ v, NumAs D (f + 1) T n v
    · exact .inl h
    · exact .inr (.plain hT fun v hv => h ⟨v, hv⟩)
  induction h with
  | ref _ ih => exact fun n => (ih n).imp (fun ⟨v, h⟩ => ⟨v, .ref h⟩) .ref
  | _ => exact plain (by intro i e; cases e)

theorem covered_total : ∀ (f : Nat) (T : Ty) (n : Nat) (u : Text), Covered D x s f T → 3 * f ≤ n → NoLayoutStart u →
    (∃ q, ItemAt D x f T n u q) ∨ (∃ e r, BadTy D x f T n u e r) ∨ OddTy D x f T n u
  | 0, T, n, u, h, _, _ => by cases h
  | f + 1, T, n, u, h, hn, hu => by
    have ih := covered_total f
    have hS : ∀ T m, Covered D x s f T → 3 * f ≤ m → Sorts (TyLang D x f T m) (ItemAt D x f T m) (BadTy D x f T m) (OddTy D x f T m) := fun T m hT hm =>
      ⟨fun _ _ h => itemAt_suffix h, fun _ _ h hq => itemAt_text h hq, fun u hu => ih T m u hT hm hu⟩
    have whole : ∀ {u r}, WholeAt D x (f + 1) T n u r →
        (∃ q, ItemAt D x (f + 1) T n u q) ∨ (∃ e r, BadTy D x (f + 1) T n u e r) ∨ OddTy D x (f + 1) T n u := by
      intro u r h
      rcases layout_split r with ⟨l, q, rfl, hl, hq⟩ | ho
      · exact .inl ⟨q, .whole h hl hq⟩
      · exact .inr (.inr (.after h ho))
    have fin : ∀ {t r v}, u = t ++ r → Closed D x (f + 1) T → TyLang D x (f + 1) T n t v → t ≠ c!"true" → t ≠ c!"false" → t ≠ c!"None" →
        (∃ q, ItemAt D x (f + 1) T n u q) ∨ (∃ e r, BadTy D x (f + 1) T n u e r) ∨ OddTy D x (f + 1) T n u := by
      rintro t r v rfl hc h h1 h2 h3
      exact whole (.closed hc h h1 h2 h3)
    obtain ⟨m, rfl⟩ : ∃ m, n = m + 3 := ⟨n - 3, by omega⟩
    have hm : 3 * f ≤ m := by omega
    have hm1 : 3 * f ≤ m + 1 := by omega
    have par : ∀ {t : Text}, '(' ∈ t → t ≠ c!"true" ∧ t ≠ c!"false" ∧ t ≠ c!"None" := by
      intro t ht
      refine ⟨?_, ?_, ?_⟩ <;> (rintro rfl; exact absurd ht (by decide))
    have fin' : ∀ {t r v}, u = t ++ r → Closed D x (f + 1) T → TyLang D x (f + 1) T (m + 3) t v → '(' ∈ t →
        (∃ q, ItemAt D x (f + 1) T (m + 3) u q) ∨ (∃ e r, BadTy D x (f + 1) T (m + 3) u e r) ∨ OddTy D x (f + 1) T (m + 3) u :=
      fun e hc h ht => fin e hc h (par ht).1 (par ht).2.1 (par ht).2.2
    cases h with
    | bool =>
      by_cases h1 : BeginsWord c!"true" u
      · obtain ⟨r, rfl, hr⟩ := h1
        exact whole (.bool (b := true) hr)
      · by_cases h2 : BeginsWord c!"false" u
        · obtain ⟨r, rfl, hr⟩ := h2
          exact whole (.bool (b := false) hr)
        · exact .inr (.inl ⟨_, _, .bool h1 h2⟩)
    | @int _ t ha =>
      by_cases hb : ∃ r, u = 'b' :: '\'' :: r
      · obtain ⟨r, rfl⟩ := hb
        rcases badByteLit_total r with ⟨w, k, r', h1, h2⟩ | ⟨e, r', h⟩
        · rw [h1]
          by_cases ht : t = .u8
          · subst ht
            exact whole (.byte h2)
          · exact .inr (.inl ⟨_, _, .otherByte ha ht h2⟩)
        · exact .inr (.inl ⟨_, _, .byte ha h⟩)
      · have hb' : ∀ r, u ≠ 'b' :: '\'' :: r := fun r h => hb ⟨r, h⟩
        rcases int_total t u with ⟨v, r, h⟩ | ⟨e, r, h⟩
        · exact whole (.int ha hb' h)
        · exact .inr (.inl ⟨_, _, .int ha hb' h⟩)
    | f32 =>
      rcases float_total true u with ⟨v, r, h⟩ | ⟨e, r, h⟩
      · exact whole (.f32 h)
      · exact .inr (.inl ⟨_, _, .f32 h⟩)
    | f64 =>
      rcases float_total false u with ⟨v, r, h⟩ | ⟨e, r, h⟩
      · exact whole (.f64 h)
      · exact .inr (.inl ⟨_, _, .f64 h⟩)
    | char =>
      rcases badChar_total u with ⟨t, v, r, rfl, h⟩ | ⟨e, r, h⟩
      · have ht : ∃ w, t = '\'' :: w := by cases h <;> exact ⟨_, rfl⟩
        obtain ⟨w, rfl⟩ := ht
        exact fin rfl .char ⟨v, h, rfl⟩ (by simp) (by simp) (by simp)
      · exact .inr (.inl ⟨_, _, .char h⟩)
    | str =>
      rcases badStr_total u with ⟨t, v, r, rfl, h⟩ | ⟨e, r, h⟩
      · have ht : (∃ w, t = '"' :: w) ∨ ∃ w, t = 'r' :: w := by cases h <;> first | exact .inl ⟨_, rfl⟩ | exact .inr ⟨_, rfl⟩
        rcases ht with ⟨w, rfl⟩ | ⟨w, rfl⟩ <;> exact fin rfl .str ⟨v, h, rfl⟩ (by simp) (by simp) (by simp)
      · exact .inr (.inl ⟨_, _, .str h⟩)
    | bytes =>
      rcases head_cases '[' u with ⟨w, rfl⟩ | hc
      · rcases layout_split w with ⟨a, r, rfl, ha, hr⟩ | ho
        · have hS' := hS (.int .u8) (m + 1) (.int (by rintro (h | h) <;> cases h)) hm1
          rcases seq_scan (L := fun _ t (b : UInt8) => IntTok .u8 t b.toNat) (n := m + 1) (I := ItemAt D x (_ + 1) (.int .u8)) (B := BadTy D x (_ + 1) (.int .u8))
            (X := OddTy D x (_ + 1) (.int .u8)) ⟨hS'.suffix, fun u q h hq => (hS'.text u q h hq).imp fun t ⟨l, v, h1, h2, h3⟩ => by
              obtain ⟨i, -, h4, -⟩ := h3
              obtain ⟨b, rfl⟩ := intTok_byte h4
              exact ⟨l, b, h1, h2, h4⟩, hS'.total⟩ _ r [] [] a (Nat.le_refl _) (.nil ha) trivial hr with ⟨ts, vs, w, r', e, h1, h2⟩ | ⟨e, r', h⟩ | ho
          · have hw : ∃ w', w = '[' :: w' := by cases h1 <;> exact ⟨_, rfl⟩
            refine fin (t := w) e .bytes ⟨vs, .inr ⟨ts, h1, h2⟩, rfl⟩ ?_ ?_ ?_ <;> (obtain ⟨w', rfl⟩ := hw; simp)
          · exact .inr (.inl ⟨_, _, .byteList h⟩)
          · exact .inr (.inr (.byteList ho))
        · exact .inr (.inr (.byteList (.opening ho)))
      · rcases badBytesLit_total b64Found u with ⟨t, v, r, rfl, h⟩ | ⟨e, r, h⟩
        · have ht : ∃ w, t = 'b' :: w := by cases h <;> exact ⟨_, rfl⟩
          obtain ⟨w, rfl⟩ := ht
          exact fin rfl .bytes ⟨v, .inl h, rfl⟩ (by simp) (by simp) (by simp)
        · exact .inr (.inl ⟨_, _, .bytes hc h⟩)
    | unit =>
      by_cases h : ∃ r, u = '(' :: ')' :: r
      · obtain ⟨r, rfl⟩ := h
        exact fin (t := c!"()") rfl .unit ⟨rfl, rfl⟩ (by decide) (by decide) (by decide)
      · exact .inr (.inl ⟨_, _, .unit fun r e => h ⟨r, e⟩⟩)
    | @option _ T hT =>
      have bare : ∀ p u', u = p ++ u' → x.implicitSome = true → SomeBare p u' → NoLayoutStart u' →
          (∃ q, ItemAt D x (f + 1) (.option T) (m + 3) u q) ∨ (∃ e r, BadTy D x (f + 1) (.option T) (m + 3) u e r) ∨ OddTy D x (f + 1) (.option T) (m + 3) u := by
        rintro p u' rfl hi hb hu'
        rcases ih T (m + 2) u' hT (by omega) hu' with ⟨q, h⟩ | ⟨e, r, h⟩ | ho
        · cases h with
          | @delim _ _ t l _ v h hl hq =>
            refine .inl ⟨q, ?_⟩
            rw [← List.append_assoc]
            exact .delim (v := .some v) (.inr (.inr ⟨hi, p, t, v, rfl, someBare_cut hb (ends_xid (ends_of hl hq)), h, rfl⟩)) hl hq
          | whole h hl hq => exact .inl ⟨q, .whole (.implicit hi hb hu' h) hl hq⟩
        · exact .inr (.inl ⟨e, r, .implicit hi hb hu' h⟩)
        · exact .inr (.inr (.implicit hi hb hu' ho))
      by_cases h1 : BeginsWord c!"None" u
      · obtain ⟨r, rfl, hr⟩ := h1
        exact whole (.none hr)
      · by_cases h2 : BeginsWord c!"Some" u
        · obtain ⟨r, rfl, hr⟩ := h2
          rcases layout_split r with ⟨l, q, rfl, hl, hq⟩ | ho
          · rcases head_cases '(' q with ⟨w, rfl⟩ | hc
            · rcases parens_scan (hS T (m + 2) hT (by omega)) .expectedOptionEnd w with ⟨q, r, v, e, h⟩ | ⟨e, r, h⟩ | ho
              · rw [e]
                exact whole (.some hl h)
              · exact .inr (.inl ⟨_, _, .some hl h⟩)
              · exact .inr (.inr (.some hl ho))
            · cases hi : x.implicitSome with
              | false => exact .inr (.inl ⟨_, _, .someOpening hi hl hr hq hc⟩)
              | true => exact bare (c!"Some" ++ l) q (by simp) hi (.inr ⟨l, rfl, hl, hr, fun u e => hc (by rw [e]; rfl)⟩) hq
          · exact .inr (.inr (.someWord hr ho))
        · cases hi : x.implicitSome with
          | false => exact .inr (.inl ⟨_, _, .noOption hi h1 h2⟩)
          | true => exact bare [] u rfl hi (.inl ⟨rfl, h1, h2⟩) hu
    | @seq _ T hT =>
      rcases head_cases '[' u with ⟨w, rfl⟩ | hc
      · rcases layout_split w with ⟨a, r, rfl, ha, hr⟩ | ho
        · rcases seq_scan (hS T (m + 1) hT hm1) _ r [] [] a (Nat.le_refl _) (.nil ha) trivial hr with ⟨ts, vs, w, r', e, h1, h2⟩ | ⟨e, r', h⟩ | ho
          · have hw : ∃ w', w = '[' :: w' := by cases h1 <;> exact ⟨_, rfl⟩
            refine fin (t := w) e .seq ⟨vs, ⟨ts, h1, h2⟩, rfl⟩ ?_ ?_ ?_ <;> (obtain ⟨w', rfl⟩ := hw; simp)
          · exact .inr (.inl ⟨_, _, .seq h⟩)
          · exact .inr (.inr (.seq ho))
        · exact .inr (.inr (.seq (.opening ho)))
      · exact .inr (.inl ⟨_, _, .seq (.opening hc)⟩)
    | @tuple _ Ts hT =>
      rcases head_cases '(' u with ⟨w, rfl⟩ | hc
      · rcases layout_split w with ⟨a, r, rfl, ha, hr⟩ | ho
        · rcases tuple_scan c!"tuple" Ts r [] [] [] a (fun T h => hS T (m + 1) (hT T h) hm1) (.nil ha) trivial hr with ⟨ts, vs, w, r', e, h1, h2⟩ | ⟨e, r', h⟩ | ho
          · have hw : ∃ w', w = '(' :: w' := by cases h1 <;> exact ⟨_, rfl⟩
            refine fin (t := w) e .tuple ⟨vs, ⟨ts, h1, h2⟩, rfl⟩ ?_ ?_ ?_ <;> (obtain ⟨w', rfl⟩ := hw; simp)
          · exact .inr (.inl ⟨_, _, .tuple h⟩)
          · exact .inr (.inr (.tuple ho))
        · exact .inr (.inr (.tuple (.opening ho)))
      · exact .inr (.inl ⟨_, _, .tupleOpening hc⟩)
    | @map _ K V hK hV =>
      rcases head_cases '{' u with ⟨w, rfl⟩ | hc
      · rcases layout_split w with ⟨a, r, rfl, ha, hr⟩ | ho
        · rcases map_scan (hS K (m + 1) hK hm1) (hS V (m + 1) hV hm1) _ r [] [] a (Nat.lt_succ_self _) (.nil ha) trivial hr with ⟨ts, es, w, r', e, h1, h2⟩ | ⟨e, r', h⟩ | ho
          · have hw : ∃ w', w = '{' :: w' := by cases h1 <;> exact ⟨_, rfl⟩
            refine fin (t := w) e .map ⟨es, ⟨ts, h1, h2⟩, rfl⟩ ?_ ?_ ?_ <;> (obtain ⟨w', rfl⟩ := hw; simp)
          · exact .inr (.inl ⟨_, _, .map h⟩)
          · exact .inr (.inr (.map ho))
        · exact .inr (.inr (.map (.opening ho)))
      · exact .inr (.inl ⟨_, _, .map (.opening hc)⟩)
    | @unitStruct _ name =>
      by_cases hr : FullRange name u
      · obtain ⟨h, r, rfl⟩ := hr
        exact whole (.full ⟨h, r, rfl⟩)
      rcases name_total x name u with ⟨e, r, h⟩ | ⟨he, hi⟩ | ⟨tok, z, rfl, ht, hz⟩
      · exact .inr (.inl ⟨_, _, .unitStructName hr h⟩)
      · by_cases h : ∃ r, u = '(' :: ')' :: r
        · obtain ⟨r, rfl⟩ := h
          exact whole (.unitParens hr he)
        · exact .inr (.inl ⟨_, _, .unitStruct hr he hi fun r e => h ⟨r, e⟩⟩)
      · exact whole (.unitName hr ht hz)
    | @newtype _ name T hT =>
      cases hun : x.unwrapNewtypes with
      | true =>
        rcases ih T (m + 2) u hT (by omega) hu with ⟨q, h⟩ | ⟨e, r, h⟩ | h
        · cases h with
          | @delim _ _ _ t l v h hl hq => exact .inl ⟨q, .delim (v := .newtypeStruct name v) ⟨v, rfl, by rw [if_pos hun]; exact h⟩ hl hq⟩
          | whole h hl hq => exact .inl ⟨q, .whole (.unwrapped hun h) hl hq⟩
        · exact .inr (.inl ⟨_, _, .unwrapped hun h⟩)
        · exact .inr (.inr (.unwrapped hun h))
      | false =>
        have opened : ∀ p w, u = p ++ '(' :: w → NamePre x name p → (∃ q, ItemAt D x (f + 1) (.newtype name T) (m + 3) u q) ∨
            (∃ e r, BadTy D x (f + 1) (.newtype name T) (m + 3) u e r) ∨ OddTy D x (f + 1) (.newtype name T) (m + 3) u := by
          intro p w hw hp
          rcases parens_scan (hS T (m + 2) hT (by omega)) .expectedStructLikeEnd w with ⟨q, r, v, e, h⟩ | ⟨e, r, h⟩ | ho
          · refine fin' (t := p ++ q) (r := r) (v := .newtypeStruct name v) (by rw [hw, e, List.append_assoc]) (.newtype hun)
              ⟨v, rfl, by rw [hun]; exact ⟨p, q, rfl, hp, h⟩⟩ ?_
            obtain ⟨a, t, b, -, -, -, rfl⟩ := h
            simp
          · exact .inr (.inl ⟨_, _, by rw [hw]; exact .newtype hun hp h⟩)
          · exact .inr (.inr (by rw [hw]; exact .newtype hp ho))
        rcases name_total x name u with ⟨e, r, h⟩ | ⟨he, hi⟩ | ⟨tok, z, rfl, ht, hz⟩
        · exact .inr (.inl ⟨_, _, .name (.newtype hun) h⟩)
        · rcases head_cases '(' u with ⟨w, rfl⟩ | hc
          · exact opened [] w rfl (.inl ⟨he, rfl⟩)
          · exact .inr (.inl ⟨_, _, .nameless (.newtype hun) he hi hu hc⟩)
        · rcases layout_split z with ⟨l, q, rfl, hl, hq⟩ | ho
          · rcases head_cases '(' q with ⟨w, rfl⟩ | hc
            · exact opened (tok ++ l) w (by simp) (.inr ⟨tok, l, ht, hl, rfl⟩)
            · exact .inr (.inl ⟨_, _, .newtypeOpening hun ht hz hl hq hc⟩)
          · exact .inr (.inr (.newtypeName ht ho))
    | @tupleStruct _ name Ts hT =>
      have opened : ∀ p w, u = p ++ '(' :: w → NameTight x name p → (∃ q, ItemAt D x (f + 1) (.tupleStruct name Ts) (m + 3) u q) ∨
          (∃ e r, BadTy D x (f + 1) (.tupleStruct name Ts) (m + 3) u e r) ∨ OddTy D x (f + 1) (.tupleStruct name Ts) (m + 3) u := by
        intro p w hw hp
        rcases layout_split w with ⟨a, r, rfl, ha, hr⟩ | ho
        · rcases tuple_scan c!"tuple struct" Ts r [] [] [] a (fun T h => hS T (m + 1) (hT T h) hm1) (.nil ha) trivial hr with ⟨ts, vs, w, r', e, h1, h2⟩ | ⟨e, r', h⟩ | ho
          · refine fin' (t := p ++ w) (r := r') (v := .tupleStruct name vs) (by rw [hw, e, List.append_assoc]) .tupleStruct ⟨p, w, vs, rfl, hp, ⟨ts, h1, h2⟩, rfl⟩ ?_
            have hw : ∃ w', w = '(' :: w' := by cases h1 <;> exact ⟨_, rfl⟩
            obtain ⟨w', rfl⟩ := hw
            simp
          · exact .inr (.inl ⟨_, _, by rw [hw]; exact .tupleStruct hp h⟩)
          · exact .inr (.inr (by rw [hw]; exact .tupleStruct hp ho))
        · exact .inr (.inr (by rw [hw]; exact .tupleStruct hp (.opening ho)))
      rcases name_total x name u with ⟨e, r, h⟩ | ⟨he, hi⟩ | ⟨tok, z, rfl, ht, hz⟩
      · exact .inr (.inl ⟨_, _, .name .tupleStruct h⟩)
      · rcases head_cases '(' u with ⟨w, rfl⟩ | hc
        · exact opened [] w rfl (.inl ⟨he, rfl⟩)
        · exact .inr (.inl ⟨_, _, .nameless .tupleStruct he hi hu hc⟩)
      · rcases head_cases '(' z with ⟨w, rfl⟩ | hc
        · exact opened tok w rfl (.inr ht)
        · exact .inr (.inl ⟨_, _, .tupleStructOpening ht hz hc⟩)
    | @struct _ name deny fields _ hT =>
      by_cases hR : RangeHead name (fields.map Prod.fst) u
      · rcases range_total hR with ⟨es, r, he, h⟩ | ⟨e, r, h⟩
        · rcases bounds_total (as := NumAs D f) (no := NoNumber D f) (fun F hF => covered_number (hT F hF)) he with ⟨fs, hf⟩ | hb
          · exact whole (.range h hf)
          · exact .inr (.inl ⟨_, _, .bound h hb⟩)
        · exact .inr (.inl ⟨_, _, .range h⟩)
      have opened : ∀ p w, u = p ++ '(' :: w → NamePre x name p → (∃ q, ItemAt D x (f + 1) (.struct name deny fields) (m + 3) u q) ∨
          (∃ e r, BadTy D x (f + 1) (.struct name deny fields) (m + 3) u e r) ∨ OddTy D x (f + 1) (.struct name deny fields) (m + 3) u := by
        intro p w hw hp
        rcases layout_split w with ⟨a, r, rfl, ha, hr⟩ | ho
        · rcases fields_scan x.implicitSome (Optional D f) _ fields (fun F h => hS F.2 (m + 1) (hT F h) hm1) _ r [] [] a (Nat.lt_succ_self _) (.nil ha) trivial (by simp) hr with
            ⟨w, r', fs, e, h⟩ | ⟨e, r', h⟩ | ho
          · rw [hw, e]
            exact whole (.fields hp h)
          · exact .inr (.inl ⟨_, _, by rw [hw]; exact .struct hp h⟩)
          · exact .inr (.inr (by rw [hw]; exact .struct hp ho))
        · exact .inr (.inr (by rw [hw]; exact .struct hp (.opening ho)))
      rcases name_total x name u with ⟨e, r, h⟩ | ⟨he, hi⟩ | ⟨tok, z, rfl, ht, hz⟩
      · exact .inr (.inl ⟨_, _, .name (.struct hR) h⟩)
      · rcases head_cases '(' u with ⟨w, rfl⟩ | hc
        · exact opened [] w rfl (.inl ⟨he, rfl⟩)
        · exact .inr (.inl ⟨_, _, .nameless (.struct hR) he hi hu hc⟩)
      · rcases layout_split z with ⟨l, q, rfl, hl, hq⟩ | ho
        · rcases head_cases '(' q with ⟨w, rfl⟩ | hc
          · exact opened (tok ++ l) w (by simp) (.inr ⟨tok, l, ht, hl, rfl⟩)
          · exact .inr (.inl ⟨_, _, .structOpening ht hz hl hq hR hc⟩)
        · exact .inr (.inr (.structName ht ho))
    | @enum _ name variants _ hT =>
      rcases word_total u with ⟨id, tok, z, rfl, ht, hz⟩ | ⟨e, h⟩
      · cases hf : variants.find? (fun e => e.1 = id) with
        | none =>
          refine .inr (.inl ⟨_, _, .variant ht (fun hm => ?_) hz⟩)
          obtain ⟨F, hF, rfl⟩ := List.mem_map.mp hm
          have := List.find?_eq_none.mp hf F hF
          simp at this
        | some F =>
          obtain ⟨id', k⟩ := F
          have hid := List.find?_some hf
          simp only [decide_eq_true_eq] at hid
          subst hid
          have hmem := List.mem_of_find?_eq_some hf
          have hK := hT _ hmem
          rcases layout_split z with ⟨l, q, rfl, hl, hq⟩ | ho
          · cases k with
            | unit => exact whole (.variant ht hf hz)
            | newtype T =>
              rcases head_cases '(' q with ⟨w, rfl⟩ | hc
              · have hS' := hS T (m + 1) (hK T (by simp [Variant.types])) hm1
                rcases parens_scan (L := TyLang D x f T) (I := ItemAt D x f T) (X := OddTy D x f T)
                  (B := fun n u e r => ∃ e', BadTy D x f T n u e' r ∧ e = e'.inStruct (some id')) (n := m + 1)
                  ⟨hS'.suffix, hS'.text, fun u hu => (hS'.total u hu).imp id (Or.imp (fun ⟨e, r, h⟩ => ⟨_, r, e, h, rfl⟩) id)⟩ .expectedStructLikeEnd w with
                  ⟨q, r, v, e, h⟩ | ⟨e, r, h⟩ | ho
                · rw [e, ← List.append_assoc l]
                  exact whole (.data ht hf trivial ⟨l, q, v, rfl, hl, h, rfl⟩)
                · exact .inr (.inl ⟨_, _, .data ht hf hz hl hq (.newtype h)⟩)
                · exact .inr (.inr (.data ht hf hl (.newtype ho)))
              · exact .inr (.inl ⟨_, _, .data ht hf hz hl hq (.opening trivial hc)⟩)
            | tuple Ts =>
              rcases head_cases '(' q with ⟨w, rfl⟩ | hc
              · rcases layout_split w with ⟨a, r, rfl, ha, hr⟩ | ho
                · rcases tuple_scan c!"tuple variant" Ts r [] [] [] a (fun T h => hS T m (hK T h) hm) (.nil ha) trivial hr with ⟨ts, vs, w, r', e, h1, h2⟩ | ⟨e, r', h⟩ | ho
                  · rw [e, ← List.append_assoc l]
                    exact whole (.data ht hf trivial ⟨l, w, vs, rfl, hl, ⟨ts, h1, h2⟩, rfl⟩)
                  · exact .inr (.inl ⟨_, _, .data ht hf hz hl hq (.tuple h)⟩)
                  · exact .inr (.inr (.data ht hf hl (.tuple ho)))
                · exact .inr (.inr (.data ht hf hl (.tuple (n := m + 2) (.opening ho))))
              · exact .inr (.inl ⟨_, _, .data ht hf hz hl hq (.opening trivial hc)⟩)
            | struct deny fields =>
              rcases head_cases '(' q with ⟨w, rfl⟩ | hc
              · rcases layout_split w with ⟨a, r, rfl, ha, hr⟩ | ho
                · rcases fields_scan x.implicitSome (Optional D f) _ fields (fun F h => hS F.2 m (hK F.2 (List.mem_map.mpr ⟨F, h, rfl⟩)) hm) _ r [] [] a (Nat.lt_succ_self _) (.nil ha)
                    trivial (by simp) hr with ⟨w, r', fs, e, h⟩ | ⟨e, r', h⟩ | ho
                  · rw [e, ← List.append_assoc l]
                    exact whole (.data ht hf trivial ⟨l, w, fs, rfl, hl, h, rfl⟩)
                  · exact .inr (.inl ⟨_, _, .data ht hf hz hl hq (.struct h)⟩)
                  · exact .inr (.inr (.data ht hf hl (.struct ho)))
                · exact .inr (.inr (.data ht hf hl (.struct (n := m + 2) (.opening ho))))
              · exact .inr (.inl ⟨_, _, .data ht hf hz hl hq (.opening trivial hc)⟩)
          · exact .inr (.inr (.variant ht (List.mem_map.mpr ⟨_, hmem, rfl⟩) ho))
      · exact .inr (.inl ⟨_, _, .word (n := m + 1) h hu⟩)
    | @ref _ i hi =>
      rcases ih (D i) (m + 3) u hi (by omega) hu with ⟨q, h⟩ | ⟨e, r, h⟩ | h
      · cases h with
        | delim h hl hq => exact .inl ⟨q, .delim h hl hq⟩
        | whole h hl hq => exact .inl ⟨q, .whole (.ref h) hl hq⟩
      · exact .inr (.inl ⟨_, _, .ref h⟩)
      · exact .inr (.inr (.ref h))

end

end Ron
