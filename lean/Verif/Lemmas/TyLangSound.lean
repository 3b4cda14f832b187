import Verif.Lemmas.LangDoc
import Verif.Lemmas.BadNumbers
import Verif.Lemmas.BadFloats
import Verif.Lemmas.OneChar
import Verif.Lemmas.Fields
import Verif.Lemmas.TyCompound
import Verif.Lemmas.Typed
import Verif.Lemmas.RangeAt
/-!
# A type accepts nothing but its language

What is read as data of a type is a text of `TyLang`.
-/

namespace Ron

/-- Layout may stand before the text: `deserialize_enum` skips it. -/
def Hat {α : Type} (R : Text → α → Prop) (t : Text) (a : α) : Prop := ∃ l t', Layout l ∧ t = l ++ t' ∧ R t' a

theorem Hat.of {α : Type} {R : Text → α → Prop} {t : Text} {a : α} (h : R t a) : Hat R t a := ⟨[], t, .nil, rfl, h⟩

theorem Hat.imp' {α β : Type} {R : Text → α → Prop} {R' : Text → β → Prop} {t : Text} {a : α} {b : β} (h : Hat R t a)
    (hr : ∀ t, R t a → R' t b) : Hat R' t b := by
  obtain ⟨l, t', h1, h2, h3⟩ := h
  exact ⟨l, t', h1, h2, hr _ h3⟩

theorem Hat.imp {α : Type} {R R' : Text → α → Prop} {t : Text} {a : α} (h : Hat R t a) (hr : ∀ t a, R t a → R' t a) : Hat R' t a := by
  obtain ⟨l, t', h1, h2, h3⟩ := h
  exact ⟨l, t', h1, h2, hr _ _ h3⟩

/-- Layout before the items belongs to the layout between them. -/
theorem body_hat {α : Type} {R : Text → α → Prop} : ∀ {ts : List Text} {u : Text} {as : List α}, Body ts u → All2 (Hat R) ts as →
    ∃ l ts' u', Layout l ∧ u = l ++ u' ∧ Body ts' u' ∧ All2 R ts' as
  | _, _, [], .one, h => h.elim
  | _, _, [], .cons .., h => h.elim
  | _, _, [a], .one, ⟨⟨l, t', h1, h2, h3⟩, _⟩ => ⟨l, [t'], t', h1, h2, .one, h3, trivial⟩
  | _, _, _ :: _ :: _, .one, ⟨_, h⟩ => h.elim
  | _, _, a :: as, .cons (ts := ts) hb ha hB, ⟨⟨l, t', h1, h2, h3⟩, h⟩ => by
    obtain ⟨m, ts', u', g1, rfl, g3, g4⟩ := body_hat hB h
    subst h2
    refine ⟨l, t' :: ts', _, h1, ?_, .cons hb (ha.append g1) g3, h3, g4⟩
    simp

theorem Items.hat {α : Type} {R : Text → α → Prop} {as : List α} {w : Text} (h : Items (Hat R) as w) : Items R as w := by
  obtain ⟨ts, h1, ⟨rfl, h2⟩ | ⟨a, u, t, h2, h3, h4, rfl⟩⟩ := h
  · cases as with
    | nil => exact .nil h2
    | cons _ _ => exact h1.elim
  · obtain ⟨l, ts', u', g1, rfl, g3, g4⟩ := body_hat h3 h1
    exact ⟨ts', g4, .inr ⟨a ++ l, u', t, h2.append g1, g3, h4, by simp⟩⟩

theorem Items.imp {α : Type} {R R' : Text → α → Prop} {as : List α} {w : Text} (h : Items R as w) (hr : ∀ t a, R t a → R' t a) :
    Items R' as w := by
  obtain ⟨ts, h1, h2⟩ := h
  exact ⟨ts, All2.imp hr h1, h2⟩

/-- Layout before keys and values belongs to the layout around them. -/
theorem entry_hat {κ ν : Type} {K : Text → κ → Prop} {V : Text → ν → Prop} {t : Text} {e : κ × ν} (h : EntryR (Hat K) (Hat V) t e) :
    Hat (EntryR K V) t e := by
  obtain ⟨k, v, ⟨l, k', h1, rfl, h3⟩, ⟨m, v', g1, rfl, g3⟩, ⟨e1, e2⟩⟩ := h
  exact ⟨l, k' ++ (_ ++ ':' :: ((_ ++ m) ++ v')), h1, by simp, k', v', h3, g3, .mk e1 (e2.append g1)⟩

variable [Env]

/-! ### Tokens -/

theorem tok_snd {α : Type} {f : P α} {R : Text → α → Prop} {x : Exts} {L : Option Nat} (hs : Safe f) (hk : ∀ p k, Kw p k f)
    (h : ∀ s a s', s.Inside → s.nv = false → f s = .ok a s' → Ends s'.rest → ∃ t, t ≠ [] ∧ s.rest = t ++ s'.rest ∧ R t a) : Snd x L f R := by
  intro s a s' hc hl e
  obtain ⟨c, w⟩ := (Sf.kw hs hk).spot hc e
  refine ⟨c, w, fun he => ?_⟩
  obtain ⟨t, h1, h2, h3⟩ := h s a s' hc.inside hc.nv e he
  refine ⟨t, _, h2, .inl ⟨rfl, Kw.moved hk hc.tracked e ?_⟩, h3⟩
  rw [h2, List.length_append]
  have := List.length_pos_iff.mpr h1
  omega

/-- A result that is passed on. -/
theorem Snd.map {α β : Type} {x : Exts} {L : Option Nat} {f : P α} {g : α → β} {R : Text → α → Prop} {R' : Text → β → Prop} (h : Snd x L f R)
    (hr : ∀ t a, R t a → R' t (g a)) : Snd x L (do let a ← f; pure (g a)) R' := by
  intro s b s' hc hl e
  replace e := bind_ok e; obtain ⟨a, s1, e1, e⟩ := e
  cases e
  obtain ⟨h1, h2, h3⟩ := h _ _ _ hc hl e1
  refine ⟨h1, h2, fun he => ?_⟩
  obtain ⟨t, u, m1, m2, m3⟩ := h3 he
  exact ⟨t, u, m1, m2, hr _ _ m3⟩

omit [Env] in
theorem byteLiteral_one (b : Text) : byteLiteral (.one .u8) b = byteLiteral .any b := by
  unfold byteLiteral
  rfl

theorem integer_text {T : IntTy} {s s' : St} {a : IntTy × Int} (hi : s.Inside) (hnv : s.nv = false) (h : integer (.one T) s = .ok a s') (he : Ends s'.rest) :
    ∃ t, t ≠ [] ∧ s.rest = t ++ s'.rest ∧ a.1 = T ∧ IntTok T t a.2 := by
  obtain ⟨T', v⟩ := a
  have hT : T' = T := (integer_wf h).2.1 T rfl
  subst hT
  by_cases hb : startsWith s.rest c!"b'" = true
  · obtain ⟨r, hr⟩ := (startsWith_iff _ _).mp hb
    have hr : s.rest = 'b' :: '\'' :: r := hr
    unfold integer at h
    rw [getSt_bind] at h
    have e1 : peekCharOrEof s = .ok 'b' s := by simp only [peekCharOrEof, hr]
    rw [bind_apply, e1] at h
    simp only at h
    rw [if_neg (by decide), if_neg (by decide)] at h
    replace h := bind_ok h; obtain ⟨b, s1, h1, h⟩ := h
    rw [if_pos (by decide)] at h1
    rcases consumeStr_inv h1 with ⟨rfl, r1, -⟩ | ⟨-, -, r1⟩
    · replace h := if_tt h
      have hw := byteLiteral_wf h
      obtain rfl : T' = .u8 := hw.1
      rw [byteLiteral_one] at h
      obtain ⟨t, n, g1, g2, g3, -⟩ := byteLiteral_sound h
      cases g3
      refine ⟨'b' :: '\'' :: t, by simp, ?_, rfl, .byte rfl g2⟩
      rw [r1, g1]; rfl
    · rw [r1] at hb; cases hb
  · obtain ⟨t, ht⟩ := (Safe.integer (.one T') |>.from hi h).rest
    have hne : t ≠ [] := by
      rintro rfl
      have hx := integer_E (tg := .one T') (At.refl hi hnv)
      rw [h] at hx
      have hx := hx.lt rfl
      rw [← ht] at hx
      simp at hx
    have hb' : startsWith t c!"b'" = false := by
      rw [← ht, startsWith_ends he (by decide)] at hb; simpa using hb
    have hcut : Cut s'.rest s { s with rest := t } := ⟨ht.symm⟩
    obtain ⟨t', g1, g2⟩ := (Bi.integer (tg := .one T') he hcut hne hb').trunc _ _ h (Nat.le_refl _)
    have hnil : t'.rest = [] := by
      have := congrArg List.length g2.rest
      simp only [List.length_append] at this
      exact List.eq_nil_of_length_eq_zero (by omega)
    refine ⟨t, hne, ht.symm, rfl, .digits ?_⟩
    have hnb : ∀ r, t ≠ 'b' :: '\'' :: r := by rintro r rfl; exact absurd hb' (by simp)
    rcases int_total T' t with ⟨v', r', hg⟩ | ⟨e, r', hg⟩
    · obtain ⟨_, h3, rfl, -⟩ := integer_good (s := { s with rest := t }) rfl hnb hg
      rw [h3] at g1; cases g1; rw [hnil] at hg; exact hg
    · obtain ⟨_, h3, -⟩ := integer_badInt (s := { s with rest := t }) rfl hnb hg
      rw [h3] at g1; cases g1

theorem integer_snd (T : IntTy) (x : Exts) (L : Option Nat) :
    Snd x L (integer (.one T)) (fun t a => a.1 = T ∧ IntTok T t a.2) :=
  tok_snd (.integer _) (fun _ _ => .integer _) fun _ _ _ => integer_text

theorem float_text {b : Bool} {s s' : St} {v : Number} (hi : s.Inside) (h : float (realTarget b) s = .ok v s') (he : Ends s'.rest) :
    ∃ t, t ≠ [] ∧ s.rest = t ++ s'.rest ∧ GoodFloat b t v [] := by
  obtain ⟨t, ht⟩ := (Safe.float (realTarget b) |>.from hi h).rest
  have hcut : Cut s'.rest s { s with rest := t } := ⟨ht.symm⟩
  obtain ⟨t', g1, g2⟩ := (Bi.float (tg := realTarget b) he hcut).trunc _ _ h (Nat.le_refl _)
  have hnil : t'.rest = [] := by
    have := congrArg List.length g2.rest
    simp only [List.length_append] at this
    exact List.eq_nil_of_length_eq_zero (by omega)
  have hne : t ≠ [] := by
    rintro rfl
    obtain ⟨e, he⟩ := float_nil (s := { s with rest := [] }) rfl (realTarget b)
    rw [he] at g1; cases g1
  refine ⟨t, hne, ht.symm, ?_⟩
  rcases float_total b t with ⟨v', r', hg⟩ | ⟨e, r', hg⟩
  · obtain ⟨_, h3, rfl, -⟩ := float_good (s := { s with rest := t }) rfl hg
    rw [h3] at g1; cases g1; rw [hnil] at hg; exact hg
  · obtain ⟨_, h3, -⟩ := float_bad (s := { s with rest := t }) rfl hg
    rw [h3] at g1; cases g1

theorem float_snd (b : Bool) (x : Exts) (L : Option Nat) : Snd x L (float (realTarget b)) (fun t m => GoodFloat b t m []) :=
  tok_snd (.float _) (fun _ _ => .float _) fun _ _ _ hi _ => float_text hi

theorem string_snd (x : Exts) (L : Option Nat) : Snd x L string StrLit :=
  tok_snd .string (fun _ _ => .string) fun s a s' _ _ h _ => by
    obtain ⟨t, h1, h2, -⟩ := string_sound h
    exact ⟨t, strLit_ne h2, h1, h2⟩

theorem byteString_snd (x : Exts) (L : Option Nat) : Snd x L byteString BytesLit :=
  tok_snd .byteString (fun _ _ => .byteString) fun s a s' _ _ h _ => by
    obtain ⟨t, h1, h2, -⟩ := byteString_sound h
    exact ⟨t, bytesLit_ne h2, h1, h2⟩

theorem charLit_snd (x : Exts) (L : Option Nat) : Snd x L charLit CharLit :=
  tok_snd .charLit (fun _ _ => .charLit) fun s a s' _ _ h _ => by
    obtain ⟨t, h1, h2, -⟩ := charLit_sound h
    exact ⟨t, charLit_ne h2, h1, h2⟩

theorem bool_snd (x : Exts) (L : Option Nat) : Snd x L Ron.bool (fun t b => t = if b then c!"true" else c!"false") := by
  refine tok_snd .bool (fun _ _ => by unfold Ron.bool; repeat kw_step) fun s a s' _ _ h _ => ?_
  unfold Ron.bool at h
  rw [bind_apply] at h
  rcases consumeIdent_cases c!"true" s with ⟨r, h1, -, h2⟩ | ⟨-, h2⟩
  · rw [h2] at h; cases h
    exact ⟨c!"true", by simp, h1, rfl⟩
  · rw [h2] at h
    replace h := if_ff h
    rw [bind_apply] at h
    rcases consumeIdent_cases c!"false" s with ⟨r, h1, -, h2⟩ | ⟨-, h2⟩
    · rw [h2] at h; cases h
      exact ⟨c!"false", by simp, h1, rfl⟩
    · rw [h2] at h; cases h

theorem unit_snd (x : Exts) (L : Option Nat) : Snd x L deUnit (fun t _ => t = c!"()") := by
  intro s a s' hc hl h
  unfold deUnit at h
  rw [getSt_bind] at h
  simp only [hc.nv, Bool.false_eq_true, ↓reduceIte] at h
  replace h := bind_ok h; obtain ⟨b, s1, h1, h⟩ := h
  obtain ⟨c1, x1⟩ := (Sf.consumeStr c!"()").spot hc h1
  rcases consumeStr_inv h1 with ⟨rfl, r1, -⟩ | ⟨rfl, -, -⟩
  · replace h := if_tt h
    rw [setNv_apply] at h
    cases h
    have m1 := Kw.moved (fun _ _ => Kw.consumeStr c!"()") hc.tracked h1 (by rw [r1]; simp; omega)
    exact ⟨⟨⟨c1.inside.rest, c1.inside.prev, c1.inside.preWs⟩, c1.tracked, rfl, c1.exts, c1.limit⟩, x1,
      fun _ => ⟨c!"()", _, r1, .inl ⟨rfl, m1⟩, rfl⟩⟩
  · replace h := if_ff h
    cases h

/-! ### Levels -/

theorem deeper_guardQ {α : Type} {x : Exts} {n : Nat} {f : P α} {R : Nat → Text → α → Prop} (h : Snd x (some (n - 1)) f (Hat (R (n - 1)))) :
    Snd x (some n) (deGuardQ f) (Hat (Deeper R n)) := by
  refine (Snd.guardQ (L := some n) h).imp fun t a ⟨hn, hr⟩ => ?_
  cases n with
  | zero => exact absurd rfl hn
  | succ n => exact hr

theorem deeper_guardR {α : Type} {x : Exts} {n : Nat} {f : P α} {R : Nat → Text → α → Prop} (h : Snd x (some (n - 1)) f (Hat (R (n - 1)))) :
    Snd x (some n) (deGuardR f) (Hat (Deeper R n)) := by
  refine (Snd.guardR (L := some n) h).imp fun t a ⟨hn, hr⟩ => ?_
  cases n with
  | zero => exact absurd rfl hn
  | succ n => exact hr

theorem deeper_of {α : Type} {R : Nat → Text → α → Prop} {n : Nat} {w : Text} {a : α} (hn : some n ≠ some 0) (h : R (n - 1) w a) : Deeper R n w a := by
  cases n with
  | zero => exact absurd rfl hn
  | succ n => exact h

/-! ### Sequences and maps -/

theorem seq_snd {α : Type} {x : Exts} {n : Nat} {f : P α} {R : Nat → Text → α → Prop} (h : ∀ n, Snd x (some n) f (Hat (R n))) :
    Snd x (some n) (deSeq (readSeq ']' f)) (SeqText R n) := by
  intro s a s' hc hl e
  have hv : Vis x (lower (some n)) ']' (readSeq ']' f) (fun w as => Items (Deeper R (n - 1)) as w) := by
    intro p b p' hp e
    obtain ⟨c1, w, u, h1, h2, h3⟩ := readSeq_snd (deeper_guardQ (n := n - 1) (h _)) (by simp) hp e
    exact ⟨c1, w, u, h1, h2, h3.hat⟩
  obtain ⟨hn, ⟨c1, m1⟩, w, h1, h2⟩ := deSeq_snd hv hc e
  have h1 : s.rest = ('[' :: (w ++ [']'])) ++ s'.rest := by rw [h1]; simp
  refine ⟨c1, ⟨_, h1.symm⟩, fun _ => ⟨_, _, h1, .inl ⟨rfl, m1⟩, ?_⟩⟩
  obtain ⟨ts, g1, g2⟩ := h2.delim (o := '[') (c := ']')
  exact deeper_of hn ⟨ts, g2, g1⟩

theorem map_snd {x : Exts} {n : Nat} {fk fv : P SVal} {K V : Nat → Text → SVal → Prop} (hk : ∀ n, Snd x (some n) fk (Hat (K n)))
    (hv : ∀ n, Snd x (some n) fv (Hat (V n))) : Snd x (some n) (deMap (readMap '}' fk fv)) (MapText K V n) := by
  intro s a s' hc hl e
  have hvis : Vis x (lower (some n)) '}' (readMap '}' fk fv) (fun w as => Items (EntryR (Deeper K (n - 1)) (Deeper V (n - 1))) as w) := by
    intro p b p' hp e
    obtain ⟨c1, w, u, h1, h2, h3⟩ := readMap_snd (deeper_guardR (n := n - 1) (hk _)) (deeper_guardQ (n := n - 1) (hv _)) (by simp) hp e
    exact ⟨c1, w, u, h1, h2, (h3.imp fun _ _ => entry_hat).hat⟩
  obtain ⟨hn, ⟨c1, m1⟩, w, h1, h2⟩ := deMap_snd hvis hc e
  have h1 : s.rest = ('{' :: (w ++ ['}'])) ++ s'.rest := by rw [h1]; simp
  refine ⟨c1, ⟨_, h1.symm⟩, fun _ => ⟨_, _, h1, .inl ⟨rfl, m1⟩, ?_⟩⟩
  obtain ⟨ts, g1, g2⟩ := h2.delim (o := '{') (c := '}')
  exact deeper_of hn ⟨ts, g2, g1⟩

/-! ### Tuples -/

theorem tupleLoop_snd {x : Exts} {n : Nat} {rec : Ty → P SVal} {R : Ty → Text → SVal → Prop} {ex : Text} : ∀ (Ts : List Ty),
    (∀ T ∈ Ts, Snd x (some n) (deGuardQ (rec T)) (R T)) → ∀ {i : Nat} {had : Bool} {s s' : St} {vs : List SVal}, Spot x (some n) s →
    tupleLoop ex (Ts.map rec) i had s = .ok vs s' → Spot x (some n) s' ∧ s'.rest <:+ s.rest ∧ vs.length = Ts.length ∧
      (had = false → Ts = [] ∧ s' = s) ∧ ∀ l u, s'.rest = l ++ ')' :: u → Layout l →
        ∃ w, s.rest = w ++ s'.rest ∧ Items (fun t (p : Ty × SVal) => R p.1 t p.2) (Ts.zip vs) (w ++ l) := by
  intro Ts
  induction Ts with
  | nil =>
    intro _ i had s s' vs hc e
    cases e
    exact ⟨hc, List.suffix_refl _, rfl, fun _ => ⟨rfl, rfl⟩, fun l u _ hl => ⟨[], rfl, .nil hl⟩⟩
  | cons T Ts ih =>
    intro hR i had s s' vs hc e
    simp only [List.map_cons, tupleLoop] at e
    replace e := bind_ok e; obtain ⟨r, s1, e1, e⟩ := e
    obtain ⟨c1, x1, ⟨rfl, -⟩ | ⟨hh, a, ⟨rfl, hr⟩ | ⟨rfl, hr⟩⟩⟩ := nextElement_snd (hR T (by simp)) hc e1
    · cases e
    · simp only at e
      replace e := bind_ok e; obtain ⟨as, s2, e2, e⟩ := e
      cases e
      obtain ⟨c2, x2, hl2, hf, -⟩ := ih (fun T h => hR T (by simp [h])) c1 e2
      obtain ⟨rfl, rfl⟩ := hf rfl
      refine ⟨c2, x1, by simp [hl2], by simp [hh], fun l u hs hl => ?_⟩
      obtain ⟨l', t, b, g1, g2, g3, g4⟩ := hr l u hs hl (by simp)
      cases as with
      | cons _ _ => simp at hl2
      | nil =>
        refine ⟨l' ++ (t ++ b), by rw [g4]; simp, ?_⟩
        have := Items.last (R := fun t (p : Ty × SVal) => R p.1 t p.2) (a := (T, a)) g1 g2 (.plain (g3.append hl))
        simpa using this
    · simp only at e
      replace e := bind_ok e; obtain ⟨as, s2, e2, e⟩ := e
      cases e
      obtain ⟨c2, x2, hl2, hf, hi⟩ := ih (fun T h => hR T (by simp [h])) c1 e2
      refine ⟨c2, x2.trans x1, by simp [hl2], by simp [hh], fun l u hs hl => ?_⟩
      obtain ⟨w, k1, k2⟩ := hi l u hs hl
      obtain ⟨l', t, b, c, g1, g2, g3, g4, g5⟩ := hr (suffix_ne x2 (by rw [hs]; simp))
      refine ⟨l' ++ (t ++ (b ++ ',' :: (c ++ w))), by rw [g5, k1]; simp, ?_⟩
      have := Items.cons (R := fun t (p : Ty × SVal) => R p.1 t p.2) (a := (T, a)) g1 g2 g3 g4 k2
      simpa using this

theorem all3_zip {R : Ty → Text → SVal → Prop} : ∀ {Ts : List Ty} {vs : List SVal} {ts : List Text}, vs.length = Ts.length →
    All2 (fun t (p : Ty × SVal) => R p.1 t p.2) ts (Ts.zip vs) → All3 R Ts ts vs
  | [], [], [], _, _ => trivial
  | [], [], _ :: _, _, h => h.elim
  | _ :: _, _ :: _, [], _, h => h.elim
  | _ :: _, _ :: _, _ :: _, hl, h => ⟨h.1, all3_zip (by simpa using hl) h.2⟩
  | [], _ :: _, _, hl, _ => by simp at hl
  | _ :: _, [], _, hl, _ => by simp at hl

/-- `skip_ws; consume_char(c)`. -/
theorem close_text {α : Type} {c : Char} {v : α} {e : Err} {x : Exts} {L : Option Nat} {s s' : St} {a : α} (hs : Spot x L s)
    (h : (do skipWs; if ← consumeChar c then pure v else fail e : P α) s = .ok a s') :
    (Spot x L s' ∧ Moved s') ∧ a = v ∧ ∃ l, Layout l ∧ s.rest = l ++ c :: s'.rest := by
  replace h := bind_ok h; obtain ⟨_, s3, h3, h⟩ := h
  replace h := bind_ok h; obtain ⟨b, s4, h4, h⟩ := h
  obtain ⟨c3, -⟩ := Sf.skipWs.spot hs h3
  have c4 := ((Sf.consumeChar c).spot c3 h4).1
  rcases consumeChar_inv h4 with ⟨rfl, hr, -⟩ | ⟨rfl, -, -⟩
  · replace h := if_tt h
    cases h
    obtain ⟨-, l, hl, hl', -⟩ := skipWs_inv_ne h3 (by rw [hr]; simp)
    exact ⟨⟨c4, Kw.moved (fun _ _ => Kw.consumeChar c) c3.tracked h4 (by rw [hr]; simp)⟩, rfl, l, hl', by rw [hl, hr]⟩
  · replace h := if_ff h
    cases h

omit [Env] in
theorem Spot.setNv {x : Exts} {L : Option Nat} {s : St} (h : Spot x L s) : { s with nv := false } = s := by
  rw [← h.nv]

omit [Env] in
theorem guardQ_at {α : Type} {x : Exts} {n : Nat} {f : P α} {s s' : St} {a : α} (hc : Spot x (some n) s) (e : deGuardQ f s = .ok a s') :
    some n ≠ some 0 ∧ ∃ s1, Spot x (some (n - 1)) { s with limit := some (n - 1) } ∧ f { s with limit := some (n - 1) } = .ok a s1 ∧
      s1.rest = s'.rest ∧ (Spot x (some (n - 1)) s1 → Spot x (some n) s') := by
  unfold deGuardQ at e
  rw [hc.limit] at e
  cases n with
  | zero => cases e
  | succ n =>
    refine ⟨by simp, ?_⟩
    simp only [Option.map_some, Nat.add_sub_cancel] at e ⊢
    generalize hf : f { s with limit := some n } = r at e
    cases r with
    | err _ _ => cases e
    | ok b t =>
      cases e
      refine ⟨t, ⟨⟨hc.inside.rest, hc.inside.prev, hc.inside.preWs⟩, hc.tracked, hc.nv, hc.exts, rfl⟩, rfl, rfl, fun h => ?_⟩
      exact ⟨⟨h.inside.rest, h.inside.prev, h.inside.preWs⟩, h.tracked, h.nv, h.exts, by simp only [h.limit]; rfl⟩

theorem deTuple_text {x : Exts} {n : Nat} {rec : Ty → P SVal} {R : Ty → Nat → Text → SVal → Prop} {ex : Text} {Ts : List Ty}
    (h : ∀ T ∈ Ts, ∀ n, Snd x (some n) (rec T) (Hat (R T n))) {s s' : St} {vs : List SVal} (hc : Spot x (some n) s)
    (e : deTuple (tupleLoop ex (Ts.map rec) 0 true) s = .ok vs s') :
    (Spot x (some n) s' ∧ Moved s') ∧ ∃ w, s.rest = w ++ s'.rest ∧ TupleText R Ts n w vs := by
  unfold deTuple at e
  rw [getSt_bind] at e
  simp only [hc.nv, Bool.false_eq_true, ↓reduceIte] at e
  replace e := bind_ok e; obtain ⟨b, s1, e1, e⟩ := e
  obtain ⟨c1, x1⟩ := (Sf.consumeChar '(').spot hc e1
  rcases consumeChar_inv e1 with ⟨rfl, hr, -⟩ | ⟨rfl, -, -⟩
  · replace e := if_tt e
    rw [bind_apply, setNv_apply] at e
    simp only [c1.setNv] at e
    replace e := bind_ok e; obtain ⟨vs', s2, e2, e⟩ := e
    obtain ⟨hn, s3, c2, e3, r3, k3⟩ := guardQ_at c1 e2
    obtain ⟨g1, g2, g3, -, g4⟩ := tupleLoop_snd Ts (R := fun T => Hat (Deeper (R T) (n - 1))) (fun T hT => deeper_guardQ (h T hT _)) c2 e3
    obtain ⟨f1, rfl, l, hl, f3⟩ := close_text (k3 g1) e
    obtain ⟨w, i1, i2⟩ := g4 l _ (r3.trans f3) hl
    have i1 : s1.rest = w ++ s3.rest := i1
    refine ⟨f1, '(' :: ((w ++ l) ++ [')']), by rw [hr, i1, r3, f3]; simp, ?_⟩
    obtain ⟨ts, j1, j2⟩ := (Items.hat (R := fun t (p : Ty × SVal) => Deeper (R p.1) (n - 1) t p.2) (i2.imp fun _ _ h => h)).delim (o := '(') (c := ')')
    exact deeper_of hn ⟨ts, j2, all3_zip (R := fun T => Deeper (R T) (n - 1)) g3 j1⟩
  · replace e := if_ff e
    cases e

/-! ### Fields -/

theorem fieldKey_snd {deny : Bool} {names : List Text} {x : Exts} {L : Option Nat} : Snd x L (fieldKey deny names) (fun t r =>
    ∃ key, KeyTok key t ∧ ((r = some key ∧ key ∈ names) ∨ (r = none ∧ key ∉ names ∧ deny = false))) := by
  intro s a s' hc hl h
  unfold fieldKey at h
  replace h := bind_ok h; obtain ⟨n, s1, h1, h⟩ := h
  unfold deIdentifier at h1
  replace h1 := bind_ok h1; obtain ⟨n', s2, h2, h1⟩ := h1
  cases h1
  obtain ⟨c2, x2⟩ := Sf.identifier.spot hc h2
  obtain ⟨tok, e1, e2⟩ := identifier_key h2
  have hm : Moved s2 := Kw.moved (fun _ _ => Kw.identifier) hc.tracked h2 (by
    rw [e1, List.length_append]
    have := List.length_pos_iff.mpr (keyTok_ne e2)
    omega)
  have c3 : Spot x L { s2 with lastIdent := some n } :=
    ⟨⟨c2.inside.rest, c2.inside.prev, c2.inside.preWs⟩, c2.tracked, c2.nv, c2.exts, c2.limit⟩
  rcases ite_inv h with ⟨hm', h⟩ | ⟨hm', h⟩
  · cases h
    exact ⟨c3, x2, fun _ => ⟨tok, _, e1, .inl ⟨rfl, hm⟩, n, e2, .inl ⟨rfl, by simpa using hm'⟩⟩⟩
  · rcases ite_inv h with ⟨-, h⟩ | ⟨hd, h⟩
    · cases h
    · cases h
      exact ⟨c3, x2, fun _ => ⟨tok, _, e1, .inl ⟨rfl, hm⟩, n, e2, .inr ⟨rfl, by simpa using hm', by simpa using hd⟩⟩⟩

theorem deIgnored_snd {x : Exts} (hx : x.unwrapVariantNewtypes = false) (n : Nat) : Snd x (some n) deIgnored (Hat fun t _ => ∃ V, LangX x.implicitSome n t V) := by
  unfold deIgnored
  intro s a s' hc hl h
  replace h := bind_ok h; obtain ⟨v, s1, h1, h⟩ := h
  cases h
  obtain ⟨g1, g2, g3⟩ := deValue_snd hx hc hl h1
  refine ⟨g1, g2, fun he => ?_⟩
  obtain ⟨m, t, u, k1, k2, k3, k4⟩ := g3 he
  exact ⟨t, u, k1, k2, .of ⟨v, gramX_mono (k4 n rfl) k3⟩⟩

theorem structLoop_snd {x : Exts} (hx : x.unwrapVariantNewtypes = false) {n : Nat} {rec : Ty → P SVal} {R : Ty → Nat → Text → SVal → Prop} {deny : Bool}
    {fields : List (Text × Ty)} (h : ∀ F ∈ fields, ∀ n, Snd x (some n) (rec F.2) (Hat (R F.2 n))) (m : Nat) :
    ∀ {had : Bool} {got got' : Text → Option SVal} {s s' : St}, Spot x (some n) s →
    structLoop rec deIgnored deny fields m had got s = .ok got' s' → Spot x (some n) s' ∧ ∃ w u gs, s.rest = w ++ s'.rest ∧ s'.rest = ')' :: u ∧
      Items (FieldAt x.implicitSome R deny fields n) gs w ∧ (keysOf gs).Nodup ∧ (∀ k ∈ keysOf gs, got k = none) ∧ got' = gotOf gs got ∧
      (had = false → gs = [] ∧ Layout w) := by
  induction m with
  | zero => intro had got got' s s' _ e; cases e
  | succ m ih =>
    intro had got got' s s' hc e
    unfold structLoop at e
    replace e := bind_ok e; obtain ⟨r, s1, e1, e⟩ := e
    have hk : Snd x (some n) (deGuardR (fieldKey deny (fields.map Prod.fst))) (fun t r =>
        ∃ key, KeyTok key t ∧ ((r = some key ∧ key ∈ fields.map Prod.fst) ∨ (r = none ∧ key ∉ fields.map Prod.fst ∧ deny = false))) :=
      (fieldKey_snd.guardR).imp fun _ _ h => h.2
    obtain ⟨c1, ⟨rfl, l, v, hl, hl', hv'⟩ | ⟨hh, k, rfl, hr⟩⟩ := nextKey_snd hk hc e1
    · cases e
      exact ⟨c1, l, v, [], hl, hv', .nil hl', by simp [keysOf], by simp [keysOf], rfl, fun _ => ⟨rfl, hl'⟩⟩
    · -- what stands between the key and the end of the item
      have key : ∀ {α : Type} {f : P α} {V : Text → α → Prop} {v : α} {had' : Bool} {s2 : St} (g : Option (Text × SVal)) {w u : Text}
          {gs : List (Option (Text × SVal))}, Snd x (some n) (deGuardQ f) (Hat V) → nextValue f s1 = .ok (v, had') s2 →
          s2.rest = w ++ ')' :: u → Items (FieldAt x.implicitSome R deny fields n) gs w → (had' = false → gs = [] ∧ Layout w) →
          (∀ kt vt t, (∃ key, KeyTok key kt ∧ ((k = some key ∧ key ∈ fields.map Prod.fst) ∨
            (k = none ∧ key ∉ fields.map Prod.fst ∧ deny = false))) → V vt v → Entry kt vt t → FieldAt x.implicitSome R deny fields n t g) →
          ∃ w', s.rest = w' ++ ')' :: u ∧ Items (FieldAt x.implicitSome R deny fields n) (g :: gs) w' := by
        intro α f V v had' s2 g w u gs hv e2 hw it ef hF
        obtain ⟨c2, l, r, hm, hm', hv2⟩ := nextValue_snd hv c1 e2
        obtain ⟨l1, tk, b, hl, kk, hb, hr⟩ := hr l r hm hm'
        rcases hv2 with ⟨rfl, hv2⟩ | ⟨rfl, hv2⟩
        · obtain ⟨rfl, hw'⟩ := ef rfl
          obtain ⟨l', tv, b', hl', ⟨a, tv', ha, rfl, vv⟩, hb', hr2⟩ := hv2 w u ')' hw hw' (by simp)
          have hE := hF tk tv' _ kk vv (.mk (hb.append hm') (hl'.append ha))
          refine ⟨_, ?_, .last hl hE (.plain (hb'.append hw'))⟩
          rw [hr, hm, hr2, hw]; simp
        · obtain ⟨l', tv, b', c', hl', ⟨a, tv', ha, rfl, vv⟩, hb', hc', hr2⟩ := hv2 (by rw [hw]; simp)
          have hE := hF tk tv' _ kk vv (.mk (hb.append hm') (hl'.append ha))
          refine ⟨_, ?_, .cons hl hE hb' hc' it⟩
          rw [hr, hm, hr2, hw]; simp
      cases k with
      | none =>
        simp only at e
        replace e := bind_ok e; obtain ⟨⟨v, had'⟩, s2, e2, e⟩ := e
        have hig : Snd x (some n) (deGuardQ deIgnored) (Hat fun t (_ : Unit) => ∃ V, Deeper (LangX x.implicitSome) n t V) := by
          refine (deeper_guardQ (R := fun n t _ => ∃ V, LangX x.implicitSome n t V) (deIgnored_snd hx _)).imp fun t a h => h.imp fun t a h => ?_
          cases n with
          | zero => exact h.elim
          | succ n => exact h
        obtain ⟨c2, -⟩ := nextValue_snd hig c1 e2
        obtain ⟨c3, w, u, gs, i1, i2, i3, i4, i5, i6, i7⟩ := ih c2 e
        obtain ⟨w', j1, j2⟩ := key none hig e2 (by rw [i1, i2]) i3 i7 fun kt vt t ⟨key, hk, hor⟩ hV hE => by
          rcases hor with ⟨h, -⟩ | ⟨-, h1, h2⟩
          · cases h
          · exact ⟨key, kt, vt, hk, hE, h2, h1, hV⟩
        exact ⟨c3, w', u, none :: gs, by rw [j1, i2], i2, j2, by rwa [keysOf_none], by rwa [keysOf_none], i6, by simp [hh]⟩
      | some key' =>
        simp only at e
        rcases ite_inv e with ⟨-, e⟩ | ⟨hg, e⟩
        · cases e
        have hg : got key' = none := by simpa using hg
        cases hf : fields.find? (fun e => e.1 = key') with
        | none => simp only [hf] at e; cases e
        | some F =>
          obtain ⟨fn, T⟩ := F
          have := find_name hf
          subst this
          simp only [hf] at e
          replace e := bind_ok e; obtain ⟨⟨v, had'⟩, s2, e2, e⟩ := e
          have hv := deeper_guardQ (n := n) (h _ (List.mem_of_find?_eq_some hf) (n - 1))
          obtain ⟨c2, -⟩ := nextValue_snd hv c1 e2
          obtain ⟨c3, w, u, gs, i1, i2, i3, i4, i5, i6, i7⟩ := ih c2 e
          obtain ⟨w', j1, j2⟩ := key (some (fn, v)) hv e2 (by rw [i1, i2]) i3 i7 fun kt vt t ⟨key, hk, hor⟩ hV hE => by
            rcases hor with ⟨h, -⟩ | ⟨h, -⟩
            · cases h
              exact ⟨fn, kt, vt, hk, hE, rfl, T, hf, hV⟩
            · cases h
          have hnot : fn ∉ keysOf gs := fun hm => by have := i5 fn hm; simp at this
          refine ⟨c3, w', u, some (fn, v) :: gs, by rw [j1, i2], i2, j2, by rw [keysOf_some]; exact List.nodup_cons.mpr ⟨hnot, i4⟩, ?_, i6,
            by simp [hh]⟩
          rw [keysOf_some]
          intro k' hk'
          rcases List.mem_cons.mp hk' with rfl | hm
          · exact hg
          · have := i5 k' hm
            simp only at this
            split at this
            · cases this
            · exact this

omit [Env] in
theorem keysOf_mem {gs : List (Option (Text × SVal))} {k : Text} : k ∈ keysOf gs ↔ ∃ v, some (k, v) ∈ gs := by
  simp only [keysOf, List.mem_map, List.mem_filterMap, id]
  constructor
  · rintro ⟨⟨k', v⟩, ⟨g, h1, rfl⟩, rfl⟩
    exact ⟨v, h1⟩
  · rintro ⟨v, h⟩
    exact ⟨(k, v), ⟨_, h, rfl⟩, rfl⟩

omit [Env] in
theorem gotOf_iff {gs : List (Option (Text × SVal))} (hn : (keysOf gs).Nodup) {k : Text} :
    (∀ v, gotOf gs (fun _ => none) k = some v ↔ some (k, v) ∈ gs) ∧ (gotOf gs (fun _ => none) k = none ↔ ∀ v, some (k, v) ∉ gs) := by
  have h2 : ∀ v, some (k, v) ∈ gs → gotOf gs (fun _ => none) k = some v := fun v h => gotOf_mem gs _ k v hn h
  have h3 : (∀ v, some (k, v) ∉ gs) → gotOf gs (fun _ => none) k = none := fun h => by
    rw [gotOf_not gs _ k]
    simp only [keysOf, List.mem_map, List.mem_filterMap, id]
    rintro ⟨⟨k', v⟩, ⟨g, h1, rfl⟩, rfl⟩
    exact h v h1
  refine ⟨fun v => ⟨fun h => ?_, h2 v⟩, fun h v hm => ?_, h3⟩
  · by_cases hm : ∃ u, some (k, u) ∈ gs
    · obtain ⟨u, hu⟩ := hm
      rw [h2 u hu] at h
      cases h
      exact hu
    · rw [h3 fun v hv => hm ⟨v, hv⟩] at h
      cases h
  · rw [h2 v hm] at h
    cases h

omit [Env] in
theorem fieldOf_iff (D : Nat → Ty) : ∀ (f : Nat) (T : Ty), fieldOf D f T = true ↔ Optional D f T
  | 0, T => ⟨fun h => by simp [fieldOf] at h, fun h => by cases h⟩
  | f + 1, T => by
    constructor
    · intro h
      cases T <;> simp only [fieldOf, Bool.false_eq_true] at h
      · exact .option
      · exact .ref ((fieldOf_iff D f _).mp h)
    · intro h
      cases h with
      | option => simp [fieldOf]
      | ref h => simpa [fieldOf] using (fieldOf_iff D f _).mpr h

theorem fields_all2 {D : Nat → Ty} {f : Nat} {gs : List (Option (Text × SVal))} (hn : (keysOf gs).Nodup) {fields : List (Text × Ty)}
    {fs : List (Text × SVal)} : collectFields (fieldOf D f) (gotOf gs fun _ => none) fields = .ok fs ↔
      All2 (fun F f' => F.1 = f'.1 ∧ (some (F.1, f'.2) ∈ gs ∨ ((∀ v, some (F.1, v) ∉ gs) ∧ Optional D f F.2 ∧ f'.2 = .none))) fields fs := by
  rw [collectFields_iff]
  have : ∀ (F : Text × Ty) (f' : Text × SVal), (F.1 = f'.1 ∧ (gotOf gs (fun _ => none) F.1 = some f'.2 ∨
      (gotOf gs (fun _ => none) F.1 = none ∧ fieldOf D f F.2 = true ∧ f'.2 = .none))) ↔
      (F.1 = f'.1 ∧ (some (F.1, f'.2) ∈ gs ∨ ((∀ v, some (F.1, v) ∉ gs) ∧ Optional D f F.2 ∧ f'.2 = .none))) := fun F f' => by
    rw [(gotOf_iff hn).1, (gotOf_iff hn).2, fieldOf_iff]
  exact ⟨All2.imp fun F f' => (this F f').mp, All2.imp fun F f' => (this F f').mpr⟩

theorem fields_text {x : Exts} (hx : x.unwrapVariantNewtypes = false) {n : Nat} {rec : Ty → P SVal} {R : Ty → Nat → Text → SVal → Prop} {deny : Bool}
    {D : Nat → Ty} {f : Nat} {fields : List (Text × Ty)} (h : ∀ F ∈ fields, ∀ n, Snd x (some n) (rec F.2) (Hat (R F.2 n))) {name : Text}
    {s s' : St} {fs : List (Text × SVal)} (hc : Spot x (some n) s)
    (e : structAfterName name (visitStruct rec (fieldOf D f) deny fields) s = .ok fs s') :
    (Spot x (some n) s' ∧ Moved s') ∧ ∃ w, s.rest = w ++ s'.rest ∧ FieldsText x.implicitSome R (Optional D f) deny fields n w fs := by
  have hv : Vis x (lower (some n)) ')' (visitStruct rec (fieldOf D f) deny fields) (fun w fs => ∃ gs,
      Items (FieldAt x.implicitSome R deny fields (n - 1)) gs w ∧ (keysOf gs).Nodup ∧
      All2 (fun F f' => F.1 = f'.1 ∧ (some (F.1, f'.2) ∈ gs ∨ ((∀ v, some (F.1, v) ∉ gs) ∧ Optional D f F.2 ∧ f'.2 = .none))) fields fs) := by
    intro p b p' hp e
    unfold visitStruct at e
    rw [getSt_bind] at e
    replace e := bind_ok e; obtain ⟨got, p1, e1, e⟩ := e
    obtain ⟨c3, w, u, gs, i1, i2, i3, i4, i5, i6, i7⟩ := structLoop_snd hx (n := n - 1) h _ hp e1
    cases hcf : collectFields (fieldOf D f) got fields with
    | error er => rw [hcf] at e; cases e
    | ok fs' =>
      rw [hcf] at e
      cases e
      subst i6
      exact ⟨c3, w, u, i1, i2, gs, i3, i4, (fields_all2 i4).mp hcf⟩
  obtain ⟨hn, k1, w, k2, gs, k3, k4, k5⟩ := structAfterName_snd hv hc e
  refine ⟨k1, '(' :: (w ++ [')']), by rw [k2]; simp, ?_⟩
  obtain ⟨es, g1, g2⟩ := k3.delim (o := '(') (c := ')')
  exact deeper_of hn ⟨es, gs, g2, g1, k4, k5⟩

/-! ### Names and parentheses -/

theorem structName_snd {x : Exts} {L : Option Nat} {name : Text} {s s' : St} {b : Bool} (hc : Spot x L s) (h : consumeStructName name s = .ok b s') :
    (b = false ∧ x.explicitStructNames = false ∧ s' = s) ∨
    (b = true ∧ (Spot x L s' ∧ Moved s') ∧ ∃ tok, s.rest = tok ++ s'.rest ∧ KeyTok name tok) := by
  unfold consumeStructName at h
  replace h := bind_ok h; obtain ⟨i, s1, h1, h⟩ := h
  have hs : s1 = s := by unfold checkIdent at h1; cases h1; rfl
  subst hs
  rcases ite_inv h with ⟨-, h⟩ | ⟨-, h⟩
  · rw [getSt_bind] at h
    rcases ite_inv h with ⟨-, h⟩ | ⟨he, h⟩
    · cases h
    · cases h
      exact .inl ⟨rfl, by rw [← hc.exts]; simpa using he, rfl⟩
  · rw [bind_apply, attempt_apply] at h
    generalize hid : identifier s1 = r at h
    cases r with
    | err e s2 =>
      exfalso
      simp only at h
      cases e <;> simp only [fail_apply] at h
      all_goals first | cases h | (rcases ite_inv h with ⟨-, h⟩ | ⟨-, h⟩ <;> cases h)
    | ok n s2 =>
      simp only at h
      rcases ite_inv h with ⟨-, h⟩ | ⟨-, h⟩
      · cases h
      rcases ite_inv h with ⟨-, h⟩ | ⟨hn, h⟩
      · cases h
      cases h
      have hn : n = name := by simpa using hn
      subst hn
      obtain ⟨c2, x2⟩ := Sf.identifier.spot hc hid
      obtain ⟨tok, e1, e2⟩ := identifier_key hid
      refine .inr ⟨rfl, ⟨c2, Kw.moved (fun _ _ => Kw.identifier) hc.tracked hid ?_⟩, tok, e1, e2⟩
      rw [e1, List.length_append]
      have := List.length_pos_iff.mpr (keyTok_ne e2)
      omega

/-- One item in parentheses, after the first of them. -/
theorem paren_snd {α : Type} {x : Exts} {n : Nat} {f : P α} {R : Nat → Text → α → Prop} (h : ∀ n, Snd x (some n) f (Hat (R n)))
    {s2 s3 s5 s6 s' : St} {v : α} {cm : Bool} (c2 : Spot x (some n) s2) (h3 : skipWs s2 = .ok () s3) (h5 : deGuardQ f s3 = .ok v s5)
    (h6 : comma s5 = .ok cm s6) (h7 : consumeChar ')' s6 = .ok true s') :
    (Spot x (some n) s' ∧ Moved s') ∧ ∃ w, s2.rest = w ++ ')' :: s'.rest ∧
      Deeper (fun n q u => InParens (fun t => R n t u) q) n ('(' :: (w ++ [')'])) v := by
  obtain ⟨c3, x3⟩ := Sf.skipWs.spot c2 h3
  obtain ⟨c5, x5, rd⟩ := deeper_guardQ (R := R) (h _) _ _ _ c3 (skipWs_noLayout h3) h5
  obtain ⟨c6, x6⟩ := Sf.comma.spot c5 h6
  obtain ⟨c7, x7⟩ := (Sf.consumeChar ')').spot c6 h7
  obtain ⟨hr7, he7⟩ : s6.rest = ')' :: s'.rest ∧ True := by
    rcases consumeChar_inv h7 with ⟨-, h, -⟩ | ⟨h, -⟩
    · exact ⟨h, trivial⟩
    · cases h
  have hne6 : s6.rest ≠ [] := by rw [hr7]; simp
  obtain ⟨-, a, ha, ha', -⟩ := skipWs_inv_ne h3 (suffix_ne x5 (suffix_ne x6 hne6))
  obtain ⟨b, hb, hb', he⟩ : ∃ b, Tail b ∧ s5.rest = b ++ ')' :: s'.rest ∧ Ends s5.rest := by
    rcases comma_sound h6 hne6 with ⟨rfl, b, hb, hb'⟩ | ⟨rfl, b, c, hb, hb', hc'⟩
    · exact ⟨b, .plain hb', by rw [hb, hr7], ends_stop (r := s'.rest) hb' (c := ')') (by simp) (by rw [hb, hr7])⟩
    · exact ⟨b ++ ',' :: c, .comma hb' hc', by rw [hb, hr7]; simp, ends_stop hb' (c := ',') (by simp) hb⟩
  obtain ⟨t, q, g1, g2, l, t', hl, rfl, g3⟩ := rd he
  obtain ⟨m, hm, rfl⟩ := g2.ne (by rw [hb']; simp)
  have hmb : Tail (m ++ b) := by
    cases hb with
    | plain hb => exact .plain (hm.append hb)
    | comma hb hc => rw [← List.append_assoc]; exact .comma (hm.append hb) hc
  refine ⟨⟨c7, Kw.moved (fun _ _ => Kw.consumeChar ')') c6.tracked h7 (by rw [hr7]; simp)⟩, (a ++ l) ++ (t' ++ (m ++ b)), ?_, ?_⟩
  · rw [ha, g1, hb']; simp
  · cases n with
    | zero => exact g3.elim
    | succ n => exact ⟨a ++ l, t', m ++ b, ha'.append hl, g3, hmb, by simp⟩

omit [Env] in
theorem Spot.flag {x : Exts} {L : Option Nat} {s : St} (h : Spot x L s) (hu : x.unwrapVariantNewtypes = false) :
    { s with nv := s.exts.unwrapVariantNewtypes } = s := by
  obtain ⟨src, rest, preWs, lastWs, prev, exts, nv, lastIdent, limit⟩ := s
  have h1 := h.exts
  have h2 := h.nv
  simp only at h1 h2
  subst h1 h2
  rw [hu]

/-! ### Newtypes and options -/

theorem newtype_snd {x : Exts} {n : Nat} {f : P SVal} {R : Nat → Text → SVal → Prop} (h : ∀ n, Snd x (some n) f (Hat (R n))) (name : Text) :
    Snd x (some n) (deNewtype name f) (Hat fun w u => if x.unwrapNewtypes then Deeper R n w u
      else ∃ p q, w = p ++ q ∧ NamePre x name p ∧ Deeper (fun n q u => InParens (fun t => R n t u) q) n q u) := by
  intro s a s' hc hlay e
  unfold deNewtype at e
  rw [getSt_bind] at e
  simp only [hc.nv, hc.exts, Bool.or_false] at e
  by_cases hu : x.unwrapNewtypes = true
  · simp only [hu, ↓reduceIte] at e ⊢
    rw [bind_apply, setNv_apply] at e
    simp only [hc.setNv] at e
    exact deeper_guardR (h _) s a s' hc hlay e
  · simp only [hu, ↓reduceIte, Bool.false_eq_true] at e ⊢
    replace e := bind_ok e; obtain ⟨b, s1, e1, e⟩ := e
    have hn := structName_snd hc e1
    have c1 : Spot x (some n) s1 := by
      rcases hn with ⟨-, -, rfl⟩ | ⟨-, ⟨h, -⟩, -⟩
      · exact hc
      · exact h
    replace e := bind_ok e; obtain ⟨_, s2, e2, e⟩ := e
    obtain ⟨c2, x2⟩ := Sf.skipWs.spot c1 e2
    replace e := bind_ok e; obtain ⟨op, s3, e3, e⟩ := e
    obtain ⟨c3, x3⟩ := (Sf.consumeChar '(').spot c2 e3
    rcases consumeChar_inv e3 with ⟨rfl, hr3, -⟩ | ⟨rfl, -, -⟩
    · replace e := if_tt e
      replace e := bind_ok e; obtain ⟨_, s4, e4, e⟩ := e
      replace e := bind_ok e; obtain ⟨v, s5, e5, e⟩ := e
      replace e := bind_ok e; obtain ⟨cm, s6, e6, e⟩ := e
      replace e := bind_ok e; obtain ⟨cl, s7, e7, e⟩ := e
      cases cl with
      | false => replace e := if_ff e; cases e
      | true =>
        replace e := if_tt e
        cases e
        obtain ⟨⟨k1, k2⟩, w, k3, k4⟩ := paren_snd h c3 e4 e5 e6 e7
        obtain ⟨-, l, hl, hl', -⟩ := skipWs_inv_ne e2 (by rw [hr3]; simp)
        rcases hn with ⟨-, hx, rfl⟩ | ⟨-, -, tok, ht, hk⟩
        · have hr : s1.rest = (l ++ '(' :: (w ++ [')'])) ++ s'.rest := by rw [hl, hr3, k3]; simp
          refine ⟨k1, ⟨_, hr.symm⟩, fun _ => ⟨_, _, hr, .inl ⟨rfl, k2⟩, l, _, hl', rfl, [], _, rfl, .inl ⟨hx, rfl⟩, k4⟩⟩
        · have hr : s.rest = ((tok ++ l) ++ '(' :: (w ++ [')'])) ++ s'.rest := by rw [ht, hl, hr3, k3]; simp
          refine ⟨k1, ⟨_, hr.symm⟩, fun _ => ⟨_, _, hr, .inl ⟨rfl, k2⟩, .of ⟨tok ++ l, _, rfl, .inr ⟨tok, l, hk, hl', rfl⟩, k4⟩⟩⟩
    · replace e := if_ff e
      rcases ite_inv e with ⟨-, e⟩ | ⟨-, e⟩ <;> cases e

omit [Env] in
/-- There is no layout where none begins. -/
theorem layout_none {l r : Text} (h : Layout l) (hn : NoLayoutStart (l ++ r)) : l = [] := by
  cases h with
  | nil => rfl
  | ws h _ => exact absurd h (hn _ _ rfl).1
  | line _ _ => exact absurd rfl (hn _ _ rfl).2
  | block _ _ => exact absurd rfl (hn _ _ rfl).2

theorem noIdent_less {t r : Text} (h : NoIdentStart (t ++ r)) : NoIdentStart t := by
  intro c u e
  subst e
  exact h c _ rfl

theorem Behind.some {i : Bool} {t t' u : Text} {s : St} (h : Behind i t u s) (hi : i = true) : Behind i t' u s := by
  rcases h with h | ⟨-, h⟩
  · exact .inl h
  · exact .inr ⟨.inl hi, h⟩

theorem Behind.noIdent {i : Bool} {t u : Text} {s : St} (h : Behind i t u s) (he : Ends s.rest) : NoIdentStart u := by
  have key : ∀ {l r : Text}, Layout l → Ends r → Ends (l ++ r) := by
    intro l r hl hr
    cases hl with
    | nil => exact hr
    | ws h _ => exact .inr ⟨_, _, rfl, List.mem_append_left _ h⟩
    | line _ _ => exact .inr ⟨_, _, rfl, by simp [stopChars]⟩
    | block _ _ => exact .inr ⟨_, _, rfl, by simp [stopChars]⟩
  have hu : Ends u := by
    rcases h with ⟨rfl, -⟩ | ⟨-, -, ⟨l, -, hl, rfl, -⟩ | ⟨-, -, l, o, hl, ⟨b, rfl, -⟩, rfl⟩⟩
    · exact he
    · exact key hl he
    · exact key hl (.inr ⟨_, _, rfl, by simp [stopChars]⟩)
  rintro c r rfl
  rcases hu with hu | ⟨_, _, hu, hc⟩
  · cases hu
  · cases hu
    exact stop_xid _ hc

theorem not_word {k q u : Text} (hu : NoIdentStart u) (h : startsWith (q ++ u) k = false ∨ headXid ((q ++ u).drop k.length) = true) :
    ¬ BeginsWord k q := by
  rintro ⟨v, rfl, hv⟩
  rcases h with h | h
  · rw [List.append_assoc] at h
    rw [(startsWith_iff _ _).mpr ⟨_, rfl⟩] at h
    cases h
  · rw [List.append_assoc, List.drop_left] at h
    cases v with
    | nil =>
      cases u with
      | nil => cases h
      | cons c u => exact absurd (hu c u rfl) (by simpa [headXid] using h)
    | cons c v => exact absurd (hv c v rfl) (by simpa [headXid] using h)

theorem guardR_ne {x : Exts} {n : Nat} {f : P SVal} {g : SVal → SVal} (h : Fd true f) {s s' : St} {a : SVal} (hc : Spot x (Option.some n) s)
    (e : deGuardR (do let v ← f; pure (g v)) s = .ok a s') : s.rest ≠ [] := by
  obtain ⟨-, s1, hc1, e1, -⟩ := guardQ_at hc (guardR_iff.mp e)
  replace e1 := bind_ok e1; obtain ⟨v, s2, e2, e1⟩ := e1
  intro hn
  have := h.eat _ hc1.inside hc1.nv
  rw [e2] at this
  have := this.lt rfl
  simp [hn] at this

theorem opt_snd {x : Exts} (hx : x.unwrapVariantNewtypes = false) {n : Nat} {f : P SVal} {R : Nat → Text → SVal → Prop} (h : ∀ n, Snd x (some n) f (Hat (R n)))
    (hne : Fd true f) :
    Snd x (some n) (deOption SVal.none (do let v ← f; pure (SVal.some v))) (fun w v => (w = c!"None" ∧ v = SVal.none) ∨
      (∃ l q u, w = c!"Some" ++ (l ++ q) ∧ Layout l ∧ Deeper (fun n q u => InParens (fun t => R n t u) q) n q u ∧ v = SVal.some u) ∨
      (x.implicitSome = true ∧ ∃ p q u, w = p ++ q ∧ SomeBare p q ∧ Deeper R n q u ∧ v = SVal.some u)) := by
  have hsome : ∀ n, Snd x (some n) (do let v ← f; pure (.some v) : P SVal) (Hat ((fun n t a => ∃ u, a = SVal.some u ∧ R n t u) n)) :=
    fun n => (h n).map fun t a hr => hr.imp' fun t hr => ⟨a, rfl, hr⟩
  intro s a s' hc hlay e
  unfold deOption at e
  rw [bind_apply] at e
  rcases consumeIdent_cases c!"None" s with ⟨r, h1, -, h2⟩ | ⟨hs1, h2⟩
  · have c1 := (Sf.consumeIdent c!"None").spot hc h2
    have m1 := Kw.moved (fun _ _ => Kw.consumeIdent c!"None") hc.tracked h2 (by rw [h1]; simp; omega)
    rw [h2] at e
    cases e
    exact ⟨c1.1, c1.2, fun _ => ⟨c!"None", _, h1, .inl ⟨rfl, m1⟩, .inl ⟨rfl, rfl⟩⟩⟩
  rw [h2] at e
  replace e := if_ff e
  rw [bind_apply] at e
  rcases consumeIdent_cases c!"Some" s with ⟨r, h1, hr, h2⟩ | ⟨hs2, h2⟩
  · have c1 := ((Sf.consumeIdent c!"Some").spot hc h2).1
    rw [h2] at e
    simp only [↓reduceIte] at e
    generalize hs0 : ({ s with prev := s.rest, rest := r } : St) = s0 at e c1
    have r0 : s0.rest = r := by rw [← hs0]
    replace e := bind_ok e; obtain ⟨op, s2, e2, e⟩ := e
    replace e2 := bind_ok e2; obtain ⟨_, s1, e1, e2⟩ := e2
    obtain ⟨c2, x2⟩ := Sf.skipWs.spot c1 e1
    obtain ⟨c3, x3⟩ := (Sf.consumeChar '(').spot c2 e2
    rcases consumeChar_inv e2 with ⟨rfl, hr2, -⟩ | ⟨rfl, rfl, hr2⟩
    · replace e := if_tt e
      replace e := bind_ok e; obtain ⟨_, s4, e4, e⟩ := e
      obtain ⟨c4, -⟩ := Sf.skipWs.spot c3 e4
      rw [bind_apply, modSt_apply] at e
      simp only [c4.flag hx] at e
      replace e := bind_ok e; obtain ⟨v, s5, e5, e⟩ := e
      have c5 := (deeper_guardQ (R := fun n t a => ∃ u, a = SVal.some u ∧ R n t u) (hsome _) _ _ _ c4 (skipWs_noLayout e4) e5).1
      rw [bind_apply, setNv_apply] at e
      simp only [c5.setNv] at e
      replace e := bind_ok e; obtain ⟨cm, s6, e6, e⟩ := e
      replace e := bind_ok e; obtain ⟨cl, s7, e7, e⟩ := e
      cases cl with
      | false => replace e := if_ff e; cases e
      | true =>
        replace e := if_tt e
        cases e
        obtain ⟨⟨k1, k2⟩, w, k3, k4⟩ := paren_snd (R := fun n t a => ∃ u, a = SVal.some u ∧ R n t u) hsome c3 e4 e5 e6 e7
        obtain ⟨-, l, hl, hl', -⟩ := skipWs_inv_ne e1 (by rw [hr2]; simp)
        have hr : s.rest = (c!"Some" ++ (l ++ '(' :: (w ++ [')']))) ++ s'.rest := by rw [h1, ← r0, hl, hr2, k3]; simp
        refine ⟨k1, ⟨_, hr.symm⟩, fun _ => ⟨_, _, hr, .inl ⟨rfl, k2⟩, .inr (.inl ?_)⟩⟩
        cases n with
        | zero => exact k4.elim
        | succ n =>
          obtain ⟨b1, t, b2, j1, ⟨u, rfl, j2⟩, j3, j4⟩ := k4
          exact ⟨l, _, u, rfl, hl', ⟨b1, t, b2, j1, j2, j3, j4⟩, rfl⟩
    · replace e := if_ff e
      rw [getSt_bind, c3.exts] at e
      rcases ite_inv e with ⟨hi, e⟩ | ⟨-, e⟩
      · obtain ⟨k1, k2, k3⟩ := deeper_guardR (R := fun n t a => ∃ u, a = SVal.some u ∧ R n t u) (hsome _) _ _ _ c3 (skipWs_noLayout e1) e
        refine ⟨k1, k2.trans (x2.trans ?_), fun he => ?_⟩
        · rw [r0, h1]; exact List.suffix_append _ _
        obtain ⟨t, u, g1, g2, l0, q, hl0, rfl, g3⟩ := k3 he
        have hl0 : l0 = [] := layout_none hl0 (by have := skipWs_noLayout e1; rwa [g1, List.append_assoc] at this)
        subst hl0
        have hn2 : s2.rest ≠ [] := guardR_ne hne c3 e
        obtain ⟨-, l, hl, hl', -⟩ := skipWs_inv_ne e1 hn2
        have hd : ∃ w, a = SVal.some w ∧ Deeper R n q w := by
          cases n with
          | zero => exact g3.elim
          | succ n => exact g3
        obtain ⟨w, rfl, hd⟩ := hd
        refine ⟨c!"Some" ++ l ++ q, u, by rw [h1, ← r0, hl, g1]; simp, g2.some hi, .inr (.inr ⟨hi, _, q, w, rfl, .inr ⟨l, rfl, hl', ?_, ?_⟩, hd, rfl⟩)⟩
        · rw [← r0, hl, g1] at hr
          exact noIdent_less (r := u) (by simpa using hr)
        · rintro q' rfl
          rw [g1] at hr2
          simp at hr2
      · cases e
  · rw [h2] at e
    simp only [Bool.false_eq_true, ↓reduceIte] at e
    rw [bind_apply] at e
    simp only [pure_apply, Bool.false_eq_true, ↓reduceIte] at e
    rw [getSt_bind, hc.exts] at e
    rcases ite_inv e with ⟨hi, e⟩ | ⟨-, e⟩
    · obtain ⟨k1, k2, k3⟩ := deeper_guardR (R := fun n t a => ∃ u, a = SVal.some u ∧ R n t u) (hsome _) _ _ _ hc hlay e
      refine ⟨k1, k2, fun he => ?_⟩
      obtain ⟨t, u, g1, g2, l0, q, hl0, rfl, g3⟩ := k3 he
      have hl0 : l0 = [] := layout_none hl0 (by rwa [g1, List.append_assoc] at hlay)
      subst hl0
      have hd : ∃ w, a = SVal.some w ∧ Deeper R n q w := by
        cases n with
        | zero => exact g3.elim
        | succ n => exact g3
      obtain ⟨w, rfl, hd⟩ := hd
      have hu := g2.noIdent he
      exact ⟨[] ++ q, u, g1, g2.some hi, .inr (.inr ⟨hi, [], q, w, rfl, .inl ⟨rfl, not_word (u := u) hu (by simpa [g1] using hs1),
        not_word (u := u) hu (by simpa [g1] using hs2)⟩, hd, rfl⟩)⟩
    · cases e

/-! ### Structs and enums -/

theorem unitStruct_snd (x : Exts) (L : Option Nat) (name : Text) : Snd x L (deUnitStruct name) (fun w _ =>
    (name = c!"RangeFull" ∧ w = c!"..") ∨ (x.explicitStructNames = false ∧ w = c!"()") ∨ KeyTok name w) := by
  intro s a s' hc hl e
  unfold deUnitStruct at e
  replace e := bind_ok e; obtain ⟨b, s1, e1, e⟩ := e
  have h1 : (b = true ∧ name = c!"RangeFull" ∧ (Spot x L s1 ∧ Moved s1) ∧ s.rest = c!".." ++ s1.rest) ∨ (b = false ∧ s1 = s) := by
    rcases ite_inv e1 with ⟨hn, e1⟩ | ⟨-, e1⟩
    · rcases consumeStr_inv e1 with ⟨rfl, r1, -⟩ | ⟨rfl, rfl, -⟩
      · exact .inl ⟨rfl, hn, ⟨((Sf.consumeStr c!"..").spot hc e1).1,
          Kw.moved (fun _ _ => Kw.consumeStr c!"..") hc.tracked e1 (by rw [r1]; simp; omega)⟩, r1⟩
      · exact .inr ⟨rfl, rfl⟩
    · cases e1; exact .inr ⟨rfl, rfl⟩
  rcases h1 with ⟨rfl, hn, ⟨c1, m1⟩, r1⟩ | ⟨rfl, rfl⟩
  · replace e := if_tt e
    cases e
    exact ⟨c1, ⟨_, r1.symm⟩, fun _ => ⟨_, _, r1, .inl ⟨rfl, m1⟩, .inl ⟨hn, rfl⟩⟩⟩
  · replace e := if_ff e
    rw [getSt_bind] at e
    simp only [hc.nv, Bool.false_eq_true, ↓reduceIte] at e
    replace e := bind_ok e; obtain ⟨b, s2, e2, e⟩ := e
    rcases structName_snd hc e2 with ⟨rfl, hx, rfl⟩ | ⟨rfl, ⟨c2, m2⟩, tok, ht, hk⟩
    · replace e := if_ff e
      exact (unit_snd x L).imp (R' := fun w _ => _) (fun t a h => .inr (.inl ⟨hx, h⟩)) _ _ _ hc hl e
    · replace e := if_tt e
      rw [setNv_apply] at e
      cases e
      rw [c2.setNv]
      exact ⟨c2, ⟨_, ht.symm⟩, fun _ => ⟨_, _, ht, .inl ⟨rfl, m2⟩, .inr (.inr hk)⟩⟩

theorem tupleStruct_snd {x : Exts} {n : Nat} {rec : Ty → P SVal} {R : Ty → Nat → Text → SVal → Prop} {ex : Text} {Ts : List Ty}
    (h : ∀ T ∈ Ts, ∀ n, Snd x (some n) (rec T) (Hat (R T n))) (name : Text) :
    Snd x (some n) (deTupleStruct name (tupleLoop ex (Ts.map rec) 0 true)) (fun w vs => ∃ p q, w = p ++ q ∧ NameTight x name p ∧
      TupleText R Ts n q vs) := by
  intro s a s' hc hl e
  unfold deTupleStruct at e
  rw [getSt_bind] at e
  simp only [hc.nv, Bool.not_false, ↓reduceIte] at e
  replace e := bind_ok e; obtain ⟨_, s1, e1, e⟩ := e
  rcases structName_snd hc e1 with ⟨-, hx, rfl⟩ | ⟨-, ⟨c1, m1⟩, tok, ht, hk⟩
  · obtain ⟨⟨k1, k2⟩, w, k3, k4⟩ := deTuple_text h hc (mapErr_inv e)
    exact ⟨k1, ⟨_, k3.symm⟩, fun _ => ⟨w, _, k3, .inl ⟨rfl, k2⟩, [], w, rfl, .inl ⟨hx, rfl⟩, k4⟩⟩
  · obtain ⟨⟨k1, k2⟩, w, k3, k4⟩ := deTuple_text h c1 (mapErr_inv e)
    have hr : s.rest = (tok ++ w) ++ s'.rest := by rw [ht, k3]; simp
    exact ⟨k1, ⟨_, hr.symm⟩, fun _ => ⟨_, _, hr, .inl ⟨rfl, k2⟩, tok, w, rfl, .inr hk, k4⟩⟩

theorem rangeStruct_not {name : Text} {fields : List Text} (h : ¬ RangeLike name fields) (s : St) : rangeStruct name fields s = .ok none s := by
  unfold RangeLike at h
  simp only [not_or] at h
  obtain ⟨h1, h2, h3, h4, h5⟩ := h
  unfold rangeStruct
  rw [getSt_bind, if_neg (fun hc => hc.elim h1 h2), if_neg (fun hc => h3 ⟨hc.2, hc.1⟩), if_neg (fun hc => h4 ⟨hc.2.1, hc.1⟩),
    if_neg (fun hc => h5 ⟨hc.2.1, hc.1⟩)]
  rfl

theorem Kw.rangeStruct {p : Text} {k : Option Nat} (name : Text) (fields : List Text) : Kw p k (rangeStruct name fields) := by
  unfold Ron.rangeStruct
  repeat kw_step

theorem struct_snd {x : Exts} (hx : x.unwrapVariantNewtypes = false) {n : Nat} {rec : Ty → P SVal} {R : Ty → Nat → Text → SVal → Prop} {deny : Bool}
    {D : Nat → Ty} {f : Nat} {fields : List (Text × Ty)} (h : ∀ F ∈ fields, ∀ n, Snd x (some n) (rec F.2) (Hat (R F.2 n))) (name : Text)
 :
    Snd x (some n) (deStruct rec (fieldOf D f) (numTo D f) name deny fields) (Hat fun w v => ∃ fs, v = .struct name fs ∧
      ((∃ p q, w = p ++ q ∧ NamePre x name p ∧ FieldsText x.implicitSome R (Optional D f) deny fields n q fs) ∨
        ∃ es, RangeAt name es w [] ∧ RangeFields (NumAs D f) fields es fs)) := by
  intro s a s' hc hlay e
  unfold deStruct at e
  replace e := bind_ok e; obtain ⟨o, s0, e0, e⟩ := e
  rcases rangeStruct_inv e0 with ⟨rfl, rfl⟩ | ⟨es, rfl, hf, hra⟩
  rotate_left
  · obtain ⟨c0, x0⟩ := (Sf.kw (.rangeStruct name (fields.map Prod.fst)) fun _ _ => .rangeStruct name (fields.map Prod.fst)).spot hc e0
    simp only at e
    replace e := bind_ok e; obtain ⟨fs, s1, e1, e⟩ := e
    cases e
    have hv : visitRange (numTo D f) (fieldOf D f) fields es = .ok fs ∧ s' = s0 := by
      cases hv : visitRange (numTo D f) (fieldOf D f) fields es with
      | error er => rw [hv] at e1; cases e1
      | ok fs' => rw [hv] at e1; cases e1; exact ⟨rfl, rfl⟩
    obtain ⟨hv, rfl⟩ := hv
    refine ⟨c0, x0, fun he => ?_⟩
    obtain ⟨t, h1, h2, h3⟩ := rangeAt_cut he hra
    refine ⟨t, _, h2, .inl ⟨rfl, Kw.moved (fun _ _ => .rangeStruct name (fields.map Prod.fst)) hc.tracked e0 ?_⟩, .of ⟨fs, rfl, .inr ⟨es, h3, ?_⟩⟩⟩
    · rw [h2, List.length_append]
      have := List.length_pos_iff.mpr h1
      omega
    · simpa only [numTo_iff] using (visitRange_iff hra hf).mp hv
  simp only at e
  rw [getSt_bind] at e
  simp only [hc.nv, Bool.not_false, ↓reduceIte] at e
  replace e := bind_ok e; obtain ⟨_, s1, e1, e⟩ := e
  have hn := structName_snd hc e1
  have c1 : Spot x (some n) s1 := by
    rcases hn with ⟨-, -, rfl⟩ | ⟨-, ⟨h, -⟩, -⟩
    · exact hc
    · exact h
  replace e := bind_ok e; obtain ⟨_, s2, e2, e⟩ := e
  obtain ⟨c2, x2⟩ := Sf.skipWs.spot c1 e2
  replace e := bind_ok e; obtain ⟨fs, s3, e3, e⟩ := e
  cases e
  obtain ⟨⟨k1, k2⟩, w, k3, k4⟩ := fields_text hx h c2 e3
  have hne : s2.rest ≠ [] := by
    rw [k3]
    cases n with
    | zero => exact k4.elim
    | succ n =>
      obtain ⟨es, gs, hd, -⟩ := k4
      cases hd <;> simp
  obtain ⟨-, l, hl, hl', -⟩ := skipWs_inv_ne e2 hne
  rcases hn with ⟨-, hx, rfl⟩ | ⟨-, -, tok, ht, hk⟩
  · have hr : s1.rest = (l ++ w) ++ s'.rest := by rw [hl, k3]; simp
    exact ⟨k1, ⟨_, hr.symm⟩, fun _ => ⟨_, _, hr, .inl ⟨rfl, k2⟩, l, _, hl', rfl, fs, rfl, .inl ⟨[], w, rfl, .inl ⟨hx, rfl⟩, k4⟩⟩⟩
  · have hr : s0.rest = ((tok ++ l) ++ w) ++ s'.rest := by rw [ht, hl, k3]; simp
    exact ⟨k1, ⟨_, hr.symm⟩, fun _ => ⟨_, _, hr, .inl ⟨rfl, k2⟩, .of ⟨fs, rfl, .inl ⟨tok ++ l, w, rfl, .inr ⟨tok, l, hk, hl', rfl⟩, k4⟩⟩⟩⟩

theorem variantData_snd {x : Exts} (hx : x.unwrapVariantNewtypes = false) {n : Nat} {rec : Ty → P SVal} {R : Ty → Nat → Text → SVal → Prop} {D : Nat → Ty} {f : Nat}
    {name id : Text} {k : Variant} (h : match k with
      | .unit => True
      | .newtype T => ∀ n, Snd x (some n) (rec T) (Hat (R T n))
      | .tuple Ts => ∀ T ∈ Ts, ∀ n, Snd x (some n) (rec T) (Hat (R T n))
      | .struct _ fields => ∀ F ∈ fields, ∀ n, Snd x (some n) (rec F.2) (Hat (R F.2 n))) {s s' : St} {v : SVal} (hc : Spot x (some n) s)
    (hm : Moved s) (e : variantData rec (fieldOf D f) name id k s = .ok v s') :
    (Spot x (some n) s' ∧ Moved s') ∧ ∃ r, s.rest = r ++ s'.rest ∧ VariantText x.implicitSome R (Optional D f) name id k n r v := by
  cases k with
  | unit =>
    cases e
    exact ⟨⟨hc, hm⟩, [], rfl, rfl, rfl⟩
  | newtype T =>
    simp only at h
    unfold variantData at e
    replace e := bind_ok e; obtain ⟨u, s9, e9, e⟩ := e
    cases e
    unfold newtypeVariant at e9
    rw [getSt_bind] at e9
    replace e9 := bind_ok e9; obtain ⟨_, s1, e1, e9⟩ := e9
    obtain ⟨c1, x1⟩ := Sf.skipWs.spot hc e1
    replace e9 := bind_ok e9; obtain ⟨op, s2, e2, e9⟩ := e9
    obtain ⟨c2, x2⟩ := (Sf.consumeChar '(').spot c1 e2
    rcases consumeChar_inv e2 with ⟨rfl, hr2, -⟩ | ⟨rfl, -, -⟩
    · replace e9 := if_tt e9
      replace e9 := bind_ok e9; obtain ⟨_, s4, e4, e9⟩ := e9
      obtain ⟨c4, -⟩ := Sf.skipWs.spot c2 e4
      rw [bind_apply, modSt_apply] at e9
      simp only [c4.flag hx] at e9
      replace e9 := bind_ok e9; obtain ⟨v, s5, e5, e9⟩ := e9
      have hme : ∀ n, Snd x (some n) (mapErr (structErrorName s.lastIdent) (rec T)) (Hat (R T n)) :=
        fun n s a s' hc hl e => h n s a s' hc hl (mapErr_inv e)
      have c5 := (deeper_guardQ (R := R T) (hme _) _ _ _ c4 (skipWs_noLayout e4) e5).1
      rw [bind_apply, setNv_apply] at e9
      simp only [c5.setNv] at e9
      replace e9 := bind_ok e9; obtain ⟨cm, s6, e6, e9⟩ := e9
      replace e9 := bind_ok e9; obtain ⟨cl, s7, e7, e9⟩ := e9
      cases cl with
      | false => replace e9 := if_ff e9; cases e9
      | true =>
        replace e9 := if_tt e9
        cases e9
        obtain ⟨k1, w, k3, k4⟩ := paren_snd (R := R T) hme c2 e4 e5 e6 e7
        obtain ⟨-, l, hl, hl', -⟩ := skipWs_inv_ne e1 (by rw [hr2]; simp)
        exact ⟨k1, l ++ '(' :: (w ++ [')']), by rw [hl, hr2, k3]; simp, l, _, u, rfl, hl', k4, rfl⟩
    · replace e9 := if_ff e9
      cases e9
  | tuple Ts =>
    simp only at h
    unfold variantData at e
    replace e := bind_ok e; obtain ⟨_, s1, e1, e⟩ := e
    obtain ⟨c1, x1⟩ := Sf.skipWs.spot hc e1
    replace e := bind_ok e; obtain ⟨vs, s2, e2, e⟩ := e
    cases e
    obtain ⟨k1, w, k3, k4⟩ := deTuple_text h c1 e2
    have hne : s1.rest ≠ [] := by
      rw [k3]
      cases n with
      | zero => exact k4.elim
      | succ n =>
        obtain ⟨es, hd, -⟩ := k4
        cases hd <;> simp
    obtain ⟨-, l, hl, hl', -⟩ := skipWs_inv_ne e1 hne
    exact ⟨k1, l ++ w, by rw [hl, k3]; simp, l, w, vs, rfl, hl', k4, rfl⟩
  | struct deny fields =>
    simp only at h
    unfold variantData at e
    simp only at e
    rw [getSt_bind] at e
    replace e := bind_ok e; obtain ⟨_, s1, e1, e⟩ := e
    obtain ⟨c1, x1⟩ := Sf.skipWs.spot hc e1
    replace e := bind_ok e; obtain ⟨fs, s2, e2, e⟩ := e
    cases e
    obtain ⟨k1, w, k3, k4⟩ := fields_text hx h c1 (mapErr_inv e2)
    have hne : s1.rest ≠ [] := by
      rw [k3]
      cases n with
      | zero => exact k4.elim
      | succ n =>
        obtain ⟨es, gs, hd, -⟩ := k4
        cases hd <;> simp
    obtain ⟨-, l, hl, hl', -⟩ := skipWs_inv_ne e1 hne
    exact ⟨k1, l ++ w, by rw [hl, k3]; simp, l, w, fs, rfl, hl', k4, rfl⟩

theorem guardQ_moved {α : Type} {x : Exts} {n : Nat} {f : P α} {s s' : St} {a : α} (hc : Spot x (some n) s) (e : deGuardQ f s = .ok a s') :
    ∃ s1, f { s with limit := some (n - 1) } = .ok a s1 ∧ (Moved s1 → Moved s') := by
  unfold deGuardQ at e
  rw [hc.limit] at e
  cases n with
  | zero => cases e
  | succ n =>
    simp only [Option.map_some, Nat.add_sub_cancel] at e ⊢
    generalize hf : f { s with limit := some n } = r at e
    cases r with
    | err _ _ => cases e
    | ok b t =>
      cases e
      exact ⟨t, rfl, fun h => h⟩

theorem enum_snd {x : Exts} (hx : x.unwrapVariantNewtypes = false) {n : Nat} {rec : Ty → P SVal} {R : Ty → Nat → Text → SVal → Prop} {D : Nat → Ty} {f : Nat}
    {name : Text} {variants : List (Text × Variant)} (h : ∀ e ∈ variants, match e.2 with
      | .unit => True
      | .newtype T => ∀ n, Snd x (some n) (rec T) (Hat (R T n))
      | .tuple Ts => ∀ T ∈ Ts, ∀ n, Snd x (some n) (rec T) (Hat (R T n))
      | .struct _ fields => ∀ F ∈ fields, ∀ n, Snd x (some n) (rec F.2) (Hat (R F.2 n))) :
    Snd x (some n) (deEnum name (visitEnum rec (fieldOf D f) name variants)) (Hat (Deeper (fun n w v => n ≠ 0 ∧ ∃ id k tok r,
      w = tok ++ r ∧ KeyTok id tok ∧ variants.find? (fun e => e.1 = id) = some (id, k) ∧ VariantText x.implicitSome R (Optional D f) name id k n r v) n)) := by
  intro s a s' hc hl e
  unfold deEnum at e
  rw [bind_apply, setNv_apply] at e
  simp only [hc.setNv] at e
  refine deeper_guardR (R := fun n w v => n ≠ 0 ∧ ∃ id k tok r, w = tok ++ r ∧ KeyTok id tok ∧
    variants.find? (fun e => e.1 = id) = some (id, k) ∧ VariantText x.implicitSome R (Optional D f) name id k n r v) ?_ s a s' hc hl (mapErr_inv e)
  clear e hc hl s s' a
  generalize n - 1 = n
  intro s a s' hc hl e
  unfold visitEnum at e
  replace e := bind_ok e; obtain ⟨_, s1, e1, e⟩ := e
  obtain ⟨c1, x1⟩ := Sf.skipWs.spot hc e1
  replace e := bind_ok e; obtain ⟨⟨id, k⟩, s2, e2, e⟩ := e
  simp only at e
  obtain ⟨hn, s3, c3, e3, r3, c2⟩ := guardQ_at c1 e2
  obtain ⟨s3', e3', mv⟩ := guardQ_moved c1 e2
  rw [e3] at e3'; cases e3'
  replace e3 := bind_ok e3; obtain ⟨n', s4, e4, e3⟩ := e3
  unfold deIdentifier at e4
  replace e4 := bind_ok e4; obtain ⟨n'', s5, e5, e4⟩ := e4
  cases e4
  obtain ⟨c5, x5⟩ := Sf.identifier.spot c3 e5
  obtain ⟨tok, g1, g2⟩ := identifier_key e5
  have hm : Moved s5 := Kw.moved (fun _ _ => Kw.identifier) c3.tracked e5 (by
    rw [g1, List.length_append]
    have := List.length_pos_iff.mpr (keyTok_ne g2)
    omega)
  have c5' : Spot x (some (n - 1)) { s5 with lastIdent := some n' } :=
    ⟨⟨c5.inside.rest, c5.inside.prev, c5.inside.preWs⟩, c5.tracked, c5.nv, c5.exts, c5.limit⟩
  generalize hf : variants.find? (fun e => e.1 = n') = o at e3
  cases o with
  | none => cases e3
  | some ek =>
    obtain ⟨id', k'⟩ := ek
    cases e3
    have hid : id' = id := by simpa using List.find?_some hf
    subst hid
    have hmem := List.mem_of_find?_eq_some hf
    obtain ⟨⟨k1, k2⟩, r, k3, k4⟩ := variantData_snd hx (h _ hmem) (c2 c5') (mv hm) e
    have hr1 : s1.rest = tok ++ (r ++ s'.rest) := by
      rw [← k3, ← r3]; exact g1
    obtain ⟨-, l, hl, hl', -⟩ := skipWs_inv_ne e1 (by
      rw [hr1]
      have := keyTok_ne g2
      simp [this])
    have hr : s.rest = (l ++ (tok ++ r)) ++ s'.rest := by rw [hl, hr1]; simp
    exact ⟨k1, ⟨_, hr.symm⟩, fun _ => ⟨_, _, hr, .inl ⟨rfl, k2⟩, l, _, hl', rfl, by simpa using hn, id', k, tok, r, rfl, g2, hf, k4⟩⟩

/-! ### Bytes -/

theorem Snd.and {α : Type} {x : Exts} {L : Option Nat} {f : P α} {R : Text → α → Prop} {Q : α → Prop} (h : Snd x L f R)
    (hq : ∀ s a s', f s = .ok a s' → Q a) : Snd x L f (fun t a => R t a ∧ Q a) := by
  intro s a s' hc hl e
  obtain ⟨h1, h2, h3⟩ := h _ _ _ hc hl e
  refine ⟨h1, h2, fun he => ?_⟩
  obtain ⟨t, u, m1, m2, m3⟩ := h3 he
  exact ⟨t, u, m1, m2, m3, hq _ _ _ e⟩

theorem deBytes_snd {x : Exts} {n : Nat} : Snd x (some n) deBytes (fun w b =>
    BytesLit w b ∨ SeqText (fun _ t (b : UInt8) => IntTok .u8 t b.toNat) n w b) := by
  intro s a s' hc hl e
  unfold deBytes at e
  replace e := bind_ok e; obtain ⟨b, s1, e1, e⟩ := e
  have hs : s1 = s := by
    unfold checkChar at e1
    cases e1; rfl
  subst hs
  rcases ite_inv e with ⟨-, e⟩ | ⟨-, e⟩
  · have hi : ∀ n, Snd x (some n) (do let (_, v) ← integer (.one .u8); pure (UInt8.ofNat v.toNat) : P UInt8)
        (Hat ((fun _ t (b : UInt8) => IntTok .u8 t b.toNat) n)) := fun n => by
      refine Snd.map (g := fun a => UInt8.ofNat a.2.toNat) ((integer_snd .u8 x (some n)).and (Q := fun a => IntTy.InRange .u8 a.2) ?_) ?_
      · rintro s ⟨t, v⟩ s' h
        have := integer_wf h
        have ht := this.2.1 _ rfl
        subst ht
        exact this.1
      · rintro t ⟨T, v⟩ ⟨⟨h1, h2⟩, h3⟩
        refine .of ?_
        simp only at h1 h2 h3 ⊢
        have : ((UInt8.ofNat v.toNat).toNat : Int) = v := by
          obtain ⟨h3, h4⟩ := h3
          change (0 : Int) ≤ v at h3
          change v ≤ 255 at h4
          simp only [UInt8.toNat_ofNat']
          omega
        rw [this]; exact h2
    obtain ⟨h1, h2, h3⟩ := seq_snd (R := fun _ t (b : UInt8) => IntTok .u8 t b.toNat) hi _ _ _ hc hl e
    exact ⟨h1, h2, fun he => by obtain ⟨t, u, m1, m2, m3⟩ := h3 he; exact ⟨t, u, m1, m2, .inr m3⟩⟩
  · obtain ⟨h1, h2, h3⟩ := byteString_snd x (some n) _ _ _ hc hl e
    exact ⟨h1, h2, fun he => by obtain ⟨t, u, m1, m2, m3⟩ := h3 he; exact ⟨t, u, m1, m2, .inl m3⟩⟩

/-! ### All types -/

theorem deInt_snd (T : IntTy) (x : Exts) (L : Option Nat) : Snd x L (deInt T) (fun t a => a.1 = T ∧ T.Avail ∧ IntTok T t a.2) := by
  intro s a s' hc hl e
  unfold deInt at e
  rcases ite_inv e with ⟨-, e⟩ | ⟨ha, e⟩
  · cases e
  · have hav : T.Avail := by
      unfold IntTy.Avail
      simp only [not_and, Bool.not_eq_false] at ha
      grind
    obtain ⟨h1, h2, h3⟩ := integer_snd T x L _ _ _ hc hl e
    exact ⟨h1, h2, fun he => by obtain ⟨t, u, m1, m2, m3, m4⟩ := h3 he; exact ⟨t, u, m1, m2, m3, hav, m4⟩⟩

theorem deTy_snd {D : Nat → Ty} {x : Exts} (hx : x.unwrapVariantNewtypes = false) (hD : ∀ i, (D i).Every Ty.Described) (f : Nat) : ∀ (T : Ty), T.Every Ty.Described →
    ∀ n, Snd x (some n) (deTy D f T) (Hat (TyLang D x f T n)) := by
  induction f with
  | zero => intro T _ n s a s' _ _ e; cases e
  | succ f ih =>
    intro T hT n
    cases T with
    | bool => exact (bool_snd x _).map fun t b h => .of ⟨b, h, rfl⟩
    | int T =>
      refine Snd.map (g := fun a => SVal.num (.int a.1 a.2)) (deInt_snd T x _) ?_
      rintro t ⟨T', v⟩ ⟨rfl, h1, h2⟩
      exact .of ⟨v, h1, h2, rfl⟩
    | f32 => exact (float_snd true x _).map fun t m h => .of ⟨m, h, rfl⟩
    | f64 => exact (float_snd false x _).map fun t m h => .of ⟨m, h, rfl⟩
    | char => exact (charLit_snd x _).map fun t b h => .of ⟨b, h, rfl⟩
    | str => exact (string_snd x _).map fun t b h => .of ⟨b, h, rfl⟩
    | bytes => exact deBytes_snd.map fun t b h => .of ⟨b, h, rfl⟩
    | unit => exact (unit_snd x _).map fun t b h => .of ⟨h, rfl⟩
    | unitStruct name => exact (unitStruct_snd x _ name).map fun t b h => .of ⟨h, rfl⟩
    | newtype name T =>
      exact (newtype_snd (R := TyLang D x f T) (ih T hT.2) name).map fun t u h => h.imp' fun t h => ⟨u, rfl, h⟩
    | option T => exact (opt_snd hx (R := TyLang D x f T) (ih T hT.2) (deTy_Fd D f T)).imp fun t v h => .of h
    | seq T => exact (seq_snd (R := TyLang D x f T) (ih T hT.2)).map fun t vs h => .of ⟨vs, h, rfl⟩
    | tuple Ts =>
      intro s a s' hc hl e
      replace e := bind_ok e; obtain ⟨vs, s1, e1, e⟩ := e
      cases e
      obtain ⟨⟨k1, k2⟩, w, k3, k4⟩ := deTuple_text (R := TyLang D x f) (fun T hm => ih T (PartsAll_mem hT.2 T hm)) hc e1
      exact ⟨k1, ⟨_, k3.symm⟩, fun _ => ⟨w, _, k3, .inl ⟨rfl, k2⟩, .of ⟨vs, k4, rfl⟩⟩⟩
    | tupleStruct name Ts =>
      exact (tupleStruct_snd (R := TyLang D x f) (fun T hm => ih T (PartsAll_mem hT.2 T hm)) name).map
        fun t vs ⟨p, q, h1, h2, h3⟩ => .of ⟨p, q, vs, h1, h2, h3, rfl⟩
    | map K V =>
      exact (map_snd (K := TyLang D x f K) (V := TyLang D x f V) (ih K hT.2.1) (ih V hT.2.2)).map fun t es h => .of ⟨es, h, rfl⟩
    | struct name deny fields =>
      exact struct_snd hx (R := TyLang D x f) (fun F hm => ih F.2 (PartsFields_mem hT.2 F hm)) name
    | enum name variants =>
      refine enum_snd hx (R := TyLang D x f) fun e hm => ?_
      have hv := PartsVariants_mem hT.2 e hm
      obtain ⟨id, k⟩ := e
      cases k with
      | unit => trivial
      | newtype T => exact ih T hv
      | tuple Ts => exact fun T hm => ih T (PartsAll_mem hv T hm)
      | struct deny fields => exact fun F hm => ih F.2 (PartsFields_mem hv F hm)
    | value =>
      intro s a s' hc hl e
      replace e := bind_ok e; obtain ⟨v, s1, e1, e⟩ := e
      cases e
      obtain ⟨g1, g2, g3⟩ := deValue_snd hx hc hl e1
      refine ⟨g1, g2, fun he => ?_⟩
      obtain ⟨m, t, u, k1, k2, k3, k4⟩ := g3 he
      exact ⟨t, u, k1, k2, .of ⟨v, gramX_mono (k4 n rfl) k3, rfl⟩⟩
    | raw => exact hT.1.elim
    | ref i => exact (ih (D i) (hD i) n).imp fun t v h => h

end Ron
