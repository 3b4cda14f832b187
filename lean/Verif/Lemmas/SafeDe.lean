import Verif.Lemmas.Safe
import Verif.Model.De
/-!
The deserializer keeps its positions inside the text, restores the recursion limit when it succeeds, and runs out of
the model's fuel only if the nested calls do.
-/

set_option linter.unusedSimpArgs false

namespace Ron

/-- `s` can be reached from `b` by deserializing. -/
structure FromD (b s : St) : Prop where
  inside : s.Inside
  rest : s.rest <:+ b.rest
  src : s.src = b.src
  exts : s.exts = b.exts

theorem FromD.refl {s : St} (h : s.Inside) : FromD s s := ⟨h, List.suffix_refl _, rfl, rfl⟩
theorem FromD.trans {a b c : St} (h : FromD a b) (g : FromD b c) : FromD a c :=
  ⟨g.inside, g.rest.trans h.rest, g.src.trans h.src, g.exts.trans h.exts⟩
theorem From.toD {b s : St} (h : From b s) : FromD b s := ⟨h.inside, h.rest, h.src, h.exts⟩
theorem St.Inside.with {s : St} (h : s.Inside) {l : Option Nat} {nv : Bool} {li : Option Text} :
    St.Inside { s with limit := l, nv := nv, lastIdent := li } := ⟨h.rest, h.prev, h.preWs⟩
theorem FromD.with {b s : St} (h : FromD b s) {l : Option Nat} {nv : Bool} {li : Option Text} :
    FromD b { s with limit := l, nv := nv, lastIdent := li } := ⟨h.inside.with, h.rest, h.src, h.exts⟩
theorem FromD.le {b s : St} (h : FromD b s) : s.rest.length ≤ b.rest.length := h.rest.length_le

/-- A result reached from `b`; the limit is restored on success; if `φ` is false the fuel has not run out; no move
went beyond the end of the source. -/
def OutD {α : Type} (φ : Prop) (b : St) (Q : α → St → Prop) : Res α → Prop
  | .ok a s => FromD b s ∧ s.limit = b.limit ∧ Q a s
  | .err e s => FromD b s ∧ (e = .fuel → φ) ∧ e ≠ .panic

/-- The order in which nested calls on the same text are made. -/
def St.meas (s : St) : Nat := 2 * s.rest.length + (if s.nv then 1 else 0)

/-- A state at which a nested call is made: at least one level deeper, not before `s`. -/
structure Under (s s' : St) : Prop where
  from_ : FromD s s'
  lim : ∃ k, 1 ≤ k ∧ s'.limit = s.limit.map (· - k) ∧ ∀ n, s.limit = some n → k ≤ n
  meas : s'.meas ≤ s.meas

section
variable {α β : Type} {φ : Prop} {b s : St} {Q : α → St → Prop} {R : β → St → Prop}

theorem OutD.imp {r : Res α} {Q' : α → St → Prop} (h : OutD φ b Q r) (hq : ∀ a s, FromD b s → Q a s → Q' a s) :
    OutD φ b Q' r := by
  cases r with
  | ok a s => exact ⟨h.1, h.2.1, hq a s h.1 h.2.2⟩
  | err e s => exact h

theorem OutD.top {r : Res α} (h : OutD φ b Q r) : OutD φ b (fun _ _ => True) r := h.imp fun _ _ _ _ => trivial

theorem OutD.lift {r : Res α} (hb : FromD b s) (hl : s.limit = b.limit) (h : OutD φ s Q r) : OutD φ b Q r := by
  cases r with
  | ok a s' => exact ⟨hb.trans h.1, h.2.1.trans hl, h.2.2⟩
  | err e s' => exact ⟨hb.trans h.1, h.2⟩

theorem OutD.liftF {r : Res α} (hb : FromD b s) (hl : s.limit = b.limit) (h : OutD φ s Q r) :
    OutD φ b (fun a s' => Q a s' ∧ FromD s s') r := by
  cases r with
  | ok a s' => exact ⟨hb.trans h.1, h.2.1.trans hl, h.2.2, h.1⟩
  | err e s' => exact ⟨hb.trans h.1, h.2⟩

theorem Out.toD {r : Res α} (hb : FromD b s) (hl : s.limit = b.limit) (h : Out s Q r) :
    OutD φ b (fun a s' => Q a s' ∧ From s s') r := by
  cases r with
  | ok a s' => exact ⟨hb.trans h.1.toD, h.1.limit.trans hl, h.2, h.1⟩
  | err e s' => exact ⟨hb.trans h.1.toD, fun he => absurd he h.2.1, h.2.2⟩

theorem Safe.toD {f : P α} (h : Safe f) (hb : FromD b s) (hl : s.limit = b.limit) :
    OutD φ b (fun _ s' => From s s') (f s) := (Out.toD hb hl (h s hb.inside)).imp fun _ _ _ h => h.2

theorem OutD.bind {f : P α} {g : α → P β} (hf : OutD φ b Q (f s))
    (hg : ∀ a s', FromD b s' → s'.limit = b.limit → Q a s' → OutD φ b R (g a s')) : OutD φ b R ((f >>= g) s) := by
  show OutD φ b R (P.bind f g s)
  unfold P.bind
  revert hf
  cases f s with
  | ok a s' => exact fun hf => hg a s' hf.1 hf.2.1 hf.2.2
  | err e s' => exact fun hf => hf

theorem OutD.bindS {f : P α} {g : α → P β} (hf : Safe f) (hb : FromD b s) (hl : s.limit = b.limit)
    (hg : ∀ a s', FromD b s' → s'.limit = b.limit → From s s' → OutD φ b R (g a s')) : OutD φ b R ((f >>= g) s) :=
  OutD.bind (hf.toD hb hl) hg

theorem OutD.pure {a : α} (hb : FromD b s) (hl : s.limit = b.limit) (hq : Q a s) : OutD φ b Q ((Pure.pure a : P α) s) :=
  ⟨hb, hl, hq⟩
theorem OutD.fail {e : Err} (hb : FromD b s) (he : e.Fine) : OutD φ b Q ((Ron.fail e : P α) s) :=
  ⟨hb, fun h => absurd h he.1, he.2⟩
theorem OutD.getSt {g : St → P β} (h : OutD φ b R (g s s)) : OutD φ b R ((Ron.getSt >>= g) s) := h
theorem OutD.modSt {f : St → St} {g : Unit → P β} (h : OutD φ b R (g () (f s))) : OutD φ b R ((Ron.modSt f >>= g) s) := h
theorem OutD.setNv {v : Bool} {g : Unit → P β} (h : OutD φ b R (g () { s with nv := v })) :
    OutD φ b R ((Ron.setNv v >>= g) s) := h
theorem OutD.ite {c : Prop} [Decidable c] {f g : P α} (hf : c → OutD φ b Q (f s)) (hg : ¬ c → OutD φ b Q (g s)) :
    OutD φ b Q ((if c then f else g) s) := by
  split
  · exact hf ‹_›
  · exact hg ‹_›
theorem OutD.mapErr {f : P α} {g : Err → Err} (hf : OutD φ b Q (f s)) (hg : ∀ e, (g e = .fuel → e = .fuel) ∧ (g e = .panic → e = .panic)) :
    OutD φ b Q (Ron.mapErr g f s) := by
  unfold Ron.mapErr
  revert hf
  cases f s with
  | ok a s' => exact id
  | err e s' => exact fun hf => ⟨hf.1, fun h => hf.2.1 ((hg e).1 h), fun h => hf.2.2 ((hg e).2 h)⟩

/-- The state below a guard. -/
def St.down (s : St) : St := { s with limit := s.limit.map (· - 1) }

theorem St.Inside.down (h : s.Inside) : s.down.Inside := ⟨h.rest, h.prev, h.preWs⟩

theorem Under.down (hi : s.Inside) (h : s.limit ≠ some 0) : Under s s.down := by
  refine ⟨⟨hi.down, List.suffix_refl _, rfl, rfl⟩, ⟨1, Nat.le_refl _, rfl, ?_⟩, Nat.le_refl _⟩
  intro n hn
  cases n with
  | zero => exact absurd hn h
  | succ n => omega

theorem Under.trans {a b c : St} (h : Under a b) (g : Under b c) : Under a c := by
  obtain ⟨k, h1, h2, h3⟩ := h.lim
  obtain ⟨k', g1, g2, g3⟩ := g.lim
  refine ⟨h.from_.trans g.from_, ⟨k + k', by omega, ?_, ?_⟩, Nat.le_trans g.meas h.meas⟩
  · rw [g2, h2]
    cases a.limit with
    | none => rfl
    | some n => simp; omega
  · intro n hn
    have := h3 n hn
    rw [hn] at h2
    have := g3 (n - k) h2
    omega

/-- Before the guarded call, tokens are read. -/
theorem Under.pre {a b c : St} (h : FromD a b) (hl : b.limit = a.limit) (hm : b.meas ≤ a.meas) (g : Under b c) : Under a c := by
  obtain ⟨k', g1, g2, g3⟩ := g.lim
  exact ⟨h.trans g.from_, ⟨k', g1, hl ▸ g2, hl ▸ g3⟩, Nat.le_trans g.meas hm⟩

theorem guard_limit {l : Option Nat} (h : l ≠ some 0) : (l.map (· - 1)).map (· + 1) = l := by
  cases l with
  | none => rfl
  | some n => cases n with
    | zero => exact absurd rfl h
    | succ n => rfl

theorem OutD.guardQ {f : P α} (hi : s.Inside) (h : Under s s.down → OutD φ s.down Q (f s.down))
    (hQ : ∀ a s' l, Q a s' → Q a { s' with limit := l }) : OutD φ s Q (deGuardQ f s) := by
  unfold deGuardQ
  by_cases h0 : s.limit = some 0
  · rw [h0]; exact ⟨.refl hi, by simp⟩
  have hf := h (.down hi h0)
  show OutD φ s Q (match s.limit with
    | some 0 => _
    | _ => match f s.down with
      | .ok a s' => .ok a { s' with limit := s'.limit.map (· + 1) }
      | .err e s' => .err e s')
  have hs : ∀ (x y : Res α), (match s.limit with | some 0 => x | _ => y) = y := by
    intro x y
    split
    · rename_i h; exact absurd h h0
    · rfl
  rw [hs]
  revert hf
  cases f s.down with
  | ok a s' =>
    intro hf
    refine ⟨⟨⟨hf.1.inside.rest, hf.1.inside.prev, hf.1.inside.preWs⟩, hf.1.rest, hf.1.src, hf.1.exts⟩, ?_, hQ _ _ _ hf.2.2⟩
    show s'.limit.map _ = _
    rw [hf.2.1]
    exact guard_limit h0
  | err e s' => exact fun hf => ⟨⟨hf.1.inside, hf.1.rest, hf.1.src, hf.1.exts⟩, hf.2⟩

theorem OutD.guardR {f : P α} (hi : s.Inside) (h : Under s s.down → OutD φ s.down Q (f s.down))
    (hQ : ∀ a s' l, Q a s' → Q a { s' with limit := l }) : OutD φ s Q (deGuardR f s) := by
  have := OutD.guardQ hi h hQ
  unfold deGuardQ at this
  unfold deGuardR
  revert this
  split
  · exact id
  · rename_i h0
    cases f { s with limit := s.limit.map (· - 1) } with
    | ok a s' => exact id
    | err e s' => exact fun hf => ⟨⟨⟨hf.1.inside.rest, hf.1.inside.prev, hf.1.inside.preWs⟩, hf.1.rest, hf.1.src, hf.1.exts⟩, hf.2⟩

/-- A nested call. -/
def Seed (φ : Prop) (s : St) (f : P α) : Prop := ∀ s', Under s s' → OutD φ s' (fun _ _ => True) (f s')

theorem Seed.guardQ {f : P α} (h : Seed φ s f) (hb : FromD b s) (hl : s.limit = b.limit) :
    OutD φ b (fun _ s' => FromD s s') (deGuardQ f s) :=
  (OutD.liftF hb hl (OutD.guardQ hb.inside (fun hu => h _ hu) (fun _ _ _ h => h))).imp fun _ _ _ h => h.2
theorem Seed.guardR {f : P α} (h : Seed φ s f) (hb : FromD b s) (hl : s.limit = b.limit) :
    OutD φ b (fun _ s' => FromD s s') (deGuardR f s) :=
  (OutD.liftF hb hl (OutD.guardR hb.inside (fun hu => h _ hu) (fun _ _ _ h => h))).imp fun _ _ _ h => h.2

theorem Seed.pre {f : P α} (h : Seed φ b f) (hb : FromD b s) (hl : s.limit = b.limit) (hm : s.meas ≤ b.meas) : Seed φ s f :=
  fun s' hu => h s' (hu.pre hb hl hm)

theorem meas_lt (h : s.rest.length < b.rest.length) : s.meas < b.meas := by
  unfold St.meas
  split <;> split <;> omega
theorem meas_le (h : s.rest.length ≤ b.rest.length) (hn : s.nv = b.nv) : s.meas ≤ b.meas := by
  unfold St.meas
  rw [hn]
  split <;> omega
theorem From.meas (h : From b s) : s.meas ≤ b.meas := meas_le h.rest.length_le h.nv
end

/-! ### Elements -/

section
variable {α : Type} {φ : Prop}

theorem comma_out {s : St} (hi : s.Inside) : Out s (fun r s' => r = true → s'.rest.length < s.rest.length) (comma s) := by
  unfold comma
  refine Out.bindS .skipWs (.refl hi) fun _ s1 h1 _ => ?_
  have l1 := h1.rest.length_le
  refine Out.bind ((consumeChar_out h1.inside ',').lift h1) fun r s2 h2 q2 => ?_
  refine Out.ite (fun hr => ?_) fun hr => Out.pure h2 (by simp)
  have l2 := q2.2 hr
  exact Out.bindS .skipWs h2 fun _ s3 h3 g3 => Out.pure h3 fun _ => by have := g3.rest.length_le; omega

theorem Safe.hasElement (term : Char) (had : Bool) : Safe (hasElement term had) := by
  unfold Ron.hasElement; repeat safe_step

theorem hasElement_false {term : Char} {s : St} (hi : s.Inside) :
    Out s (fun r _ => r = false) (hasElement term false s) := by
  unfold hasElement
  refine Out.bindS .skipWs (.refl hi) fun _ s1 h1 _ => ?_
  refine Out.bindS (.checkChar _) h1 fun r s2 h2 _ => ?_
  refine Out.ite (fun h => absurd h (by simp)) fun _ => ?_
  exact Out.ite (fun _ => Out.pure h2 rfl) fun _ => Out.fail h2 (by simp)

theorem nextElement_out {term : Char} {had : Bool} {seed : P α} {s : St} (hi : s.Inside) (hs : Seed φ s seed) :
    OutD φ s (fun r s' => ∀ a c, r = some (a, c) → had = true ∧ (c = true → s'.rest.length < s.rest.length))
      (nextElement term had seed s) := by
  unfold nextElement
  have h0 : Out s (fun r _ => had = false → r = false) (hasElement term had s) := by
    cases had with
    | true => exact ((Safe.hasElement term true) s hi).imp fun _ _ _ _ h => nomatch h
    | false => exact (hasElement_false hi).imp fun _ _ _ h _ => h
  refine OutD.bind (Out.toD (.refl hi) rfl h0) fun r s1 h1 l1 q1 => ?_
  have hm := q1.2.meas
  refine OutD.ite (fun hr => ?_) fun _ => OutD.pure h1 l1 (by intro a c h; cases h)
  refine OutD.bind ((hs.pre h1 l1 hm).guardQ h1 l1) fun a s2 h2 l2 q2 => ?_
  refine OutD.bind (Out.toD h2 l2 (comma_out h2.inside)) fun c s3 h3 l3 q3 => ?_
  refine OutD.pure h3 l3 ?_
  intro a' c' h
  cases h
  refine ⟨?_, fun hc => ?_⟩
  · cases had with
    | true => rfl
    | false => rw [q1.1 rfl] at hr; cases hr
  · have := q3.1 hc
    have := h2.le
    omega

theorem Seed.later {seed : P α} {s s' : St} (hs : Seed φ s seed) (h : FromD s s') (hl : s'.limit = s.limit)
    (hlt : s'.rest.length < s.rest.length) : Seed φ s' seed := hs.pre h hl (Nat.le_of_lt (meas_lt hlt))

theorem seqLoop_out (term : Char) (seed : P α) (f : Nat) : ∀ (had : Bool) (s : St), s.Inside → (had = true → Seed φ s seed) →
    (if had then s.rest.length + 2 else 1) ≤ f → OutD φ s (fun _ _ => True) (seqLoop term seed f had s) := by
  induction f with
  | zero => intro had s _ _ h; split at h <;> omega
  | succ f ih =>
    intro had s hi hs hf
    unfold seqLoop
    have hn : OutD φ s (fun r s' => ∀ a c, r = some (a, c) → had = true ∧ (c = true → s'.rest.length < s.rest.length))
        (nextElement term had seed s) := by
      cases had with
      | true => exact nextElement_out hi (hs rfl)
      | false =>
        unfold nextElement
        refine OutD.bind (Out.toD (.refl hi) rfl (hasElement_false hi)) fun r s1 h1 l1 q1 => ?_
        rw [q1.1]
        exact OutD.pure h1 l1 (by intro a c h; cases h)
    refine OutD.bind hn fun r s1 h1 l1 q1 => ?_
    cases r with
    | none => exact OutD.pure h1 l1 trivial
    | some ac =>
      obtain ⟨a, c⟩ := ac
      obtain ⟨q2, q3⟩ := q1 a c rfl
      subst q2
      simp only [↓reduceIte] at hf
      refine OutD.bind (Q := fun _ _ => True) ?_ fun as s2 h2 l2 _ => OutD.pure h2 l2 trivial
      refine OutD.lift h1 l1 (ih c s1 h1.inside (fun hc => (hs rfl).later h1 l1 (q3 hc)) ?_)
      split
      · have := q3 ‹_›; omega
      · omega

theorem readSeq_out {term : Char} {seed : P α} {s : St} (hi : s.Inside) (hs : Seed φ s seed) :
    OutD φ s (fun _ _ => True) (readSeq term seed s) := by
  unfold readSeq
  refine OutD.getSt ?_
  exact seqLoop_out term seed _ true s hi (fun _ => hs) (by simp)

theorem nextKey_out {term : Char} {had : Bool} {seed : P α} {s : St} (hi : s.Inside) (hs : Seed φ s seed) :
    OutD φ s (fun _ _ => True) (nextKey term had seed s) := by
  unfold nextKey
  refine OutD.bindS (.hasElement _ _) (.refl hi) rfl fun r s1 h1 l1 q1 => ?_
  refine OutD.ite (fun hr => ?_) fun _ => OutD.pure h1 l1 trivial
  exact OutD.bind ((hs.pre h1 l1 q1.meas).guardR h1 l1) fun a s2 h2 l2 q2 => OutD.pure h2 l2 trivial

theorem nextValue_out {seed : P α} {s : St} (hi : s.Inside) (hs : ∀ s', FromD s s' → s'.limit = s.limit →
    s'.rest.length < s.rest.length → Seed φ s' seed) :
    OutD φ s (fun _ s' => s'.rest.length < s.rest.length) (nextValue seed s) := by
  unfold nextValue
  refine OutD.bindS .skipWs (.refl hi) rfl fun _ s1 h1 l1 q1 => ?_
  have e1 := h1.le
  refine OutD.bind (Out.toD h1 l1 (consumeChar_out h1.inside ':')) fun r s2 h2 l2 q2 => ?_
  refine OutD.ite (fun hr => ?_) fun _ => OutD.fail h2 (by simp)
  have e2 := q2.1.2 hr
  refine OutD.bindS .skipWs h2 l2 fun _ s3 h3 l3 q3 => ?_
  have e3 := q3.toD.le
  refine OutD.bind ((hs s3 h3 l3 (by omega)).guardQ h3 l3) fun a s4 h4 l4 q4 => ?_
  have e4 := q4.le
  exact OutD.bindS .comma h4 l4 fun c s5 h5 l5 q5 => OutD.pure h5 l5 (by have := q5.toD.le; omega)

theorem mapLoop_out {κ ν : Type} (term : Char) (key : P κ) (value : P ν) (f : Nat) : ∀ (had : Bool) (s : St), s.Inside →
    Seed φ s key → Seed φ s value → s.rest.length < f → OutD φ s (fun _ _ => True) (mapLoop term key value f had s) := by
  induction f with
  | zero => intro had s _ _ _ h; omega
  | succ f ih =>
    intro had s hi hk hv hf
    unfold mapLoop
    refine OutD.bind (nextKey_out hi hk) fun r s1 h1 l1 _ => ?_
    cases r with
    | none => exact OutD.pure h1 l1 trivial
    | some k =>
      have e1 := h1.le
      refine OutD.bind (OutD.liftF h1 l1 (nextValue_out h1.inside fun s' g1 g2 g3 => hv.later (h1.trans g1) (g2.trans l1) (by omega)))
        fun vh s2 h2 l2 q2 => ?_
      obtain ⟨v, had'⟩ := vh
      have e2 := q2.1
      refine OutD.bind (Q := fun _ _ => True) ?_ fun as s3 h3 l3 _ => OutD.pure h3 l3 trivial
      exact OutD.lift h2 l2 (ih had' s2 h2.inside (hk.later h2 l2 (by omega)) (hv.later h2 l2 (by omega)) (by omega))

theorem readMap_out {κ ν : Type} {term : Char} {key : P κ} {value : P ν} {s : St} (hi : s.Inside) (hk : Seed φ s key)
    (hv : Seed φ s value) : OutD φ s (fun _ _ => True) (readMap term key value s) := by
  unfold readMap
  refine OutD.getSt ?_
  exact mapLoop_out term key value _ true s hi hk hv (by omega)

/-! ### Compounds -/

/-- A nested call on less text, or on the same text after the newtype-variant flag was cleared. -/
def SeedLt (φ : Prop) (s : St) (f : P α) : Prop :=
  ∀ s', Under s s' → s'.meas < s.meas → OutD φ s' (fun _ _ => True) (f s')

theorem Seed.lt {s : St} {f : P α} (h : Seed φ s f) : SeedLt φ s f := fun s' hu _ => h s' hu

theorem SeedLt.seed {s s' : St} {f : P α} (h : SeedLt φ s f) (hb : FromD s s') (hl : s'.limit = s.limit) (hm : s'.meas < s.meas) :
    Seed φ s' f := fun s2 hu => h s2 (hu.pre hb hl (Nat.le_of_lt hm)) (Nat.lt_of_le_of_lt hu.meas hm)
theorem SeedLt.under {s s' : St} {f : P α} (h : SeedLt φ s f) (hu : Under s s') (hm : s'.meas < s.meas) :
    Seed φ s' f := fun s2 hu2 => h s2 (hu.trans hu2) (Nat.lt_of_le_of_lt hu2.meas hm)

theorem FromD.nv {b s : St} (h : FromD b s) (v : Bool) : FromD b { s with nv := v } :=
  ⟨⟨h.inside.rest, h.inside.prev, h.inside.preWs⟩, h.rest, h.src, h.exts⟩

theorem meas_nv {b s : St} (h : s.rest.length < b.rest.length) (v : Bool) : ({ s with nv := v } : St).meas < b.meas :=
  meas_lt (s := { s with nv := v }) h

theorem deSeq_out {visit : P α} {s : St} (hi : s.Inside) (hv : SeedLt φ s visit) : OutD φ s (fun _ _ => True) (deSeq visit s) := by
  unfold deSeq
  refine OutD.setNv ?_
  refine OutD.bind (Out.toD (.nv (.refl hi) false) rfl (consumeChar_out (FromD.nv (.refl hi) false).inside '[')) fun r s1 h1 l1 q1 => ?_
  refine OutD.ite (fun hr => ?_) fun _ => OutD.fail h1 (by simp)
  have e1 := q1.1.2 hr
  refine OutD.bind ((hv.seed h1 l1 (meas_lt (by simp at e1; omega))).guardQ h1 l1) fun v s2 h2 l2 _ => ?_
  refine OutD.bindS .skipWs h2 l2 fun _ s3 h3 l3 _ => ?_
  refine OutD.bindS (.consumeChar _) h3 l3 fun r s4 h4 l4 _ => ?_
  exact OutD.ite (fun _ => OutD.pure h4 l4 trivial) fun _ => OutD.fail h4 (by simp)

theorem deMap_out {visit : P α} {s : St} (hi : s.Inside) (hv : SeedLt φ s visit) : OutD φ s (fun _ _ => True) (deMap visit s) := by
  unfold deMap
  refine OutD.setNv ?_
  refine OutD.bind (Out.toD (.nv (.refl hi) false) rfl (consumeChar_out (FromD.nv (.refl hi) false).inside '{')) fun r s1 h1 l1 q1 => ?_
  refine OutD.ite (fun hr => ?_) fun _ => OutD.fail h1 (by simp)
  have e1 := q1.1.2 hr
  refine OutD.bind ((hv.seed h1 l1 (meas_lt (by simp at e1; omega))).guardQ h1 l1) fun v s2 h2 l2 _ => ?_
  refine OutD.bindS .skipWs h2 l2 fun _ s3 h3 l3 _ => ?_
  refine OutD.bindS (.consumeChar _) h3 l3 fun r s4 h4 l4 _ => ?_
  exact OutD.ite (fun _ => OutD.pure h4 l4 trivial) fun _ => OutD.fail h4 (by simp)

/-- The opening of a tuple or struct: an opening parenthesis, or the flag. -/
theorem open_out {s : St} (hi : s.Inside) : OutD φ s (fun r s' => (r = true → ({ s' with nv := false } : St).meas < s.meas) ∧ From s s')
    ((if s.nv = true then (Pure.pure true : P Bool) else consumeChar '(') s) := by
  refine OutD.ite (fun hn => OutD.pure (.refl hi) rfl ⟨fun _ => ?_, .refl hi⟩) fun hn => ?_
  · simp [St.meas, hn]
  · exact (Out.toD (.refl hi) rfl (consumeChar_out hi '(')).imp fun r s' _ h =>
      ⟨fun hr => meas_nv (by have := h.1.2 hr; omega) _, h.2⟩

theorem deTuple_out {visit : P α} {s : St} (hi : s.Inside) (hv : SeedLt φ s visit) : OutD φ s (fun _ _ => True) (deTuple visit s) := by
  unfold deTuple
  refine OutD.getSt ?_
  refine OutD.bind (open_out hi) fun r s1 h1 l1 q1 => ?_
  refine OutD.ite (fun hr => ?_) fun _ => OutD.fail h1 (by simp)
  refine OutD.setNv ?_
  refine OutD.bind ((hv.seed (h1.nv false) l1 (q1.1 hr)).guardQ (h1.nv false) l1) fun v s2 h2 l2 _ => ?_
  refine OutD.bindS .skipWs h2 l2 fun _ s3 h3 l3 _ => ?_
  refine OutD.bind (Q := fun _ _ => True) ?_ fun r s4 h4 l4 _ => OutD.ite (fun _ => OutD.pure h4 l4 trivial) fun _ => OutD.fail h4 (by simp)
  exact OutD.ite (fun _ => OutD.pure h3 l3 trivial) fun _ => ((Safe.consumeChar _).toD h3 l3).top

theorem structErrorName_fuel (n : Option Text) (e : Err) :
    (structErrorName n e = .fuel → e = .fuel) ∧ (structErrorName n e = .panic → e = .panic) := by
  refine ⟨fun h => ?_, fun h => ?_⟩ <;>
  · unfold structErrorName at h
    split at h <;> first | exact h | cases h

theorem structAfterName_out {name : Text} {visit : P α} {s : St} (hi : s.Inside) (hv : SeedLt φ s visit) :
    OutD φ s (fun _ _ => True) (structAfterName name visit s) := by
  unfold structAfterName
  refine OutD.getSt ?_
  refine OutD.bind (open_out hi) fun r s1 h1 l1 q1 => ?_
  refine OutD.ite (fun hr => ?_) fun _ => OutD.ite (fun _ => OutD.fail h1 (by simp)) fun _ => OutD.fail h1 (by simp)
  refine OutD.setNv ?_
  have hv' := hv.seed (h1.nv false) l1 (q1.1 hr)
  refine OutD.bind (Seed.guardQ (fun s' hu => OutD.mapErr (hv' s' hu) (structErrorName_fuel _)) (h1.nv false) l1) fun v s2 h2 l2 _ => ?_
  refine OutD.bindS .skipWs h2 l2 fun _ s3 h3 l3 _ => ?_
  refine OutD.bind (Q := fun _ _ => True) ?_ fun r s4 h4 l4 _ => OutD.ite (fun _ => OutD.pure h4 l4 trivial) fun _ => OutD.fail h4 (by simp)
  exact OutD.ite (fun _ => OutD.pure h3 l3 trivial) fun _ => ((Safe.consumeChar _).toD h3 l3).top

theorem deUnit_out {s : St} (hi : s.Inside) : OutD φ s (fun _ _ => True) (deUnit s) := by
  unfold deUnit
  refine OutD.getSt ?_
  refine OutD.bind (Q := fun _ _ => True) ?_ fun r s1 h1 l1 q1 => OutD.ite (fun _ => ⟨h1.nv false, l1, trivial⟩) fun _ => OutD.fail h1 (by simp)
  exact OutD.ite (fun _ => OutD.pure (.refl hi) rfl trivial) fun _ => ((Safe.consumeStr _).toD (.refl hi) rfl).top

variable [Env]

theorem consumeIdent_out {s : St} (hi : s.Inside) (t : Text) :
    Out s (fun r s' => (r = false → s' = s ∧ checkIdent t s = .ok false s) ∧ (r = true → s'.rest.length + t.length = s.rest.length))
      (consumeIdent t s) := by
  unfold consumeIdent
  rw [bind_apply]
  have hc : checkIdent t s = .ok (startsWith s.rest t && !headXid (s.rest.drop t.length)) s := rfl
  rw [hc]
  by_cases h : (startsWith s.rest t && !headXid (s.rest.drop t.length)) = true
  · rw [h]
    simp only [Bool.and_eq_true] at h
    have := startsWith_le h.1
    simp only [↓reduceIte, bind_apply, advance_ok this]
    refine ⟨.drop hi _, by simp, fun _ => ?_⟩
    simp; omega
  · have h : (startsWith s.rest t && !headXid (s.rest.drop t.length)) = false := by simpa using h
    rw [h]
    exact ⟨.refl hi, fun _ => ⟨rfl, rfl⟩, by simp⟩

theorem deIdentifier_out {s : St} (hi : s.Inside) : OutD φ s (fun _ _ => True) (deIdentifier s) := by
  unfold deIdentifier
  refine OutD.bindS .identifier (.refl hi) rfl fun id s1 h1 l1 _ => ?_
  exact ⟨⟨⟨h1.inside.rest, h1.inside.prev, h1.inside.preWs⟩, h1.rest, h1.src, h1.exts⟩, l1, trivial⟩

theorem deOption_out {vn : α} {visit : P α} {s : St} (hi : s.Inside) (hv : SeedLt φ s visit)
    (hv' : checkIdent c!"Some" s = .ok false s → Seed φ s visit) : OutD φ s (fun _ _ => True) (deOption vn visit s) := by
  unfold deOption
  refine OutD.bind (Out.toD (.refl hi) rfl (consumeIdent_out hi _)) fun r s1 h1 l1 q1 => ?_
  refine OutD.ite (fun _ => OutD.pure h1 l1 trivial) fun hr => ?_
  obtain ⟨e1, -⟩ := q1.1.1 (by simpa using hr)
  subst e1
  refine OutD.bind (Out.toD h1 l1 (consumeIdent_out h1.inside _)) fun r2 s2 h2 l2 q2 => ?_
  cases r2 with
  | false =>
    obtain ⟨e2, e3⟩ := q2.1.1 rfl
    subst e2
    refine OutD.bind (Q := fun r s' => r = false ∧ s' = s2) (OutD.pure h2 l2 ⟨rfl, rfl⟩) fun r s3 h3 l3 q3 => ?_
    obtain ⟨rfl, rfl⟩ := q3
    refine OutD.ite (fun h => absurd h (by simp)) fun _ => ?_
    refine OutD.getSt ?_
    exact OutD.ite (fun _ => ((hv' e3).guardR h3 l3).top) fun _ => OutD.fail h3 (by simp)
  | true =>
    have e2 := q2.1.2 rfl
    simp at e2
    refine OutD.bind (Q := fun _ s' => s'.rest.length ≤ s2.rest.length) ?_ fun r s3 h3 l3 q3 => ?_
    · refine OutD.ite (fun _ => ?_) fun h => absurd rfl h
      refine OutD.bindS .skipWs h2 l2 fun _ s3 h3 l3 q3 => ?_
      exact ((Safe.consumeChar _).toD h3 l3).imp fun _ s4 _ q4 => (q3.trans q4).toD.le
    · refine OutD.ite (fun _ => ?_) fun _ => ?_
      · refine OutD.bindS .skipWs h3 l3 fun _ s4 h4 l4 q4 => ?_
        have e4 := q4.toD.le
        refine OutD.modSt ?_
        refine OutD.bind ((hv.seed (h4.nv s4.exts.unwrapVariantNewtypes) l4 (meas_nv (by omega) _)).guardQ (h4.nv s4.exts.unwrapVariantNewtypes) l4) fun v s5 h5 l5 _ => ?_
        refine OutD.setNv ?_
        refine OutD.bindS .comma (h5.nv _) l5 fun _ s6 h6 l6 _ => ?_
        refine OutD.bindS (.consumeChar _) h6 l6 fun r s7 h7 l7 _ => ?_
        exact OutD.ite (fun _ => OutD.pure h7 l7 trivial) fun _ => OutD.fail h7 (by simp)
      · refine OutD.getSt ?_
        refine OutD.ite (fun _ => ?_) fun _ => OutD.fail h3 (by simp)
        exact ((hv.seed h3 l3 (meas_lt (by omega))).guardR h3 l3).top

/-! ### Self-describing data -/

theorem Safe.floatRangeOrValue (n : Number) : Safe (floatRangeOrValue n) := by
  unfold Ron.floatRangeOrValue; repeat safe_step

theorem visitSeq_out {term : Char} {any : P Value} {s : St} (hi : s.Inside) (h : Seed φ s any) :
    OutD φ s (fun _ _ => True) (visitSeq term any s) := by
  unfold visitSeq
  exact OutD.bind (readSeq_out hi h) fun _ _ h1 l1 _ => OutD.pure h1 l1 trivial

theorem visitMap_out {term : Char} {key any : P Value} {s : St} (hi : s.Inside) (hk : Seed φ s key) (h : Seed φ s any) :
    OutD φ s (fun _ _ => True) (visitMap term key any s) := by
  unfold visitMap
  exact OutD.bind (readMap_out hi hk h) fun _ _ h1 l1 _ => OutD.pure h1 l1 trivial

theorem deIdentValue_out {s : St} (hi : s.Inside) : OutD φ s (fun _ _ => True) (deIdentValue s) := by
  unfold deIdentValue
  exact OutD.bind (deIdentifier_out hi) fun _ _ h1 l1 _ => OutD.pure h1 l1 trivial

theorem Seed.identValue {s : St} : Seed φ s deIdentValue := fun _ hu => deIdentValue_out hu.from_.inside

theorem SeedLt.visitSeq {term : Char} {any : P Value} {s : St} (h : SeedLt φ s any) : SeedLt φ s (visitSeq term any) :=
  fun _ hu hm => visitSeq_out hu.from_.inside (h.under hu hm)
theorem SeedLt.visitMap {term : Char} {key any : P Value} {s : St} (hk : SeedLt φ s key) (h : SeedLt φ s any) :
    SeedLt φ s (visitMap term key any) :=
  fun _ hu hm => visitMap_out hu.from_.inside (hk.under hu hm) (h.under hu hm)
theorem SeedLt.pre {b s : St} {f : P α} (h : SeedLt φ b f) (hb : FromD b s) (hl : s.limit = b.limit) (hm : s.meas ≤ b.meas) :
    SeedLt φ s f := fun s' hu hm' => h s' (hu.pre hb hl hm) (Nat.lt_of_lt_of_le hm' hm)

theorem anyStruct_out {any : P Value} {s : St} (hi : s.Inside) (h : SeedLt φ s any) : OutD φ s (fun _ _ => True) (anyStruct any s) := by
  unfold anyStruct
  refine OutD.bindS (.checkStructType _ _) (.refl hi) rfl fun r s1 h1 l1 q1 => ?_
  have h' := h.pre h1 l1 q1.meas
  split
  · exact OutD.pure h1 l1 trivial
  · exact OutD.lift h1 l1 (structAfterName_out h1.inside (.visitMap (Seed.identValue.lt) h'))
  · exact OutD.lift h1 l1 (deTuple_out h1.inside (.visitSeq h'))

theorem anyChar_out {any : P Value} {s : St} (hi : s.Inside) (h : SeedLt φ s any) : OutD φ s (fun _ _ => True) (anyChar any s) := by
  unfold anyChar
  refine OutD.bindS .peekCharOrEof (.refl hi) rfl fun c s1 h1 l1 q1 => ?_
  have h' := h.pre h1 l1 q1.meas
  refine OutD.getSt ?_
  refine OutD.ite (fun _ => OutD.lift h1 l1 (anyStruct_out h1.inside h')) fun _ => ?_
  refine OutD.ite (fun _ => OutD.lift h1 l1 (deSeq_out h1.inside (.visitSeq h'))) fun _ => ?_
  refine OutD.ite (fun _ => OutD.lift h1 l1 (deMap_out h1.inside (.visitMap h' h'))) fun _ => ?_
  refine (Safe.toD (f := _) ?_ h1 l1).top
  refine Safe.ite ?_ ?_
  · refine Safe.ite (by repeat safe_step) ?_
    refine Safe.bind (by safe_step) fun _ => Safe.ite (by repeat safe_step) ?_
    refine Safe.bind (by safe_step) fun _ => Safe.ite (by repeat safe_step) ?_
    exact .bind .anyNumber fun _ => .floatRangeOrValue _
  · repeat safe_step

theorem anyPlain_out {any : P Value} {s : St} (hi : s.Inside) (h : SeedLt φ s any) : OutD φ s (fun _ _ => True) (anyPlain any s) := by
  unfold anyPlain
  have fr : ∀ n (s' : St), FromD s s' → s'.limit = s.limit → OutD φ s (fun _ _ => True) (floatRangeOrValue n s') :=
    fun n s' h1 l1 => ((Safe.floatRangeOrValue n).toD h1 l1).top
  refine OutD.bindS (.consumeIdent _) (.refl hi) rfl fun r s1 h1 l1 q1 => OutD.ite (fun _ => OutD.pure h1 l1 trivial) fun _ => ?_
  refine OutD.bindS (.consumeIdent _) h1 l1 fun r s2 h2 l2 q2 => OutD.ite (fun _ => OutD.pure h2 l2 trivial) fun _ => ?_
  replace q2 := q1.trans q2
  have hv : SeedLt φ s2 (do let v ← any; Pure.pure (.some v) : P Value) := fun s' hu hm =>
    OutD.bind (h.pre h2 l2 q2.meas s' hu hm) fun _ _ h3 l3 _ => OutD.pure h3 l3 trivial
  refine OutD.bind (Q := fun r s' => s' = s2 ∧ checkIdent c!"Some" s2 = .ok r s2) ⟨h2, l2, rfl, rfl⟩ fun r s3 h3 l3 q3 => ?_
  obtain ⟨rfl, q3⟩ := q3
  refine OutD.ite (fun hr => ?_) fun _ => ?_
  · exact OutD.lift h2 l2 (deOption_out h2.inside hv fun hc => by rw [q3] at hc; simp only [Res.ok.injEq] at hc; rw [hc.1] at hr; cases hr)
  refine OutD.bindS (.consumeIdent _) h3 l3 fun r s4 h4 l4 q4 => OutD.ite (fun _ => OutD.pure h4 l4 trivial) fun _ => ?_
  refine OutD.bindS (.consumeStr _) h4 l4 fun r s5 h5 l5 q5 => OutD.ite (fun _ => OutD.pure h5 l5 trivial) fun _ => ?_
  refine OutD.bindS (.consumeIdent _) h5 l5 fun r s6 h6 l6 q6 => OutD.ite (fun _ => fr _ _ h6 l6) fun _ => ?_
  refine OutD.bindS (.consumeIdent _) h6 l6 fun r s7 h7 l7 q7 => OutD.ite (fun _ => fr _ _ h7 l7) fun _ => ?_
  refine OutD.bindS (.consumeIdent _) h7 l7 fun r s8 h8 l8 q8 => OutD.ite (fun _ => fr _ _ h8 l8) fun _ => ?_
  refine OutD.bindS (.consumeIdent _) h8 l8 fun r s9 h9 l9 q9 => OutD.ite (fun _ => fr _ _ h9 l9) fun _ => ?_
  refine OutD.bindS (.consumeIdent _) h9 l9 fun r s10 h10 l10 q10 => OutD.ite (fun _ => fr _ _ h10 l10) fun _ => ?_
  refine OutD.bindS (.consumeIdent _) h10 l10 fun r s11 h11 l11 q11 => OutD.ite (fun _ => fr _ _ h11 l11) fun _ => ?_
  have q11 := q2.trans (q4.trans (q5.trans (q6.trans (q7.trans (q8.trans (q9.trans (q10.trans q11)))))))
  refine OutD.bindS .skipIdentifier h11 l11 fun r s12 h12 l12 q12 => ?_
  cases r with
  | none => exact OutD.lift h12 l12 (anyChar_out h12.inside (h.pre h12 l12 (q11.trans q12).meas))
  | some id =>
    refine OutD.bindS .skipWs h12 l12 fun _ s13 h13 l13 q13 => ?_
    exact OutD.lift h13 l13 (anyStruct_out h13.inside (h.pre h13 l13 (q11.trans (q12.trans q13)).meas))

theorem anyBody_out {any : P Value} {s : St} (hi : s.Inside) (h : SeedLt φ s any) : OutD φ s (fun _ _ => True) (anyBody any s) := by
  unfold anyBody
  refine OutD.getSt ?_
  refine OutD.ite (fun hn => ?_) fun _ => anyPlain_out hi h
  refine OutD.bindS (.checkChar _) (.refl hi) rfl fun r s1 h1 l1 q1 => ?_
  refine OutD.ite (fun _ => OutD.bind (OutD.lift h1 l1 (deUnit_out h1.inside)) fun _ s2 h2 l2 _ => OutD.pure h2 l2 trivial) fun _ => ?_
  refine OutD.bindS (.checkStructType _ _) h1 l1 fun r s2 h2 l2 q2 => ?_
  have h' := h.pre h2 l2 (q1.trans q2).meas
  split
  · exact OutD.lift h2 l2 (structAfterName_out h2.inside (.visitMap (Seed.identValue.lt) h'))
  · exact OutD.lift h2 l2 (deTuple_out h2.inside (.visitSeq h'))
  · exact OutD.lift h2 l2 (deTuple_out h2.inside (.visitSeq h'))
  · refine OutD.setNv ?_
    refine OutD.lift (h2.nv false) l2 (anyPlain_out (h2.nv false).inside (h.pre (h2.nv false) l2 ?_))
    have := (q1.trans q2).toD.le
    simp only [St.meas, hn, ↓reduceIte, Bool.false_eq_true]
    omega

/-- Fuel of twice the remaining length suffices. -/
theorem deAny_out (f : Nat) : ∀ s : St, s.Inside → (s.meas < f ∨ (∃ n, s.limit = some n ∧ n < f) ∨ φ) → OutD φ s (fun _ _ => True) (deAny f s) := by
  induction f with
  | zero =>
    intro s hi h
    refine ⟨.refl hi, fun _ => ?_, by simp⟩
    rcases h with h | ⟨n, -, h⟩ | h
    · omega
    · omega
    · exact h
  | succ f ih =>
    intro s hi h
    unfold deAny
    refine anyBody_out hi fun s' hu hm => ih s' hu.from_.inside ?_
    rcases h with h | ⟨n, h1, h⟩ | h
    · exact .inl (by omega)
    · refine .inr (.inl ?_)
      obtain ⟨k, k1, k2, k3⟩ := hu.lim
      rw [h1] at k2
      have := k3 n h1
      exact ⟨n - k, k2, by omega⟩
    · exact .inr (.inr h)

theorem deValue_out {s : St} (hi : s.Inside) : OutD φ s (fun _ _ => True) (deValue s) := by
  unfold deValue
  refine OutD.getSt ?_
  refine deAny_out _ s hi (.inl ?_)
  unfold St.meas
  split <;> omega

theorem deIgnored_out {s : St} (hi : s.Inside) : OutD φ s (fun _ _ => True) (deIgnored s) := by
  unfold deIgnored
  exact OutD.bind (deValue_out hi) fun _ _ h1 l1 _ => OutD.pure h1 l1 trivial

end

end Ron
