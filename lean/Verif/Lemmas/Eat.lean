import Verif.Lemmas.SafeDoc
import Verif.Lemmas.Integer
import Verif.Lemmas.StringsSound
/-!
Progress: whatever is read as an element consumes at least one character.
-/

set_option linter.unusedSimpArgs false

namespace Ron

/-- The state lies at or after `b` (strictly after with `k`), outside of an unwrapped variant. -/
structure At (b : St) (k : Bool) (s : St) : Prop where
  inside : s.Inside
  nv : s.nv = false
  rest : s.rest <:+ b.rest
  lt : k = true → s.rest.length < b.rest.length

/-- A result that, if it is a success, lies at or after `b`. -/
def E {α : Type} (b : St) (k : Bool) : Res α → Prop
  | .ok _ s => At b k s
  | .err _ _ => True

section
variable {α β : Type} {b s : St} {k k' : Bool}

theorem At.refl (hi : s.Inside) (hn : s.nv = false) : At s false s := ⟨hi, hn, List.suffix_refl _, by simp⟩
theorem At.trans {a c : St} (h : At a k b) (g : At b k' c) : At a (k || k') c := by
  refine ⟨g.inside, g.nv, g.rest.trans h.rest, fun hk => ?_⟩
  have h1 := h.rest.length_le
  have h2 := g.rest.length_le
  simp only [Bool.or_eq_true] at hk
  rcases hk with hk | hk
  · have := h.lt hk; omega
  · have := g.lt hk; omega
theorem At.weak (h : At b k s) : At b false s := ⟨h.inside, h.nv, h.rest, by simp⟩
theorem At.limit (h : At b k s) {l : Option Nat} : At b k { s with limit := l } := ⟨⟨h.inside.rest, h.inside.prev, h.inside.preWs⟩, h.nv, h.rest, h.lt⟩
theorem At.setNv (h : At b k s) : At b k { s with nv := false } := ⟨⟨h.inside.rest, h.inside.prev, h.inside.preWs⟩, rfl, h.rest, h.lt⟩
theorem From.at' (h : From b s) (hn : b.nv = false) : At b false s := ⟨h.inside, h.nv.trans hn, h.rest, by simp⟩

theorem E.lift {a : St} {r : Res α} (h : At a k s) (g : E s k' r) : E a (k || k') r := by
  cases r with
  | ok x s' => exact h.trans g
  | err e s' => trivial
theorem E.weak {r : Res α} (h : E b k r) : E b false r := by
  cases r with
  | ok x s' => exact At.weak h
  | err e s' => trivial
theorem E.bind {f : P α} {g : α → P β} (hf : E b k (f s)) (hg : ∀ a s', At b k s' → E b k' (g a s')) : E b k' ((f >>= g) s) := by
  rw [bind_apply]
  revert hf
  cases f s with
  | ok a s' => exact hg a s'
  | err e s' => exact fun _ => trivial
theorem E.pure {a : α} (h : At b k s) : E b k ((Pure.pure a : P α) s) := h
theorem E.fail {e : Err} : E b k ((Ron.fail e : P α) s) := trivial
theorem E.ite {c : Prop} [Decidable c] {f g : P α} (hf : c → E b k (f s)) (hg : ¬ c → E b k (g s)) : E b k ((if c then f else g) s) := by
  split
  · exact hf ‹_›
  · exact hg ‹_›
theorem E.getSt {g : St → P β} (h : E b k (g s s)) : E b k ((Ron.getSt >>= g) s) := h
theorem E.mapErr {f : P α} {g : Err → Err} (hf : E b k (f s)) : E b k (Ron.mapErr g f s) := by
  unfold Ron.mapErr
  revert hf
  cases f s with
  | ok a s' => exact id
  | err e s' => exact id
theorem E.mapPure {f : P α} {g : α → β} (h : E b k (f s)) : E b k ((f >>= fun a => Pure.pure (g a) : P β) s) :=
  E.bind h fun _ _ h => h

theorem Safe.E {f : P α} (h : Safe f) (ha : At b k s) : E b k (f s) := by
  have := h s ha.inside
  revert this
  cases f s with
  | ok a s' => exact fun q => by have := ha.trans (q.1.at' ha.nv); rw [Bool.or_false] at this; exact this
  | err e s' => exact fun _ => trivial
theorem E.bindS {f : P α} {g : α → P β} (hf : Safe f) (ha : At b k s) (hg : ∀ a s', At b k s' → Ron.E b k' (g a s')) : Ron.E b k' ((f >>= g) s) :=
  E.bind (hf.E ha) hg

theorem Safe.from {f : P α} {a : α} {s' : St} (h : Safe f) (hi : s.Inside) (e : f s = .ok a s') : From s s' := by
  have := h s hi
  rw [e] at this
  exact this.1
theorem Safe.rest_le {f : P α} {a : α} {s' : St} (h : Safe f) (hi : s.Inside) (e : f s = .ok a s') : s'.rest.length ≤ s.rest.length :=
  (h.from hi e).rest.length_le

/-- Successful reads are not empty. -/
def Eats (f : P α) : Prop := ∀ s a s', f s = .ok a s' → s'.rest.length < s.rest.length

theorem Eats.E {f : P α} (he : Eats f) (hs : Safe f) (ha : At b k s) : E b true (f s) := by
  have h1 := hs.E ha
  have h2 := he s
  revert h1 h2
  cases f s with
  | ok a s' =>
    intro h1 h2
    have := h2 a s' rfl
    have := ha.rest.length_le
    exact ⟨h1.inside, h1.nv, h1.rest, fun _ => by omega⟩
  | err e s' => exact fun _ _ => trivial

theorem guardQ_E {f : P α} {s : St} (h : E s k (f s.down)) : E s k (deGuardQ f s) := by
  unfold deGuardQ
  have h : E s k (f { s with limit := s.limit.map (· - 1) }) := h
  revert h
  split
  · exact fun _ => trivial
  · cases f { s with limit := s.limit.map (· - 1) } with
    | ok a s' => exact fun h => At.limit h
    | err e s' => exact id
theorem guardR_E {f : P α} {s : St} (h : E s k (f s.down)) : E s k (deGuardR f s) := by
  unfold deGuardR
  have h : E s k (f { s with limit := s.limit.map (· - 1) }) := h
  revert h
  split
  · exact fun _ => trivial
  · cases f { s with limit := s.limit.map (· - 1) } with
    | ok a s' => exact fun h => At.limit h
    | err e s' => exact id

theorem E.up {s : St} {r : Res α} (h : E s.down k r) : E s k r := by
  cases r with
  | ok a s' => exact ⟨h.inside, h.nv, h.rest, h.lt⟩
  | err e s' => trivial

/-- A program for nested calls. -/
structure Fd (k : Bool) (f : P α) : Prop where
  eat : ∀ s : St, s.Inside → s.nv = false → E s k (f s)
  low : ∀ s : St, s.Inside → OutD True s (fun _ _ => True) (f s)

theorem Fd.guardQ {f : P α} (h : Fd k f) (ha : At b k' s) : E b (k' || k) (deGuardQ f s) :=
  E.lift ha (guardQ_E (E.up (h.eat s.down ha.inside.down ha.nv)))
theorem Fd.guardR {f : P α} (h : Fd k f) (ha : At b k' s) : E b (k' || k) (deGuardR f s) :=
  E.lift ha (guardR_E (E.up (h.eat s.down ha.inside.down ha.nv)))

/-- A nested call below a variant. -/
theorem Fd.inner {f : P α} {g : α → P β} (h : Fd k f) (ha : At b k' s) (v : Bool) {k2 : Bool}
    (hg : ∀ (a : α) (s' : St), At b k' { s' with nv := false } → E b k2 (g a { s' with nv := false })) :
    E b k2 ((do let a ← deGuardQ f; Ron.setNv false; g a : P β) { s with nv := v }) := by
  have hi : ({ s with nv := v } : St).Inside := ⟨ha.inside.rest, ha.inside.prev, ha.inside.preWs⟩
  have key := OutD.guardQ (φ := True) hi (fun hu => h.low _ hu.from_.inside) (fun _ _ _ _ => trivial)
  rw [bind_apply]
  revert key
  cases deGuardQ f { s with nv := v } with
  | err e s' => exact fun _ => trivial
  | ok a s' =>
    intro key
    refine hg a s' ⟨(key.1.nv false).inside, rfl, key.1.rest.trans ha.rest, fun hk => ?_⟩
    have := key.1.le
    have h2 := ha.lt hk
    simp at this ⊢
    omega
end

/-! ### Tokens -/

section
variable {α : Type} [Env]

omit [Env] in
theorem consumeStr_E {b s : St} {k : Bool} {t : Text} (ht : 0 < t.length) (ha : At b k s) {β : Type} {f g : P β} {k' : Bool}
    (hf : ∀ s', At b true s' → E b k' (f s')) (hg : At b k s → startsWith s.rest t = false → E b k' (g s)) :
    E b k' ((consumeStr t >>= fun r => if r = true then f else g) s) := by
  rw [bind_apply]
  cases h : consumeStr t s with
  | err e s' => trivial
  | ok r s' =>
    rcases consumeStr_inv h with ⟨rfl, h1, h2⟩ | ⟨rfl, rfl, h3⟩
    · have hs := (Safe.consumeStr t).E ha
      rw [h] at hs
      refine hf s' ⟨hs.inside, hs.nv, hs.rest, fun _ => ?_⟩
      have h4 := ha.rest.length_le
      rw [h1] at h4
      simp at h4; omega
    · exact hg ha h3

omit [Env] in
theorem consumeChar_E {b s : St} {k : Bool} {c : Char} (ha : At b k s) {β : Type} {f g : P β} {k' : Bool}
    (hf : ∀ s', At b true s' → E b k' (f s')) (hg : At b k s → E b k' (g s)) :
    E b k' ((consumeChar c >>= fun r => if r = true then f else g) s) :=
  consumeStr_E (t := [c]) (by simp) ha hf fun h _ => hg h

theorem consumeIdent_E {b s : St} {k : Bool} {t : Text} (ht : 0 < t.length) (ha : At b k s) {β : Type} {f g : P β} {k' : Bool}
    (hf : ∀ s', At b true s' → E b k' (f s')) (hg : At b k s → E b k' (g s)) :
    E b k' ((consumeIdent t >>= fun r => if r = true then f else g) s) := by
  rw [bind_apply]
  cases h : consumeIdent t s with
  | err e s' => trivial
  | ok r s' =>
    rcases consumeIdent_inv h with ⟨rfl, h1, h2, -⟩ | ⟨rfl, rfl⟩
    · have hs := (Safe.consumeIdent t).E ha
      rw [h] at hs
      refine hf s' ⟨hs.inside, hs.nv, hs.rest, fun _ => ?_⟩
      have h4 := ha.rest.length_le
      rw [h1] at h4
      simp at h4; omega
    · exact hg ha

theorem bool_E {b s : St} {k : Bool} (ha : At b k s) : E b true (Ron.bool s) := by
  unfold Ron.bool
  refine consumeIdent_E (by simp) ha (fun _ h => h) fun ha => ?_
  exact consumeIdent_E (by simp) ha (fun _ h => h) fun ha => E.fail

theorem lt_of_append {s s' : St} {t : Text} (h : s.rest = t ++ s'.rest) (ht : t ≠ []) : s'.rest.length < s.rest.length := by
  rw [h]
  have := List.length_pos_iff.2 ht
  simp; omega

theorem identifier_eats : Eats identifier := fun s a s' h => by
  obtain ⟨tok, h1, h2, h3, -⟩ := identifier_sound h
  exact lt_of_append h1 (by cases h2 <;> simp [h3])
theorem string_eats : Eats string := fun s a s' h => by
  obtain ⟨tok, h1, h2, -⟩ := string_sound h
  exact lt_of_append h1 (by cases h2 <;> simp)
theorem byteString_eats : Eats byteString := fun s a s' h => by
  obtain ⟨tok, h1, h2, -⟩ := byteString_sound h
  exact lt_of_append h1 (by cases h2 <;> simp)
theorem charLit_E {b s : St} {k : Bool} (ha : At b k s) : E b true (charLit s) := by
  unfold charLit
  have hc : E b true (expectChar '\'' .expectedChar s) := by
    have h1 := (Safe.expectChar '\'' (e := .expectedChar) (by simp)).E ha
    cases h : expectChar '\'' .expectedChar s with
    | err e s' => trivial
    | ok a s' =>
      rw [h] at h1
      have := (expectChar_inv h).1
      have h4 := ha.rest.length_le
      rw [this] at h4
      exact ⟨h1.inside, h1.nv, h1.rest, fun _ => by simp at h4; omega⟩
  refine E.bind hc fun _ s1 h1 => ?_
  refine Safe.E (f := _) ?_ h1
  repeat safe_step

theorem unsignedPart_eats {tg : IntTarget} {neg : Bool} {u : Text} : Eats (unsignedPart tg neg u) := fun s a s' h => by
  obtain ⟨t, v⟩ := a
  obtain ⟨b, body, sfx, h1, h2, -⟩ := unsignedPart_sound h
  have h1 : s.rest = (b.pre ++ (body ++ suffixText sfx)) ++ s'.rest := by rw [h1]; simp
  exact lt_of_append h1 (by simp [h2.1])

theorem integer_E {tg : IntTarget} {b s : St} {k : Bool} (ha : At b k s) : E b true (integer tg s) := by
  have hp : ∀ (s : St) neg u, At b k s → E b true (unsignedPart tg neg u s) := fun s neg u h => unsignedPart_eats.E (.unsignedPart _ _ _) h
  unfold integer
  refine E.getSt ?_
  refine E.bindS .peekCharOrEof ha fun c s1 h1 => ?_
  refine E.ite (fun _ => E.bindS .skipNextChar h1 fun _ s2 h2 => hp _ _ _ h2) fun _ => ?_
  refine E.ite (fun _ => E.bindS .skipNextChar h1 fun _ s2 h2 => hp _ _ _ h2) fun _ => ?_
  by_cases hc : (c == 'b') = true
  · simp only [hc, ↓reduceIte]
    exact consumeStr_E (by simp) h1 (fun s2 h2 => (Safe.byteLiteral _ _).E h2) fun h2 _ => hp _ _ _ h2
  · simp only [hc, ↓reduceIte, Bool.false_eq_true]
    exact hp _ _ _ h1

theorem deInt_E {t : IntTy} {b s : St} {k : Bool} (ha : At b k s) : E b true (deInt t s) := by
  unfold deInt
  exact E.ite (fun _ => .fail) fun _ => integer_E ha

omit [Env] in
theorem drop_lt {t : Text} {n : Nat} (hn : n ≠ 0) (ht : t ≠ []) : (t.drop n).length < t.length := by
  have := List.length_pos_iff.2 ht
  simp; omega

omit [Env] in
theorem if_tt {f g : P α} {s : St} {r : Res α} (h : (if true = true then f else g) s = r) : f s = r := h
omit [Env] in
theorem if_ff {f g : P α} {s : St} {r : Res α} (h : (if false = true then f else g) s = r) : g s = r := h

theorem floatParse_keeps {tg : FloatTarget} {t : Text} {s s' : St} {v : Number} (h : tg.parse t s = .ok v s') : s' = s := by
  cases tg with
  | f32 =>
    unfold FloatTarget.parse at h
    cases hp : Env.parse32 t <;> rw [hp] at h <;> cases h
    rfl
  | f64 =>
    unfold FloatTarget.parse at h
    cases hp : Env.parse64 t <;> rw [hp] at h <;> cases h
    rfl
  | any =>
    unfold FloatTarget.parse at h
    cases hp : Env.parse64 t <;> rw [hp] at h
    · cases h
    · rcases ite_inv h with ⟨-, h⟩ | ⟨-, h⟩ <;> cases h <;> rfl

theorem floatSpecial_eats {tg : FloatTarget} (ls : List (Text × F32 × F64)) (hl : ∀ l ∈ ls, l.1 ≠ []) :
    ∀ s v s', floatSpecial tg ls s = .ok (some v) s' → s'.rest.length < s.rest.length := by
  have tl : ∀ {n : Nat} {v : Number} {u : Text} {s s' : St} {r : Option Number}, s.rest ≠ [] → n ≠ 0 →
      (do advance n; let v ← tg.tryFrom v u; Pure.pure (some v) : P (Option Number)) s = .ok r s' → s'.rest.length < s.rest.length := by
    intro n v u s s' r hs hn h
    replace h := (advance_inv h).2
    replace h := bind_ok h; obtain ⟨v', s2, h1, h⟩ := h
    cases h
    have : s'.rest = s.rest.drop n := by
      unfold FloatTarget.tryFrom at h1
      split at h1 <;> cases h1 <;> rfl
    rw [this]
    exact drop_lt hn hs
  induction ls with
  | nil => intro s v s' h; cases h
  | cons l ls ih =>
    intro s v s' h
    obtain ⟨lit, v32, v64⟩ := l
    have hne : lit ≠ [] := hl (lit, v32, v64) List.mem_cons_self
    rw [floatSpecial] at h
    replace h := bind_ok h; obtain ⟨b, s1, h1, h⟩ := h
    rcases consumeIdent_inv h1 with ⟨rfl, h2, -, -⟩ | ⟨rfl, rfl⟩
    · replace h := if_tt h
      replace h := bind_ok h; obtain ⟨v', s2, h3, h⟩ := h
      cases h
      rw [floatParse_keeps h3]
      exact lt_of_append h2 hne
    · replace h := if_ff h
      rw [getSt_bind] at h
      have hs : ∀ {u : Text} {n : Nat}, (startsWith s1.rest (lit ++ u) && !headXid (s1.rest.drop n)) = true → s1.rest ≠ [] := by
        intro u n hh hs
        rw [hs] at hh
        simp [startsWith] at hh
        exact hne hh.1.1
      rcases ite_inv h with ⟨hc, h⟩ | ⟨-, h⟩
      · exact tl (hs hc) (by omega) h
      · rcases ite_inv h with ⟨hc, h⟩ | ⟨-, h⟩
        · exact tl (hs hc) (by omega) h
        · exact ih (fun l h => hl l (List.mem_cons_of_mem _ h)) _ _ _ h

theorem float_eats {tg : FloatTarget} : Eats (float tg) := fun s a s' h => by
  unfold float at h
  replace h := bind_ok h; obtain ⟨r, s1, h1, h⟩ := h
  cases r with
  | some v =>
    cases h
    exact floatSpecial_eats _ (by simp [floatLiterals]) _ _ _ h1
  | none =>
    have e1 : s1.rest = s.rest := by
      have : ∀ ls (s s1 : St), floatSpecial tg ls s = .ok none s1 → s1 = s := by
        intro ls
        induction ls with
        | nil => intro s s1 h; cases h; rfl
        | cons l ls ih =>
          intro s s1 h
          obtain ⟨lit, v32, v64⟩ := l
          rw [floatSpecial] at h
          replace h := bind_ok h; obtain ⟨b, s2, h2, h⟩ := h
          rcases consumeIdent_inv h2 with ⟨rfl, -, -, -⟩ | ⟨rfl, rfl⟩
          · replace h := if_tt h
            replace h := bind_ok h; obtain ⟨v', s3, -, h⟩ := h
            cases h
          · replace h := if_ff h
            rw [getSt_bind] at h
            rcases ite_inv h with ⟨-, h⟩ | ⟨-, h⟩
            · replace h := (advance_inv h).2
              replace h := bind_ok h; obtain ⟨v', s3, -, h⟩ := h
              cases h
            · rcases ite_inv h with ⟨-, h⟩ | ⟨-, h⟩
              · replace h := (advance_inv h).2
                replace h := bind_ok h; obtain ⟨v', s3, -, h⟩ := h
                cases h
              · exact ih _ _ h
      rw [this _ _ _ h1]
    rw [← e1]
    try dsimp only at h
    rw [getSt_bind] at h
    try dsimp only at h
    generalize hn : (findSub c!".." (s1.rest.takeWhile isFloatChar)).getD (s1.rest.takeWhile isFloatChar).length = n at h
    rcases ite_inv h with ⟨-, h⟩ | ⟨h0, h⟩
    · cases h
    have h0 : n ≠ 0 := by simpa using h0
    have hne : s1.rest ≠ [] := by
      intro he
      rw [he] at hn
      exact h0 hn.symm
    rcases ite_inv h with ⟨-, h⟩ | ⟨-, h⟩
    · cases h
    have hdrop := drop_lt h0 hne
    revert h
    generalize floatStrip (List.take n s1.rest) 0 false = u
    intro h
    cases u with
    | error i => obtain ⟨_, s2, -, h⟩ := bind_ok h; cases h
    | ok f =>
      have plain : ∀ s2 : St, s2.rest = s1.rest → (do let v ← tg.parse f; advance n; Pure.pure v : P Number) s2 = .ok a s' →
          s'.rest.length < s1.rest.length := by
        intro s2 e2 h
        replace h := bind_ok h; obtain ⟨v, s3, h3, h⟩ := h
        replace h := (advance_inv h).2
        cases h
        rw [floatParse_keeps h3]
        show (s2.rest.drop n).length < _
        rw [e2]; exact hdrop
      rcases ite_inv h with ⟨-, h⟩ | ⟨-, h⟩
      · replace h := bind_ok h; obtain ⟨c, s2, h2, h⟩ := h
        cases h2
        replace h := (advance_inv h).2
        replace h := bind_ok h; obtain ⟨w, s3, h3, h⟩ := h
        have e3 : s3.rest.length ≤ (s1.rest.drop n).length := by
          replace h3 := bind_ok h3; obtain ⟨b, s4, h4, h3⟩ := h3
          rcases consumeIdent_inv h4 with ⟨rfl, e4, -, -⟩ | ⟨rfl, rfl⟩
          · replace h3 := if_tt h3
            cases h3
            have : (s1.rest.drop n) = _ ++ s3.rest := e4
            rw [this]; simp; omega
          · replace h3 := if_ff h3
            replace h3 := bind_ok h3; obtain ⟨b, s5, h5, h3⟩ := h3
            rcases consumeIdent_inv h5 with ⟨rfl, e4, -, -⟩ | ⟨rfl, rfl⟩
            · replace h3 := if_tt h3
              cases h3
              have : (s1.rest.drop n) = _ ++ s3.rest := e4
              rw [this]; simp; omega
            · replace h3 := if_ff h3
              cases h3
              exact Nat.le_refl _
        cases w with
        | none =>
          replace h := bind_ok h; obtain ⟨_, s4, h4, h⟩ := h
          cases h4
          exact plain { s3 with rest := s1.rest, preWs := s1.preWs, lastWs := s1.lastWs } rfl h
        | some is32 =>
          dsimp only at h
          revert h
          generalize (if is32 = true then (Env.parse32 f).map Number.f32 else (Env.parse64 f).map Number.f64) = u
          intro h
          cases u with
          | none => replace h := bind_ok h; obtain ⟨_, s4, -, h⟩ := h; cases h
          | some v =>
            dsimp only at h
            rw [getSt_bind] at h
            have : s' = s3 := by
              unfold FloatTarget.tryFrom at h
              split at h <;> cases h <;> rfl
            rw [this]; omega
      · exact plain s1 rfl h

theorem anyNumber_E {b s : St} {k : Bool} (ha : At b k s) : E b true (anyNumber s) := by
  unfold anyNumber
  refine consumeIdent_E (by simp) ha (fun _ h => h) fun ha => ?_
  refine consumeIdent_E (by simp) ha (fun _ h => h) fun ha => ?_
  refine consumeIdent_E (by simp) ha (fun _ h => h) fun ha => ?_
  refine consumeIdent_E (by simp) ha (fun _ h => h) fun ha => ?_
  refine consumeIdent_E (by simp) ha (fun _ h => h) fun ha => ?_
  refine consumeIdent_E (by simp) ha (fun _ h => h) fun ha => ?_
  refine E.getSt (E.ite (fun _ => float_eats.E (.float _) ha) fun _ => ?_)
  rw [bind_apply, cursor_apply]
  dsimp only
  rw [bind_apply, attempt_apply]
  have hint := integer_E (tg := .any) ha
  revert hint
  cases hi : integer .any s with
  | ok tv s1 => exact fun hint => hint
  | err e s1 =>
    intro _
    dsimp only
    rw [bind_apply, cursor_apply]
    dsimp only
    rw [bind_apply, setCursor_apply]
    dsimp only
    have hsafe := (Safe.integer .any) s ha.inside
    rw [hi] at hsafe
    have hsafe := hsafe.1
    generalize hs2 : ({ s1 with rest := s.rest, preWs := s.preWs, lastWs := s.lastWs } : St) = s2
    have h2 : At b k s2 := by
      subst hs2
      refine ⟨⟨?_, hsafe.inside.prev, ?_⟩, hsafe.nv.trans ha.nv, ha.rest, ha.lt⟩
      · show s.rest <:+ s1.src; rw [hsafe.src]; exact ha.inside.rest
      · show s.preWs <:+ s1.src; rw [hsafe.src]; exact ha.inside.preWs
    rw [bind_apply, attempt_apply]
    have hf := (float_eats (tg := .any)).E (.float _) h2
    revert hf
    cases float .any s2 with
    | ok v s3 =>
      intro hf
      dsimp only
      exact E.getSt (E.ite (fun _ => hf) fun _ => trivial)
    | err e' s3 => exact fun _ => trivial

/-! ### Elements and compounds -/

theorem comma_E {b s : St} {k : Bool} (ha : At b k s) : E b k (comma s) := Safe.comma.E ha

omit [Env] in
theorem nextElement_E {term : Char} {had : Bool} {seed : P α} {s : St} {k : Bool} {b : St} (h : Fd true seed) (ha : At b k s) :
    E b k (nextElement term had seed s) := by
  unfold nextElement
  refine E.bindS (.hasElement _ _) ha fun r s1 h1 => E.ite (fun _ => ?_) fun _ => h1
  refine E.bind (k := k) ?_ fun a s2 h2 => E.bindS .comma h2 fun c s3 h3 => h3
  have := h.guardQ (h1.weak)
  cases k with
  | false => exact this.weak
  | true => simpa using h.guardQ h1

omit [Env] in
theorem seqLoop_E {term : Char} {seed : P α} (h : Fd true seed) (f : Nat) : ∀ {had : Bool} {b s : St}, At b false s →
    E b false (seqLoop term seed f had s) := by
  induction f with
  | zero => intro had b s _; trivial
  | succ f ih =>
    intro had b s ha
    unfold seqLoop
    refine E.bind (nextElement_E h ha) fun r s1 h1 => ?_
    cases r with
    | none => exact h1
    | some ac => exact E.bind (ih h1) fun _ _ h2 => h2

omit [Env] in
theorem readSeq_E {term : Char} {seed : P α} (h : Fd true seed) {b s : St} (ha : At b false s) : E b false (readSeq term seed s) := by
  unfold readSeq
  exact E.getSt (seqLoop_E h _ ha)

omit [Env] in
theorem nextKey_E {term : Char} {had : Bool} {seed : P α} {s b : St} {k' : Bool} (h : Fd k' seed) (ha : At b false s) :
    E b false (nextKey term had seed s) := by
  unfold nextKey
  refine E.bindS (.hasElement _ _) ha fun r s1 h1 => E.ite (fun _ => ?_) fun _ => h1
  exact E.bind (h.guardR h1).weak fun _ _ h2 => h2

omit [Env] in
theorem nextValue_E {seed : P α} {s b : St} {k' : Bool} (h : Fd k' seed) (ha : At b false s) : E b false (nextValue seed s) := by
  unfold nextValue
  refine E.bindS .skipWs ha fun _ s1 h1 => ?_
  refine consumeChar_E h1 (fun s2 h2 => ?_) fun _ => E.fail
  refine E.bindS .skipWs h2.weak fun _ s3 h3 => ?_
  exact E.bind (h.guardQ h3).weak fun _ _ h4 => E.bindS .comma h4 fun _ _ h5 => h5

omit [Env] in
theorem mapLoop_E {κ ν : Type} {term : Char} {key : P κ} {value : P ν} {k1 k2 : Bool} (hk : Fd k1 key) (hv : Fd k2 value) (f : Nat) :
    ∀ {had : Bool} {b s : St}, At b false s → E b false (mapLoop term key value f had s) := by
  induction f with
  | zero => intro had b s _; trivial
  | succ f ih =>
    intro had b s ha
    unfold mapLoop
    refine E.bind (nextKey_E hk ha) fun r s1 h1 => ?_
    cases r with
    | none => exact h1
    | some kk => exact E.bind (nextValue_E hv h1) fun vh s2 h2 => E.bind (ih h2) fun _ _ h2 => h2

omit [Env] in
theorem readMap_E {κ ν : Type} {term : Char} {key : P κ} {value : P ν} {k1 k2 : Bool} (hk : Fd k1 key) (hv : Fd k2 value)
    {b s : St} (ha : At b false s) : E b false (readMap term key value s) := by
  unfold readMap
  exact E.getSt (mapLoop_E hk hv _ ha)

omit [Env] in
/-- Visits of compounds start outside of a variant. -/
theorem visit_E {visit : P α} (hv : ∀ (s : St), s.Inside → s.nv = false → E s false (visit s)) {b s : St} (ha : At b true s) :
    E b true (deGuardQ visit s) :=
  E.lift (k := true) (k' := false) ha (guardQ_E (E.up (hv s.down ha.inside.down ha.nv)))

omit [Env] in
theorem deSeq_E {visit : P α} (hv : ∀ (s : St), s.Inside → s.nv = false → E s false (visit s)) {b s : St} {k : Bool}
    (ha : At b k s) : E b true (deSeq visit s) := by
  unfold deSeq
  refine E.bind (k := k) (f := setNv false) (At.setNv ha) fun _ s1 h1 => ?_
  refine consumeChar_E h1 (fun s2 h2 => ?_) fun _ => E.fail
  refine E.bind (visit_E hv h2) fun _ s3 h3 => E.bindS .skipWs h3 fun _ s4 h4 => ?_
  exact consumeChar_E h4 (fun _ h => h) fun _ => E.fail

omit [Env] in
theorem deMap_E {visit : P α} (hv : ∀ (s : St), s.Inside → s.nv = false → E s false (visit s)) {b s : St} {k : Bool}
    (ha : At b k s) : E b true (deMap visit s) := by
  unfold deMap
  refine E.bind (k := k) (f := setNv false) (At.setNv ha) fun _ s1 h1 => ?_
  refine consumeChar_E h1 (fun s2 h2 => ?_) fun _ => E.fail
  refine E.bind (visit_E hv h2) fun _ s3 h3 => E.bindS .skipWs h3 fun _ s4 h4 => ?_
  exact consumeChar_E h4 (fun _ h => h) fun _ => E.fail

omit [Env] in
theorem deTuple_E {visit : P α} (hv : ∀ (s : St), s.Inside → s.nv = false → E s false (visit s)) {b s : St} {k : Bool}
    (ha : At b k s) : E b true (deTuple visit s) := by
  unfold deTuple
  refine E.getSt ?_
  simp only [ha.nv, Bool.false_eq_true, ↓reduceIte]
  refine consumeChar_E ha (fun s2 h2 => ?_) fun _ => E.fail
  refine E.bind (k := true) (f := setNv false) (At.setNv h2) fun _ s1 h1 => ?_
  refine E.bind (visit_E hv h1) fun _ s3 h3 => E.bindS .skipWs h3 fun _ s4 h4 => ?_
  exact consumeChar_E h4 (fun _ h => h) fun _ => E.fail

omit [Env] in
theorem structAfterName_E {name : Text} {visit : P α} (hv : ∀ (s : St), s.Inside → s.nv = false → E s false (visit s)) {b s : St} {k : Bool}
    (ha : At b k s) : E b true (structAfterName name visit s) := by
  unfold structAfterName
  refine E.getSt ?_
  simp only [ha.nv, Bool.false_eq_true, ↓reduceIte]
  refine consumeChar_E ha (fun s2 h2 => ?_) fun _ => E.ite (fun _ => E.fail) fun _ => E.fail
  refine E.bind (k := true) (f := setNv false) (At.setNv h2) fun _ s1 h1 => ?_
  refine E.bind (visit_E (fun s hi hn => E.mapErr (hv s hi hn)) h1) fun _ s3 h3 => E.bindS .skipWs h3 fun _ s4 h4 => ?_
  exact consumeChar_E h4 (fun _ h => h) fun _ => E.fail

omit [Env] in
theorem deUnit_E {b s : St} {k : Bool} (ha : At b k s) : E b true (deUnit s) := by
  unfold deUnit
  refine E.getSt ?_
  simp only [ha.nv, Bool.false_eq_true, ↓reduceIte]
  exact consumeStr_E (by simp) ha (fun s2 h2 => At.setNv h2) fun _ _ => E.fail

theorem deIdentifier_E {b s : St} {k : Bool} (ha : At b k s) : E b true (deIdentifier s) := by
  unfold deIdentifier
  refine E.bind (identifier_eats.E .identifier ha) fun id s1 h1 => ?_
  exact ⟨⟨h1.inside.rest, h1.inside.prev, h1.inside.preWs⟩, h1.nv, h1.rest, h1.lt⟩

theorem deOption_E {vn : α} {visit : P α} (hv : Fd true visit) {b s : St} {k : Bool} (ha : At b k s) : E b true (deOption vn visit s) := by
  unfold deOption
  refine consumeIdent_E (by simp) ha (fun _ h => h) fun ha => ?_
  have tail : ∀ (s : St) {k : Bool}, At b k s → E b true ((do
      let s ← getSt
      if s.exts.implicitSome then deGuardR visit else fail .expectedOption : P α) s) := by
    intro s k h
    refine E.getSt (E.ite (fun _ => ?_) fun _ => E.fail)
    simpa using hv.guardR h
  rw [bind_apply]
  cases h : consumeIdent c!"Some" s with
  | err e s' => trivial
  | ok r s1 =>
    have h1 := (Safe.consumeIdent c!"Some").E ha
    rw [h] at h1
    cases r with
    | false =>
      simp only [Bool.false_eq_true, ↓reduceIte]
      exact tail s1 h1
    | true =>
      have h1 : At b k s1 := h1
      simp only [↓reduceIte]
      show E b true (((do skipWs; consumeChar '(' : P Bool) >>= fun opened => _) s1)
      rw [bind_apply]
      rw [bind_apply]
      have h2 := Safe.skipWs.E h1
      revert h2
      cases skipWs s1 with
      | err e s2 => exact fun _ => trivial
      | ok _ s2 =>
        intro h2
        dsimp only
        have h2 : At b k s2 := h2
        refine consumeChar_E (s := s2) h2 (fun s3 h3 => ?_) fun h3 => tail s2 h3
        refine E.bindS .skipWs h3 fun _ s4 h4 => ?_
        refine Fd.inner (s := s4) hv h4 s4.exts.unwrapVariantNewtypes fun a s5 h5 => ?_
        refine E.bindS .comma h5 fun _ s6 h6 => ?_
        exact consumeChar_E h6 (fun _ h => h) fun _ => E.fail

/-! ### Self-describing data -/

theorem floatRange_E {n : Number} {b s : St} {k : Bool} (ha : At b k s) : E b k (floatRangeOrValue n s) :=
  (Safe.floatRangeOrValue n).E ha

theorem Fd.identValue : Fd true deIdentValue := ⟨fun s hi hn => by
  unfold deIdentValue; exact E.mapPure (deIdentifier_E (.refl hi hn)), fun s hi => deIdentValue_out hi⟩

theorem checkStructType_unit {tm : TupleMode} {s s' : St} {r : Text} (hr : s.rest = '(' :: r)
    (h : checkStructType .noParensMeanUnit tm s = .ok .unit s') : False := by
  unfold checkStructType at h
  replace h := bind_ok h; obtain ⟨c, s1, h1, h⟩ := h
  cases h1
  replace h := bind_ok h; obtain ⟨ty, s2, h2, h⟩ := h
  replace h := bind_ok h; obtain ⟨_, s3, h3, h⟩ := h
  cases h
  unfold checkStructTypeInner at h2
  simp only [↓reduceIte] at h2
  rw [bind_apply, consumeChar_true hr] at h2
  simp only [Bool.not_true, Bool.false_eq_true, ↓reduceIte] at h2
  replace h2 := bind_ok h2; obtain ⟨_, s4, -, h2⟩ := h2
  replace h2 := bind_ok h2; obtain ⟨cl, s5, -, h2⟩ := h2
  have scan : ∀ s s', structTypeScan tm s = .ok .unit s' → False := by
    intro s s' h
    unfold structTypeScan at h
    rcases ite_inv h with ⟨-, h⟩ | ⟨-, h⟩
    · cases h
    · rw [getSt_bind] at h
      replace h := bind_ok h; obtain ⟨m, s6, -, h⟩ := h
      cases m <;> cases h
  rcases ite_inv h2 with ⟨-, h2⟩ | ⟨-, h2⟩
  · cases h2
  replace h2 := bind_ok h2; obtain ⟨id, s6, -, h2⟩ := h2
  cases id with
  | none => exact scan _ _ h2
  | some id =>
    replace h2 := bind_ok h2; obtain ⟨_, s7, -, h2⟩ := h2
    replace h2 := bind_ok h2; obtain ⟨pc, s8, -, h2⟩ := h2
    revert h2
    show (match pc with
      | some ':' => Pure.pure StructType.named
      | some ',' => do
        skipNextChar
        skipWs
        if ← checkChar ')' then Pure.pure .newtypeTuple else Pure.pure .nonNewtypeTuple
      | some ')' => Pure.pure .newtypeTuple
      | _ => structTypeScan tm : P StructType) s8 = _ → _
    split
    · intro h; cases h
    · intro h
      replace h := bind_ok h; obtain ⟨_, s9, -, h⟩ := h
      replace h := bind_ok h; obtain ⟨_, s10, -, h⟩ := h
      replace h := bind_ok h; obtain ⟨_, s11, -, h⟩ := h
      rcases ite_inv h with ⟨-, h⟩ | ⟨-, h⟩ <;> cases h
    · intro h; cases h
    · exact scan _ _

theorem anyStruct_E {any : P Value} (h : Fd true any) {b s : St} {k : Bool} (ha : At b k s) (hk : k = true ∨ ∃ r, s.rest = '(' :: r) :
    E b true (anyStruct any s) := by
  unfold anyStruct
  rw [bind_apply]
  have h1 := (Safe.checkStructType .noParensMeanUnit .imprecise).E ha
  cases hc : checkStructType .noParensMeanUnit .imprecise s with
  | err e s' => trivial
  | ok r s1 =>
    rw [hc] at h1
    have h1 : At b k s1 := h1
    cases r with
    | unit =>
      rcases hk with rfl | ⟨r, hr⟩
      · exact h1
      · exact (checkStructType_unit hr hc).elim
    | named =>
      exact structAfterName_E (fun s hi hn => by unfold visitMap; exact E.mapPure (readMap_E .identValue h (.refl hi hn))) h1
    | _ => exact deTuple_E (fun s hi hn => by unfold visitSeq; exact E.mapPure (readSeq_E h (.refl hi hn))) h1

theorem anyChar_E {any : P Value} (h : Fd true any) {b s : St} {k : Bool} (ha : At b k s) : E b true (anyChar any s) := by
  unfold anyChar
  rw [bind_apply]
  cases hc : peekCharOrEof s with
  | err e s' => trivial
  | ok c s1 =>
    obtain ⟨rfl, r, hr⟩ := peekCharOrEof_inv hc
    dsimp only
    refine E.getSt ?_
    refine E.ite (fun hc => ?_) fun _ => ?_
    · have hc : c = '(' := by simpa using hc
      subst hc
      exact anyStruct_E h ha (.inr ⟨r, hr⟩)
    refine E.ite (fun _ => deSeq_E (fun s hi hn => by unfold visitSeq; exact E.mapPure (readSeq_E h (.refl hi hn))) ha) fun _ => ?_
    refine E.ite (fun _ => deMap_E (fun s hi hn => by unfold visitMap; exact E.mapPure (readMap_E h h (.refl hi hn))) ha) fun _ => ?_
    refine E.ite (fun _ => ?_) fun _ => ?_
    · refine E.ite (fun _ => E.mapPure (byteString_eats.E .byteString ha)) fun _ => ?_
      refine consumeStr_E (by simp) ha (fun s2 h2 => Safe.E (f := _) (by repeat safe_step) h2) fun ha _ => ?_
      refine consumeStr_E (by simp) ha (fun s2 h2 => Safe.E (f := _) (by repeat safe_step) h2) fun ha _ => ?_
      exact E.bind (anyNumber_E ha) fun n s2 h2 => floatRange_E h2
    · refine E.ite (fun _ => E.mapPure (string_eats.E .string ha)) fun _ => ?_
      exact E.ite (fun _ => E.mapPure (charLit_E ha)) fun _ => E.fail

theorem anyPlain_E {any : P Value} (h : Fd true any) {b s : St} {k : Bool} (ha : At b k s) : E b true (anyPlain any s) := by
  unfold anyPlain
  refine consumeIdent_E (by simp) ha (fun _ h => h) fun ha => ?_
  refine consumeIdent_E (by simp) ha (fun _ h => h) fun ha => ?_
  refine E.bindS (.checkIdent _) ha fun r s1 h1 => ?_
  refine E.ite (fun _ => ?_) fun _ => ?_
  · refine deOption_E ⟨fun s hi hn => E.mapPure (h.eat s hi hn), fun s hi => OutD.mapPure (h.low s hi)⟩ h1
  refine consumeIdent_E (by simp) h1 (fun _ h => h) fun ha => ?_
  refine consumeStr_E (by simp) ha (fun _ h => h) fun ha _ => ?_
  refine consumeIdent_E (by simp) ha (fun _ h => floatRange_E h) fun ha => ?_
  refine consumeIdent_E (by simp) ha (fun _ h => floatRange_E h) fun ha => ?_
  refine consumeIdent_E (by simp) ha (fun _ h => floatRange_E h) fun ha => ?_
  refine consumeIdent_E (by simp) ha (fun _ h => floatRange_E h) fun ha => ?_
  refine consumeIdent_E (by simp) ha (fun _ h => floatRange_E h) fun ha => ?_
  refine consumeIdent_E (by simp) ha (fun _ h => floatRange_E h) fun ha => ?_
  rw [bind_apply]
  have h2 := Safe.skipIdentifier.E ha
  cases hc : skipIdentifier s1 with
  | err e s' => trivial
  | ok r s2 =>
    rw [hc] at h2
    have h2 : At b k s2 := h2
    cases r with
    | none => exact anyChar_E h h2
    | some id =>
      have hl : s2.rest.length < s1.rest.length := by
        unfold skipIdentifier at hc
        rw [getSt_bind] at hc
        rcases ite_inv hc with ⟨-, hc⟩ | ⟨-, hc⟩
        · cases hc
        rcases ite_inv hc with ⟨hs, hc⟩ | ⟨-, hc⟩
        · rcases ite_inv hc with ⟨-, hc⟩ | ⟨-, hc⟩
          · replace hc := (advance_inv hc).2
            cases hc
            exact drop_lt (by omega) (by intro he; rw [he] at hs; cases hs)
          · cases hc
        · revert hc
          cases hr : s1.rest with
          | nil => intro hc; cases hc
          | cons c r =>
            intro hc
            rcases ite_inv hc with ⟨-, hc⟩ | ⟨-, hc⟩
            · replace hc := (advance_inv hc).2
              cases hc
              show (s1.rest.drop _).length < _
              rw [hr]
              exact drop_lt (by omega) (by simp)
            · cases hc
      have h3 : At b true s2 := ⟨h2.inside, h2.nv, h2.rest, fun _ => by have := ha.rest.length_le; omega⟩
      exact E.bindS .skipWs h3 fun _ s4 h4 => anyStruct_E h h4 (.inl rfl)

theorem deAny_Fd (f : Nat) : Fd true (deAny f) := by
  induction f with
  | zero => exact ⟨fun s _ _ => trivial, fun s hi => ⟨.refl hi, fun _ => trivial, by simp⟩⟩
  | succ f ih =>
    refine ⟨fun s hi hn => ?_, fun s hi => deAny_out _ s hi (.inr (.inr trivial))⟩
    unfold deAny anyBody
    refine E.getSt ?_
    simp only [hn, Bool.false_eq_true, ↓reduceIte]
    exact anyPlain_E ih (.refl hi hn)

theorem deValue_Fd : Fd true deValue := ⟨fun s hi hn => (deAny_Fd _).eat s hi hn, fun s hi => deValue_out hi⟩
theorem deIgnored_Fd : Fd true deIgnored :=
  ⟨fun s hi hn => by unfold deIgnored; exact E.mapPure (deValue_Fd.eat s hi hn), fun s hi => deIgnored_out hi⟩

/-! ### Typed data -/

omit [Env] in
theorem tupleLoop_E {expected : Text} (seeds : List (P SVal)) (h : ∀ sd ∈ seeds, Fd true sd) : ∀ {i : Nat} {had : Bool} {b s : St},
    At b false s → E b false (tupleLoop expected seeds i had s) := by
  induction seeds with
  | nil => intro i had b s ha; exact ha
  | cons sd sds ih =>
    intro i had b s ha
    unfold tupleLoop
    refine E.bind (nextElement_E (h sd List.mem_cons_self) ha) fun r s1 h1 => ?_
    cases r with
    | none => trivial
    | some ac => exact E.bind (ih (fun sd hm => h sd (List.mem_cons_of_mem _ hm)) h1) fun _ _ h => h

theorem fieldKey_Fd {deny : Bool} {fields : List Text} : Fd true (fieldKey deny fields) := by
  refine ⟨fun s hi hn => ?_, fun s hi => (fieldKey_out hi).top⟩
  unfold fieldKey
  refine E.bind (deIdentifier_E (.refl hi hn)) fun id s1 h1 => ?_
  exact E.ite (fun _ => h1) fun _ => E.ite (fun _ => E.fail) fun _ => h1

theorem structLoop_E {rec : Ty → P SVal} {deny : Bool} {fields : List (Text × Ty)} (h : ∀ t, Fd true (rec t)) (f : Nat) :
    ∀ {had : Bool} {got : Text → Option SVal} {b s : St}, At b false s → E b false (structLoop rec deIgnored deny fields f had got s) := by
  induction f with
  | zero => intro had got b s ha; trivial
  | succ f ih =>
    intro had got b s ha
    unfold structLoop
    refine E.bind (nextKey_E fieldKey_Fd ha) fun r s1 h1 => ?_
    rcases r with _ | _ | key
    · exact h1
    · exact E.bind (nextValue_E deIgnored_Fd h1) fun vh s2 h2 => ih h2
    · refine E.ite (fun _ => E.fail) fun _ => ?_
      generalize fields.find? (fun e => e.1 = key) = r
      cases r with
      | none => trivial
      | some e => exact E.bind (nextValue_E (h e.2) h1) fun vh s2 h2 => ih h2

omit [Env] in
theorem liftE_E {r : Except Err α} {b s : St} {k : Bool} (ha : At b k s) : E b k (liftE r s) := by
  cases r with
  | ok a => exact ha
  | error e => trivial

theorem visitStruct_E {rec : Ty → P SVal} {isOption : Ty → Bool} {deny : Bool} {fields : List (Text × Ty)} (h : ∀ t, Fd true (rec t))
    {b s : St} (ha : At b false s) : E b false (visitStruct rec isOption deny fields s) := by
  unfold visitStruct
  exact E.getSt (E.bind (structLoop_E h _ ha) fun _ _ h => liftE_E h)

theorem consumeStructName_E {name : Text} {b s : St} {k : Bool} (ha : At b k s) {f g : P α} {k' : Bool}
    (hf : ∀ s', At b true s' → E b k' (f s')) (hg : ∀ s', At b k s' → E b k' (g s')) :
    E b k' ((consumeStructName name >>= fun r => if r = true then f else g) s) := by
  rw [bind_apply]
  have h1 := (Safe.consumeStructName name).E ha
  cases hc : consumeStructName name s with
  | err e s' => trivial
  | ok r s1 =>
    rw [hc] at h1
    have h1 : At b k s1 := h1
    cases r with
    | false => exact hg s1 h1
    | true =>
      refine hf s1 ⟨h1.inside, h1.nv, h1.rest, fun _ => ?_⟩
      have : s1.rest.length < s.rest.length := by
        unfold consumeStructName at hc
        replace hc := bind_ok hc; obtain ⟨c, s2, h2, hc⟩ := hc
        cases h2
        rcases ite_inv hc with ⟨-, hc⟩ | ⟨-, hc⟩
        · rw [getSt_bind] at hc
          rcases ite_inv hc with ⟨-, hc⟩ | ⟨-, hc⟩ <;> cases hc
        · replace hc := bind_ok hc; obtain ⟨r, s3, h3, hc⟩ := hc
          rw [attempt_apply] at h3
          revert h3
          cases hid : identifier s with
          | err e s4 =>
            intro h3
            cases h3
            try dsimp only at hc
            cases e with
            | suggestRawIdentifier found => rcases ite_inv hc with ⟨-, hc⟩ | ⟨-, hc⟩ <;> cases hc
            | _ => cases hc
          | ok id s4 =>
            intro h3
            cases h3
            try dsimp only at hc
            rcases ite_inv hc with ⟨-, hc⟩ | ⟨-, hc⟩
            · cases hc
            rcases ite_inv hc with ⟨-, hc⟩ | ⟨-, hc⟩
            · cases hc
            cases hc
            exact identifier_eats _ _ _ hid
      have := ha.rest.length_le
      omega

/-- A compact range is not empty. -/
theorem rangeStruct_E {name : Text} {fields : List Text} {b s : St} {k : Bool} (ha : At b k s) {f : List (Text × Number) → P α} {g : P α} {k' : Bool}
    (hf : ∀ es s', At b true s' → E b k' (f es s')) (hg : ∀ s', At b k s' → E b k' (g s')) :
    E b k' ((rangeStruct name fields >>= fun r => match r with | some es => f es | none => g) s) := by
  have key : ∀ (m : P (Option (List (Text × Number)))) (s : St), At b k s → (Safe m) →
      (∀ s1 es, m s = .ok (some es) s1 → s1.rest.length < s.rest.length) →
      E b k' ((m >>= fun r => match r with | some es => f es | none => g) s) := by
    intro m s ha hm h
    rw [bind_apply]
    have h1 := hm.E ha
    cases hc : m s with
    | err e s' => trivial
    | ok r s1 =>
      rw [hc] at h1
      have h1 : At b k s1 := h1
      cases r with
      | none => exact hg s1 h1
      | some es =>
        have := h s1 es hc
        have := ha.rest.length_le
        exact hf es s1 ⟨h1.inside, h1.nv, h1.rest, fun _ => by omega⟩
  refine key _ s ha (.rangeStruct _ _) ?_
  clear key hf hg
  intro s1 es hc
  have num : ∀ {s2 s3 : St} {n : Number}, s2.Inside → s2.nv = false → anyNumber s2 = .ok n s3 → s3.rest.length < s2.rest.length ∧ s3.Inside ∧ s3.nv = false := by
    intro s2 s3 n hi hn h
    have := anyNumber_E (.refl hi hn)
    rw [h] at this
    exact ⟨this.lt rfl, this.inside, this.nv⟩
  have str : ∀ {s2 s3 : St} {r : Bool} {t : Text}, s2.Inside → s2.nv = false → consumeStr t s2 = .ok r s3 → s3.rest.length ≤ s2.rest.length ∧ s3.Inside ∧ s3.nv = false := by
    intro s2 s3 r t hi hn h
    have := (Safe.consumeStr t).E (.refl hi hn)
    rw [h] at this
    exact ⟨this.rest.length_le, this.inside, this.nv⟩
  unfold rangeStruct at hc
  rw [getSt_bind] at hc
  rcases ite_inv hc with ⟨-, hc⟩ | ⟨-, hc⟩
  · rcases ite_inv hc with ⟨-, hc⟩ | ⟨-, hc⟩
    · replace hc := bind_ok hc; obtain ⟨a, s2, h2, hc⟩ := hc
      obtain ⟨l2, i2, n2⟩ := num ha.inside ha.nv h2
      have : s1.rest.length ≤ s2.rest.length := by
        refine Safe.rest_le ?_ i2 hc
        repeat safe_step
      omega
    · cases hc
  rcases ite_inv hc with ⟨-, hc⟩ | ⟨-, hc⟩
  · replace hc := bind_ok hc; obtain ⟨sp, s2, h2, hc⟩ := hc
    have hs2 : At s false s2 := by
      have hsafe := fun hs => Safe.from hs ha.inside h2
      exact (hsafe (by repeat safe_step)).at' ha.nv
    rcases ite_inv hc with ⟨-, hc⟩ | ⟨-, hc⟩
    · replace hc := bind_ok hc; obtain ⟨a, s3, h3, hc⟩ := hc
      obtain ⟨l3, i3, n3⟩ := num hs2.inside hs2.nv h3
      have : s1.rest.length ≤ s3.rest.length := by
        refine Safe.rest_le ?_ i3 hc
        repeat safe_step
      have := hs2.rest.length_le
      omega
    · cases hc
  rcases ite_inv hc with ⟨-, hc⟩ | ⟨-, hc⟩
  · replace hc := bind_ok hc; obtain ⟨r, s2, h2, hc⟩ := hc
    obtain ⟨l2, i2, n2⟩ := str ha.inside ha.nv h2
    rcases ite_inv hc with ⟨-, hc⟩ | ⟨-, hc⟩
    · cases hc
    replace hc := bind_ok hc; obtain ⟨_, s3, h3, hc⟩ := hc
    obtain ⟨l3, i3, n3⟩ := str i2 n2 h3
    replace hc := bind_ok hc; obtain ⟨e, s4, h4, hc⟩ := hc
    obtain ⟨l4, i4, n4⟩ := num i3 n3 h4
    cases hc
    omega
  rcases ite_inv hc with ⟨-, hc⟩ | ⟨-, hc⟩
  · replace hc := bind_ok hc; obtain ⟨r, s2, h2, hc⟩ := hc
    obtain ⟨l2, i2, n2⟩ := str ha.inside ha.nv h2
    rcases ite_inv hc with ⟨-, hc⟩ | ⟨-, hc⟩
    · replace hc := bind_ok hc; obtain ⟨_, s3, h3, hc⟩ := hc
      cases hc
    replace hc := bind_ok hc; obtain ⟨e, s4, h4, hc⟩ := hc
    obtain ⟨l4, i4, n4⟩ := num i2 n2 h4
    cases hc
    omega
  · cases hc

theorem deTy_Fd (D : Nat → Ty) (f : Nat) : ∀ t, Fd true (deTy D f t) := by
  induction f with
  | zero => exact fun t => ⟨fun s _ _ => trivial, fun s hi => ⟨.refl hi, fun _ => trivial, by simp⟩⟩
  | succ f ih =>
    intro t
    refine ⟨fun s hi hn => ?_, fun s hi => deTy_out _ t s hi (.inr trivial)⟩
    have ha : At s false s := .refl hi hn
    have vs : ∀ {name : Text} {isOption : Ty → Bool} {deny : Bool} {fields : List (Text × Ty)} {b s : St} {k : Bool}, At b k s →
        E b true (structAfterName name (visitStruct (deTy D f) isOption deny fields) s) :=
      fun h => structAfterName_E (fun s hi hn => visitStruct_E ih (.refl hi hn)) h
    have vt : ∀ {x : Text} {ts : List Ty} {b s : St} {k : Bool}, At b k s → E b true (deTuple (tupleLoop x (ts.map (deTy D f)) 0 true) s) :=
      fun h => deTuple_E (fun s hi hn => tupleLoop_E _ (by
        intro sd hsd
        obtain ⟨t, -, rfl⟩ := List.mem_map.1 hsd
        exact ih t) (.refl hi hn)) h
    cases t with
    | bool => exact E.mapPure (bool_E ha)
    | int t => exact E.mapPure (g := fun x : IntTy × Int => SVal.num (.int x.1 x.2)) (deInt_E ha)
    | f32 => exact E.mapPure (float_eats.E (.float _) ha)
    | f64 => exact E.mapPure (float_eats.E (.float _) ha)
    | char => exact E.mapPure (charLit_E ha)
    | str => exact E.mapPure (string_eats.E .string ha)
    | bytes =>
      unfold deTy deBytes
      refine E.mapPure ?_
      refine E.bindS (.checkChar _) ha fun r s1 h1 => E.ite (fun _ => ?_) fun _ => byteString_eats.E .byteString h1
      refine deSeq_E (fun s hi hn => readSeq_E ⟨fun s hi hn => ?_, fun s hi => ?_⟩ (.refl hi hn)) h1
      · exact E.bind (integer_E (.refl hi hn)) fun _ _ h => h
      · exact OutD.bindS (.integer _) (.refl hi) rfl fun r s4 h4 l4 _ => OutD.pure h4 l4 trivial
    | unit => exact E.mapPure (deUnit_E ha)
    | unitStruct name =>
      unfold deTy deUnitStruct
      refine E.mapPure ?_
      have tail : ∀ (s1 : St), At s false s1 → E s true ((do
          let s ← getSt
          if ← (if s.nv then Pure.pure true else consumeStructName name : P Bool) then setNv false
          else deUnit : P Unit) s1) := by
        intro s1 h1
        refine E.getSt ?_
        simp only [h1.nv, Bool.false_eq_true, ↓reduceIte]
        exact consumeStructName_E h1 (fun s' h => At.setNv h) fun s' h => deUnit_E h
      by_cases hr : name = c!"RangeFull"
      · simp only [hr, ↓reduceIte]
        subst hr
        exact consumeStr_E (by simp) ha (fun s' h => h) fun h _ => tail _ h
      · simp only [hr, ↓reduceIte]
        exact tail _ ha
    | newtype name t =>
      unfold deTy deNewtype
      refine E.mapPure (E.getSt (E.ite (fun _ => ?_) fun _ => ?_))
      · exact E.bind (k := false) (f := setNv false) (At.setNv ha) fun _ s1 h1 => (ih t).guardR h1
      · refine E.bindS (.consumeStructName _) ha fun _ s1 h1 => E.bindS .skipWs h1 fun _ s2 h2 => ?_
        refine consumeChar_E h2 (fun s3 h3 => ?_) fun _ => E.ite (fun _ => E.fail) fun _ => E.fail
        refine E.bindS .skipWs h3 fun _ s4 h4 => ?_
        refine E.bind ((ih t).guardQ h4) fun v s5 h5 => E.bindS .comma h5 fun _ s6 h6 => ?_
        exact consumeChar_E h6 (fun _ h => h) fun _ => E.fail
    | option t =>
      exact deOption_E ⟨fun s hi hn => E.mapPure ((ih t).eat s hi hn), fun s hi => OutD.mapPure ((ih t).low s hi)⟩ ha
    | seq t => exact E.mapPure (deSeq_E (fun s hi hn => readSeq_E (ih t) (.refl hi hn)) ha)
    | tuple ts => exact E.mapPure (vt ha)
    | tupleStruct name ts =>
      unfold deTy deTupleStruct
      refine E.mapPure (E.getSt ?_)
      simp only [hn, Bool.not_false, ↓reduceIte]
      exact E.bindS (.consumeStructName _) ha fun _ s1 h1 => E.mapErr (vt h1)
    | map k v => exact E.mapPure (deMap_E (fun s hi hn => readMap_E (ih k) (ih v) (.refl hi hn)) ha)
    | struct name deny fields =>
      unfold deTy deStruct
      refine rangeStruct_E ha (fun es s1 h1 => E.mapPure (liftE_E h1)) fun s1 h1 => ?_
      refine E.getSt ?_
      simp only [h1.nv, Bool.not_false, ↓reduceIte]
      exact E.bindS (.consumeStructName _) h1 fun _ s1 h1 => E.bindS .skipWs h1 fun _ s2 h2 => E.mapPure (vs h2)
    | enum name variants =>
      unfold deTy deEnum
      refine E.bind (k := false) (f := setNv false) (At.setNv ha) fun _ s1 h1 => E.mapErr ?_
      refine E.lift (k' := true) h1 (guardR_E ?_)
      unfold visitEnum
      have h1' : At s1 false s1.down := (At.refl h1.inside h1.nv).limit
      refine E.bindS .skipWs h1' fun _ s2 h2 => ?_
      refine E.bind (k := true) ?_ fun r s3 h3 => ?_
      · refine E.lift (k' := true) h2 (guardQ_E ?_)
        refine E.bind (deIdentifier_E ((At.refl h2.inside h2.nv).limit)) fun id s4 h4 => ?_
        generalize variants.find? (fun e => e.1 = id) = r
        cases r with
        | none => trivial
        | some e => exact h4
      · obtain ⟨id, k⟩ := r
        show E s1 true (variantData (deTy D f) (fieldOf D f) name id k s3)
        cases k with
        | unit => exact h3
        | newtype t =>
          unfold variantData newtypeVariant
          refine E.mapPure (E.getSt (E.bindS .skipWs h3 fun _ s4 h4 => ?_))
          refine consumeChar_E h4 (fun s5 h5 => ?_) fun _ => E.fail
          refine E.bindS .skipWs h5 fun _ s6 h6 => ?_
          refine Fd.inner (s := s6) (k := true) ⟨fun s hi hn => E.mapErr ((ih t).eat s hi hn), fun s hi =>
            OutD.mapErr ((ih t).low s hi) (structErrorName_fuel _)⟩ h6 s6.exts.unwrapVariantNewtypes fun a s7 h7 => ?_
          refine E.bindS .comma h7 fun _ s8 h8 => ?_
          exact consumeChar_E h8 (fun _ h => h) fun _ => E.fail
        | tuple ts =>
          unfold variantData
          exact E.bindS .skipWs h3 fun _ s4 h4 => E.mapPure (vt h4)
        | struct deny fields =>
          unfold variantData
          exact E.getSt (E.bindS .skipWs h3 fun _ s4 h4 => E.mapPure (E.mapErr (vs h4)))
    | value => exact E.mapPure (deValue_Fd.eat s hi hn)
    | raw =>
      unfold deTy deRaw
      refine E.mapPure (E.getSt (E.bindS .skipWs ha fun _ s1 h1 => ?_))
      refine E.bind (E.lift (k' := true) h1 (deIgnored_Fd.eat s1 h1.inside h1.nv)) fun _ s2 h2 => ?_
      refine E.bindS .skipWs h2 fun _ s3 h3 => E.bindS .hasUnclosedLineComment h3 fun r s4 h4 => ?_
      refine E.ite (fun _ => E.fail) fun _ => E.getSt ?_
      generalize fromStr {} deIgnored (s.preWs.take (s.preWs.length - s4.rest.length)) = r
      cases r with
      | ok _ => exact h4
      | error _ => trivial
    | ref i => exact (ih (D i)).eat s hi hn

end

end Ron
