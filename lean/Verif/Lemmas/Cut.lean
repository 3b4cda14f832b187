import Verif.Lemmas.Eat
import Verif.Lemmas.FrameDe
/-!
What follows a token.  `Cut l s s'`: the state `s` stands where `s'` stands, with the further text `l` at the end.  If `l` is empty
or begins with layout, a separator or a closing delimiter, numbers are read alike in both.
-/

set_option linter.unusedSimpArgs false
set_option linter.unusedSectionVars false

namespace Ron

/-- The characters that end numbers and identifiers and may follow a value. -/
def stopChars : List Char := ronWhitespace ++ ['/', ',', ')', ']', '}', ':']

/-- Nothing, or a text that begins with such a character. -/
def Ends (l : Text) : Prop := l = [] ∨ ∃ c r, l = c :: r ∧ c ∈ stopChars

/-- The same place in a longer text. -/
structure Cut (l : Text) (s s' : St) : Prop where
  rest : s.rest = s'.rest ++ l

theorem whileLen_ends {f : Char → Bool} {r l : Text} (hl : Ends l) (hf : ∀ c ∈ stopChars, f c = false) : whileLen f (r ++ l) = whileLen f r := by
  obtain rfl | ⟨c, t, rfl, hc⟩ := hl
  · rw [List.append_nil]
  induction r with
  | nil => simp [whileLen_cons_false f c t (hf c hc)]
  | cons d r ih =>
    cases h : f d with
    | true => rw [List.cons_append, whileLen_cons_true f d _ h, whileLen_cons_true f d _ h, ih]
    | false => rw [List.cons_append, whileLen_cons_false f d _ h, whileLen_cons_false f d _ h]

theorem takeWhile_ends {f : Char → Bool} {r l : Text} (hl : Ends l) (hf : ∀ c ∈ stopChars, f c = false) :
    (r ++ l).takeWhile f = r.takeWhile f := by
  rw [← take_whileLen, whileLen_ends hl hf, List.take_append_of_le_length (whileLen_le f r), take_whileLen]

theorem startsWith_ends {r l t : Text} (hl : Ends l) (ht : ∀ c ∈ t, c ∉ stopChars) : startsWith (r ++ l) t = startsWith r t := by
  obtain rfl | ⟨d, u, rfl, hd⟩ := hl
  · rw [List.append_nil]
  induction t generalizing r with
  | nil => simp
  | cons c t ih =>
    cases r with
    | nil =>
      have h : (c == d) = false := by
        rw [beq_eq_false_iff_ne]
        rintro rfl
        exact ht c (.head _) hd
      simp [startsWith, List.isPrefixOf, h]
    | cons e r =>
      simp only [List.cons_append, startsWith_cons]
      rw [ih fun c h => ht c (.tail _ h)]

theorem stop_int : ∀ c ∈ stopChars, isIntChar c = false := by decide
theorem stop_float : ∀ c ∈ stopChars, isFloatChar c = false := by decide

variable [Env]

theorem stop_xid : ∀ c ∈ stopChars, Env.xidCont c = false := by
  intro c hc
  rcases List.mem_append.mp hc with h | h
  · exact Env.xidCont_ws c (by revert c; decide)
  · rw [Env.xidCont_ascii c (by revert h; clear hc; revert c; decide)]
    revert h; clear hc; revert c; decide
theorem stop_raw : ∀ c ∈ stopChars, isIdentRaw c = false := by
  intro c hc
  unfold isIdentRaw
  rw [stop_xid c hc, Bool.or_false]
  revert c; decide
theorem stop_first : ∀ c ∈ stopChars, isIdentFirst c = false := by
  intro c hc
  have hx : Env.xidStart c = false := by
    cases h : Env.xidStart c with
    | false => rfl
    | true => rw [← stop_xid c hc, Env.xidStart_cont c h]
  unfold isIdentFirst
  rw [hx, Bool.or_false]
  clear hx
  revert c; decide

theorem headXid_ends {r l : Text} (hl : Ends l) : headXid (r ++ l) = headXid r := by
  obtain rfl | ⟨c, t, rfl, hc⟩ := hl
  · rw [List.append_nil]
  cases r with
  | nil => simp [headXid, stop_xid c hc]
  | cons d r => rfl

/-- Both results are the same; with `eq` this includes the kind of error. -/
def BiR {α : Type} (l : Text) (eq : Prop) : Res α → Res α → Prop
  | .ok a s, .ok b s' => a = b ∧ Cut l s s'
  | .err e s, .err e' s' => Cut l s s' ∧ (eq → e = e')
  | _, _ => False

section
variable {α β : Type} {l : Text} {eq : Prop} {s s' : St}

theorem BiR.bind {f : P α} {f' : P α} {g g' : α → P β} (hf : BiR l eq (f s) (f' s'))
    (hg : ∀ a t t', Cut l t t' → BiR l eq (g a t) (g' a t')) : BiR l eq ((f >>= g) s) ((f' >>= g') s') := by
  rw [bind_apply, bind_apply]
  revert hf
  cases f s <;> cases f' s' <;> intro hf
  · obtain ⟨rfl, h⟩ := hf; exact hg _ _ _ h
  · exact hf.elim
  · exact hf.elim
  · exact hf
theorem BiR.pure {a : α} (h : Cut l s s') : BiR l eq ((Pure.pure a : P α) s) ((Pure.pure a : P α) s') := ⟨rfl, h⟩
theorem BiR.fail {e : Err} (h : Cut l s s') : BiR l eq ((Ron.fail e : P α) s) ((Ron.fail e : P α) s') := ⟨h, fun _ => rfl⟩
theorem BiR.weak {r r' : Res α} (h : BiR l eq r r') : BiR l False r r' := by
  cases r <;> cases r'
  · exact h
  · exact h
  · exact h
  · exact ⟨h.1, False.elim⟩
theorem BiR.ite {c : Prop} [Decidable c] {f g f' g' : P α} (hf : c → BiR l eq (f s) (f' s')) (hg : ¬ c → BiR l eq (g s) (g' s')) :
    BiR l eq ((if c then f else g) s) ((if c then f' else g') s') := by
  split
  · exact hf ‹_›
  · exact hg ‹_›
theorem BiR.iff {c c' : Prop} [Decidable c] [Decidable c'] {f g f' g' : P α} (hc : c ↔ c') (hf : c → BiR l eq (f s) (f' s'))
    (hg : ¬ c → BiR l eq (g s) (g' s')) : BiR l eq ((if c then f else g) s) ((if c' then f' else g') s') := by
  by_cases h : c
  · rw [if_pos h, if_pos (hc.mp h)]; exact hf h
  · rw [if_neg h, if_neg fun h' => h (hc.mpr h')]; exact hg h
end

section
variable {α : Type} {l : Text} {eq : Prop} {s s' : St}

theorem Bi.advance {n : Nat} (h : Cut l s s') (hn : n ≤ s'.rest.length) : BiR l eq (advance n s) (advance n s') := by
  have h0 : n ≤ s.rest.length := by rw [h.rest, List.length_append]; omega
  rw [advance_ok hn, advance_ok h0]
  exact ⟨rfl, ⟨by show List.drop n s.rest = _; rw [h.rest, List.drop_append_of_le_length hn]⟩⟩

theorem Bi.setCursor {c c' : Cur} (hc : c.rest = c'.rest ++ l) (h : Cut l s s') : BiR l eq (setCursor c s) (setCursor c' s') :=
  ⟨rfl, ⟨hc⟩⟩

theorem Bi.consumeStr {t : Text} (hl : Ends l) (h : Cut l s s') (ht : ∀ c ∈ t, c ∉ stopChars) : BiR l eq (consumeStr t s) (consumeStr t s') := by
  have e := startsWith_ends (r := s'.rest) hl ht
  rw [← h.rest] at e
  rw [consumeStr_apply, consumeStr_apply, e]
  cases hs : startsWith s'.rest t with
  | false => exact ⟨rfl, h⟩
  | true =>
    have := startsWith_le hs
    exact ⟨rfl, ⟨by show List.drop _ s.rest = _; rw [h.rest, List.drop_append_of_le_length this]⟩⟩

theorem checkIdent_ends {t : Text} (hl : Ends l) (h : Cut l s s') (ht : ∀ c ∈ t, c ∉ stopChars) :
    (startsWith s.rest t && !headXid (s.rest.drop t.length)) = (startsWith s'.rest t && !headXid (s'.rest.drop t.length)) := by
  rw [h.rest, startsWith_ends hl ht]
  cases hs : startsWith s'.rest t with
  | false => rfl
  | true => rw [List.drop_append_of_le_length (startsWith_le hs), headXid_ends hl]

theorem Bi.checkIdent {t : Text} (hl : Ends l) (h : Cut l s s') (ht : ∀ c ∈ t, c ∉ stopChars) : BiR l eq (checkIdent t s) (checkIdent t s') :=
  ⟨checkIdent_ends hl h ht, h⟩

theorem Bi.consumeIdent {t : Text} (hl : Ends l) (h : Cut l s s') (ht : ∀ c ∈ t, c ∉ stopChars) :
    BiR l eq (consumeIdent t s) (consumeIdent t s') := by
  unfold Ron.consumeIdent
  rw [bind_apply, bind_apply]
  unfold Ron.checkIdent
  rw [checkIdent_ends hl h ht]
  dsimp only
  cases hb : (startsWith s'.rest t && !headXid (s'.rest.drop t.length)) with
  | false => exact .pure h
  | true =>
    simp only [Bool.and_eq_true] at hb
    exact BiR.bind (Bi.advance h (startsWith_le hb.1)) fun _ _ _ h => .pure h

theorem startsStringLike_ends {r : Text} (hl : Ends l) : startsStringLike (r ++ l) = startsStringLike r := by
  unfold startsStringLike
  rw [startsWith_ends hl (by decide), startsWith_ends hl (by decide), startsWith_ends hl (by decide), startsWith_ends hl (by decide),
    startsWith_ends hl (by decide), startsWith_ends hl (by decide), startsWith_ends hl (by decide)]

theorem Bi.skipIdentifier (hl : Ends l) (h : Cut l s s') : BiR l eq (skipIdentifier s) (skipIdentifier s') := by
  unfold Ron.skipIdentifier
  simp only [bind_apply, getSt_apply]
  rw [h.rest, startsStringLike_ends hl, startsWith_ends hl (by decide)]
  cases hs : startsStringLike s'.rest with
  | true => exact .pure h
  | false =>
    cases hr : startsWith s'.rest c!"r#" with
    | true =>
      simp only [↓reduceIte, Bool.false_eq_true]
      have h2 := startsWith_le hr
      simp only [List.length_cons, List.length_nil] at h2
      rw [List.drop_append_of_le_length (by omega), whileLen_ends hl stop_raw]
      refine .ite (fun _ => ?_) fun _ => .pure h
      have hw := whileLen_le isIdentRaw (s'.rest.drop 2)
      rw [List.length_drop] at hw
      rw [List.take_append_of_le_length (whileLen_le _ _)]
      exact BiR.bind (Bi.advance h (by omega)) fun _ _ _ h => .pure h
    | false =>
      simp only [↓reduceIte, Bool.false_eq_true]
      cases hr : s'.rest with
      | nil =>
        obtain rfl | ⟨c, t, rfl, hc⟩ := hl
        · exact .pure h
        simp only [List.nil_append, stop_first c hc, Bool.false_eq_true, ↓reduceIte]
        exact .pure h
      | cons c r =>
        simp only [List.cons_append]
        refine .ite (fun _ => ?_) fun _ => .pure h
        have hw := whileLen_le Env.xidCont r
        rw [whileLen_ends hl stop_xid]
        have he : List.take (1 + whileLen Env.xidCont r) (c :: (r ++ l)) = List.take (1 + whileLen Env.xidCont r) (c :: r) := by
          rw [← List.cons_append, List.take_append_of_le_length (by simp only [List.length_cons]; omega)]
        rw [he]
        exact BiR.bind (Bi.advance h (by rw [hr, List.length_cons]; omega)) fun _ _ _ h => .pure h

/-! ### Numbers -/

theorem Bi.intDigits {t : IntTy} {neg : Bool} {base whole : Nat} (cs : Text) : ∀ (i : Nat) (acc : Int) {s s' : St}, Cut l s s' →
    whole ≤ s'.rest.length → i + cs.length ≤ whole →
    BiR l eq (intDigits t neg base whole cs i acc s) (intDigits t neg base whole cs i acc s') := by
  induction cs with
  | nil => exact fun i acc s s' h hw _ => BiR.bind (Bi.advance h hw) fun _ _ _ h => .pure h
  | cons c cs ih =>
    intro i acc s s' h hw hi
    simp only [List.length_cons] at hi
    unfold Ron.intDigits
    refine .ite (fun _ => ih _ _ h hw (by omega)) fun _ => ?_
    refine .ite (fun _ => BiR.bind (Bi.advance h hw) fun _ _ _ h => .fail h) fun _ => ?_
    rw [bind_apply, bind_apply]
    unfold Ron.decodeHexP
    cases decodeHex c with
    | none => exact ⟨h, fun _ => rfl⟩
    | some d =>
      refine .ite (fun _ => BiR.bind (Bi.advance h (by omega)) fun _ _ _ h => .fail h) fun _ => ?_
      exact .ite (fun _ => BiR.bind (Bi.advance h hw) fun _ _ _ h => .fail h) fun _ => ih _ _ h hw (by omega)

theorem Bi.parseInteger {t : IntTy} {neg : Bool} {base : Nat} (hl : Ends l) (h : Cut l s s') :
    BiR l eq (parseInteger t neg base s) (parseInteger t neg base s') := by
  unfold Ron.parseInteger
  simp only [bind_apply, getSt_apply]
  rw [h.rest, whileLen_ends hl stop_int, startsWith_ends hl (by decide), List.take_append_of_le_length (whileLen_le _ _)]
  refine .ite (fun _ => .fail h) fun _ => .ite (fun _ => .fail h) fun _ => ?_
  exact Bi.intDigits _ _ _ h (whileLen_le _ _) (by rw [List.length_take]; omega)

theorem Bi.targetParse {tg : IntTarget} {neg : Bool} {base : Nat} (hl : Ends l) (h : Cut l s s') :
    BiR l eq (tg.parse neg base s) (tg.parse neg base s') := by
  unfold IntTarget.parse
  cases tg with
  | one t => exact BiR.bind (Bi.parseInteger hl h) fun _ _ _ h => .pure h
  | any => exact .ite (fun _ => BiR.bind (Bi.parseInteger hl h) fun _ _ _ h => .pure h) fun _ => BiR.bind (Bi.parseInteger hl h) fun _ _ _ h => .pure h

theorem Bi.targetFrom {tg : IntTarget} {t : IntTy} {v : Int} {ron ron' : Text} (h : Cut l s s') :
    BiR l False (tg.tryFrom t v ron s) (tg.tryFrom t v ron' s') := by
  unfold IntTarget.tryFrom
  cases tg with
  | any => exact .pure h
  | one t => exact .ite (fun _ => .pure h) fun _ => ⟨h, False.elim⟩

theorem suffix_plain (t : IntTy) : ∀ c ∈ t.suffix, c ∉ stopChars := by cases t <;> decide

theorem Bi.consumeSuffix (hl : Ends l) (ts : List IntTy) : ∀ {s s' : St}, Cut l s s' →
    BiR l eq (consumeSuffix ts s) (consumeSuffix ts s') := by
  induction ts with
  | nil => exact fun h => .pure h
  | cons t ts ih =>
    intro s s' h
    unfold Ron.consumeSuffix
    exact BiR.bind (Bi.consumeIdent hl h (suffix_plain t)) fun _ _ _ h => .ite (fun _ => .pure h) fun _ => ih h

theorem Bi.basePrefix (hl : Ends l) (h : Cut l s s') : BiR l eq (basePrefix s) (basePrefix s') := by
  unfold Ron.basePrefix
  refine BiR.bind (Bi.consumeStr hl h (by decide)) fun _ _ _ h => .ite (fun _ => .pure h) fun _ => ?_
  refine BiR.bind (Bi.consumeStr hl h (by decide)) fun _ _ _ h => .ite (fun _ => .pure h) fun _ => ?_
  exact BiR.bind (Bi.consumeStr hl h (by decide)) fun _ _ _ h => .ite (fun _ => .pure h) fun _ => .pure h

theorem Bi.unsignedPart {tg : IntTarget} {neg : Bool} {b b' : Text} (hl : Ends l) (h : Cut l s s') :
    BiR l False (unsignedPart tg neg b s) (unsignedPart tg neg b' s') := by
  unfold Ron.unsignedPart
  refine BiR.bind (Bi.basePrefix hl h) fun base t t' h => ?_
  simp only [bind_apply, getSt_apply]
  rw [h.rest, whileLen_ends hl stop_int, List.drop_append_of_le_length (whileLen_le _ _), startsWith_ends hl (by decide),
    startsWith_ends hl (by decide)]
  refine .ite (fun _ => ?_) fun _ => Bi.targetParse hl h
  rw [bind_apply, bind_apply, cursor_apply, cursor_apply]
  dsimp only
  refine BiR.bind (Bi.advance h (whileLen_le _ _)) fun _ u u' hu => ?_
  refine BiR.bind (Bi.consumeSuffix hl _ hu) fun o v v' hv => ?_
  cases o with
  | none => exact BiR.bind (Bi.setCursor h.rest hv) fun _ _ _ h => Bi.targetParse hl h
  | some ty =>
    dsimp only
    rw [bind_apply, bind_apply, getSt_apply, getSt_apply]
    dsimp only
    refine BiR.bind (Bi.setCursor h.rest hv) fun _ w w' hw => ?_
    rw [bind_apply, bind_apply, attempt_apply, attempt_apply]
    have hp := Bi.parseInteger (eq := True) (t := ty) (neg := neg) (base := base) hl hw
    revert hp
    cases Ron.parseInteger ty neg base w <;> cases Ron.parseInteger ty neg base w' <;> intro hp
    · obtain ⟨rfl, hp⟩ := hp
      exact BiR.bind (Bi.skipIdentifier hl hp) fun _ _ _ h => Bi.targetFrom h
    · exact hp.elim
    · exact hp.elim
    · obtain ⟨hp, he⟩ := hp
      obtain rfl := he trivial
      dsimp only
      rename_i e _ _
      cases e <;> first | exact .fail hp | exact BiR.bind (Bi.skipIdentifier hl hp) fun _ _ _ h => .fail h

theorem Bi.skipNext (h : Cut l s s') (hne : s'.rest ≠ []) : BiR l eq (skipNextChar s) (skipNextChar s') := by
  refine ⟨rfl, ⟨?_⟩⟩
  show List.drop 1 s.rest = List.drop 1 s'.rest ++ l
  rw [h.rest]
  cases hr : s'.rest with
  | nil => exact absurd hr hne
  | cons c r => rfl

/-- Integers other than byte literals. -/
theorem Bi.integer {tg : IntTarget} (hl : Ends l) (h : Cut l s s') (hne : s'.rest ≠ []) (hb : startsWith s'.rest c!"b'" = false) :
    BiR l False (integer tg s) (integer tg s') := by
  unfold Ron.integer
  rw [bind_apply, bind_apply, getSt_apply, getSt_apply]
  dsimp only
  have hbl : startsWith s.rest c!"b'" = false := by rw [h.rest, startsWith_ends hl (by decide), hb]
  cases hr : s'.rest with
  | nil => exact absurd hr hne
  | cons c r =>
    have e1 : peekCharOrEof s = .ok c s := by simp only [peekCharOrEof, h.rest, hr, List.cons_append]
    have e2 : peekCharOrEof s' = .ok c s' := by simp only [peekCharOrEof, hr]
    rw [bind_apply, bind_apply, e1, e2]
    dsimp only
    refine .ite (fun _ => BiR.bind (Bi.skipNext h hne) fun _ _ _ h => Bi.unsignedPart hl h) fun _ => ?_
    refine .ite (fun _ => BiR.bind (Bi.skipNext h hne) fun _ _ _ h => Bi.unsignedPart hl h) fun _ => ?_
    have e3 : (if (c == 'b') = true then Ron.consumeStr c!"b'" else pure false : P Bool) s = .ok false s := by
      split
      · exact consumeStr_false hbl
      · rfl
    have e4 : (if (c == 'b') = true then Ron.consumeStr c!"b'" else pure false : P Bool) s' = .ok false s' := by
      split
      · exact consumeStr_false hb
      · rfl
    rw [bind_apply, bind_apply, e3, e4]
    exact Bi.unsignedPart hl h

theorem floatParse_form (tg : FloatTarget) (t : Text) :
    (∃ v, ∀ s, tg.parse t s = .ok v s) ∨ ∀ s, tg.parse t s = .err .expectedFloat s := by
  unfold FloatTarget.parse
  cases tg <;> (repeat' split) <;> first | exact .inl ⟨_, fun _ => rfl⟩ | exact .inr fun _ => rfl

theorem Bi.floatParse {tg : FloatTarget} {t : Text} (h : Cut l s s') : BiR l eq (tg.parse t s) (tg.parse t s') := by
  unfold FloatTarget.parse
  cases tg <;> (repeat' split) <;> first | exact .pure h | exact .fail h

theorem Bi.floatFrom {tg : FloatTarget} {v : Number} {t t' : Text} (h : Cut l s s') : BiR l False (tg.tryFrom v t s) (tg.tryFrom v t' s') := by
  unfold FloatTarget.tryFrom
  cases tg <;> cases v <;> first | exact .pure h | exact ⟨h, False.elim⟩

theorem Bi.floatSpecial {tg : FloatTarget} (hl : Ends l) (es : List (Text × F32 × F64)) (hes : ∀ e ∈ es, ∀ c ∈ e.1, c ∉ stopChars) :
    ∀ {s s' : St}, Cut l s s' → BiR l False (floatSpecial tg es s) (floatSpecial tg es s') := by
  induction es with
  | nil => exact fun h => .pure h
  | cons e es ih =>
    intro s s' h
    obtain ⟨lit, v32, v64⟩ := e
    have hlit : ∀ c ∈ lit, c ∉ stopChars := hes _ (.head _)
    have ih := @ih fun e he => hes e (.tail _ he)
    unfold Ron.floatSpecial
    refine BiR.bind (Bi.consumeIdent hl h hlit) fun _ t t' h => ?_
    refine .ite (fun _ => BiR.bind (Bi.floatParse h) fun _ _ _ h => .pure h) fun _ => ?_
    rw [bind_apply, bind_apply, getSt_apply, getSt_apply]
    dsimp only
    have key : ∀ z : Text, z.length = 3 → (∀ c ∈ z, c ∉ stopChars) →
        (startsWith t.rest (lit ++ z) && !headXid (t.rest.drop (lit.length + 3))) =
          (startsWith t'.rest (lit ++ z) && !headXid (t'.rest.drop (lit.length + 3))) := by
      intro z hz hz'
      have := checkIdent_ends (t := lit ++ z) hl h (by intro c hc; rcases List.mem_append.mp hc with hc | hc; exact hlit c hc; exact hz' c hc)
      rwa [List.length_append, hz] at this
    rw [key c!"f32" rfl (by decide), key c!"f64" rfl (by decide)]
    refine .ite (fun hc => ?_) fun _ => .ite (fun hc => ?_) fun _ => ih h
    all_goals
      simp only [Bool.and_eq_true] at hc
      have := startsWith_le hc.1
      simp only [List.length_append, List.length_cons, List.length_nil] at this
      exact BiR.bind (Bi.advance h this) fun _ _ _ h => BiR.bind (Bi.floatFrom h) fun _ _ _ h => .pure h

theorem Bi.float {tg : FloatTarget} (hl : Ends l) (h : Cut l s s') : BiR l False (float tg s) (float tg s') := by
  unfold Ron.float
  refine BiR.bind (Bi.floatSpecial hl _ (by decide) h) fun o t t' h => ?_
  cases o with
  | some v => exact .pure h
  | none =>
    dsimp only
    rw [bind_apply, bind_apply, getSt_apply, getSt_apply]
    dsimp only
    rw [h.rest, takeWhile_ends hl stop_float, startsWith_ends hl (by decide)]
    generalize hn : (findSub c!".." (List.takeWhile isFloatChar t'.rest)).getD (List.takeWhile isFloatChar t'.rest).length = n
    have hle : n ≤ t'.rest.length := by
      rw [← hn]
      have h1 : (List.takeWhile isFloatChar t'.rest).length ≤ t'.rest.length := whileLen_le isFloatChar t'.rest
      cases hf : findSub c!".." (List.takeWhile isFloatChar t'.rest) with
      | none => exact h1
      | some k => have := findSub_le hf; exact Nat.le_trans (by simp at this ⊢; omega) h1
    rw [List.take_append_of_le_length hle, List.drop_append_of_le_length hle, startsWith_ends hl (by decide)]
    refine .ite (fun _ => .fail h) fun _ => .ite (fun _ => .fail h) fun _ => ?_
    cases hf : floatStrip (t'.rest.take n) 0 false with
    | error i =>
      have hi : i ≤ t'.rest.length := by
        have := floatStrip_lt _ 0 false _ hf
        rw [List.length_take] at this
        omega
      exact BiR.bind (Bi.advance h hi) fun _ _ _ h => .fail h
    | ok f =>
      dsimp only
      have plain : ∀ {u u' : St}, Cut l u u' → u'.rest = t'.rest → BiR l False
          ((do let v ← tg.parse f; Ron.advance n; Pure.pure v : P Number) u)
          ((do let v ← tg.parse f; Ron.advance n; Pure.pure v : P Number) u') := by
        intro u u' hu hr
        rw [bind_apply, bind_apply]
        rcases floatParse_form tg f with ⟨v, hv⟩ | hv
        · rw [hv, hv]
          exact BiR.bind (Bi.advance hu (by rw [hr]; exact hle)) fun _ _ _ h => .pure h
        · rw [hv, hv]
          exact ⟨hu, fun _ => rfl⟩
      refine .ite (fun _ => ?_) fun _ => plain h rfl
      rw [bind_apply, bind_apply, cursor_apply, cursor_apply]
      dsimp only
      refine BiR.bind (Bi.advance h hle) fun _ u u' hu => ?_
      refine BiR.bind (eq := False) (α := Option Bool) ?_ fun which x x' hx => ?_
      · refine BiR.bind (Bi.consumeIdent hl hu (by decide)) fun _ _ _ h => .ite (fun _ => .pure h) fun _ => ?_
        exact BiR.bind (Bi.consumeIdent hl h (by decide)) fun _ _ _ h => .ite (fun _ => .pure h) fun _ => .pure h
      · cases which with
        | none =>
          dsimp only
          rw [bind_apply, bind_apply, setCursor_apply, setCursor_apply]
          exact plain ⟨h.rest⟩ rfl
        | some b =>
          dsimp only
          cases hp : (if b = true then (Env.parse32 f).map Number.f32 else (Env.parse64 f).map Number.f64) with
          | none => exact BiR.bind (Bi.setCursor h.rest hx) fun _ _ _ h => .fail h
          | some v =>
            dsimp only
            rw [bind_apply, bind_apply, getSt_apply, getSt_apply]
            exact Bi.floatFrom hx


theorem nextIsFloat_ends {r : Text} (hl : Ends l) (hr : r ≠ []) : nextIsFloat (r ++ l) = nextIsFloat r := by
  cases r with
  | nil => exact absurd rfl hr
  | cons c r =>
    unfold nextIsFloat
    simp only [List.cons_append]
    have e : (if (c == '+' || c == '-') = true then r ++ l else c :: (r ++ l)) = (if (c == '+' || c == '-') = true then r else c :: r) ++ l := by
      split <;> rfl
    rw [e, takeWhile_ends hl stop_float, whileLen_ends hl stop_int]

/-- Numbers other than byte literals. -/
theorem Bi.anyNumber (hl : Ends l) (h : Cut l s s') (hne : s'.rest ≠ []) (hb : startsWith s'.rest c!"b'" = false) :
    BiR l False (anyNumber s) (anyNumber s') := by
  unfold Ron.anyNumber
  have word : ∀ (w : Text) (v : Number) (f f' : P Number), (∀ c ∈ w, c ∉ stopChars) → BiR l False (f s) (f' s') →
      BiR l False ((do if ← Ron.consumeIdent w then Pure.pure v else f : P Number) s)
        ((do if ← Ron.consumeIdent w then Pure.pure v else f' : P Number) s') := by
    intro w v f f' hw hf
    have hc := checkIdent_ends hl h hw
    have e : ∀ t : St, Ron.checkIdent w t = .ok (startsWith t.rest w && !headXid (t.rest.drop w.length)) t := fun _ => rfl
    rw [bind_apply, bind_apply]
    unfold Ron.consumeIdent
    rw [bind_apply, bind_apply, e, e, hc]
    dsimp only
    cases hb : (startsWith s'.rest w && !headXid (s'.rest.drop w.length)) with
    | false => exact hf
    | true =>
      simp only [Bool.and_eq_true] at hb
      have h0 : w.length ≤ s.rest.length := by rw [h.rest, List.length_append]; have := startsWith_le hb.1; omega
      simp only [↓reduceIte, bind_apply, advance_ok (startsWith_le hb.1), advance_ok h0, pure_apply]
      exact ⟨rfl, ⟨by show List.drop _ s.rest = _; rw [h.rest, List.drop_append_of_le_length (startsWith_le hb.1)]⟩⟩
  refine word _ _ _ _ (by decide) <| word _ _ _ _ (by decide) <| word _ _ _ _ (by decide) <| word _ _ _ _ (by decide) <|
    word _ _ _ _ (by decide) <| word _ _ _ _ (by decide) ?_
  rw [bind_apply, bind_apply, getSt_apply, getSt_apply]
  dsimp only
  rw [h.rest, nextIsFloat_ends hl hne]
  refine .ite (fun _ => Bi.float hl h) fun _ => ?_
  rw [bind_apply, bind_apply, cursor_apply, cursor_apply]
  dsimp only
  rw [bind_apply, bind_apply, attempt_apply, attempt_apply]
  have hi := Bi.integer (tg := .any) hl h hne hb
  revert hi
  cases Ron.integer .any s <;> cases Ron.integer .any s' <;> intro hi
  · obtain ⟨rfl, hi⟩ := hi
    exact .pure hi
  · exact hi.elim
  · exact hi.elim
  · obtain ⟨hi, -⟩ := hi
    rename_i e t e' t'
    dsimp only
    rw [bind_apply, bind_apply, cursor_apply, cursor_apply]
    dsimp only
    rw [bind_apply, bind_apply, setCursor_apply, setCursor_apply]
    dsimp only
    rw [bind_apply, bind_apply, attempt_apply, attempt_apply]
    have hf := Bi.float (tg := .any) (s := { t with rest := s.rest, preWs := s.preWs, lastWs := s.lastWs })
      (s' := { t' with rest := s'.rest, preWs := s'.preWs, lastWs := s'.lastWs }) hl ⟨h.rest⟩
    revert hf
    cases Ron.float .any { t with rest := s.rest, preWs := s.preWs, lastWs := s.lastWs } <;>
      cases Ron.float .any { t' with rest := s'.rest, preWs := s'.preWs, lastWs := s'.lastWs } <;> intro hf
    · obtain ⟨rfl, hf⟩ := hf
      dsimp only
      rw [bind_apply, bind_apply, getSt_apply, getSt_apply]
      dsimp only
      refine .iff (by rw [hf.rest, hi.rest, List.length_append, List.length_append]; omega) (fun _ => .pure hf) fun _ => ?_
      rw [bind_apply, bind_apply, setCursor_apply, setCursor_apply]
      exact ⟨⟨hi.rest⟩, False.elim⟩
    · exact hf.elim
    · exact hf.elim
    · dsimp only
      rw [bind_apply, bind_apply, setCursor_apply, setCursor_apply]
      exact ⟨⟨hi.rest⟩, False.elim⟩

end

end Ron
