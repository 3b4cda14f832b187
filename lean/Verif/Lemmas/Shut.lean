import Verif.Lemmas.Seps
import Verif.Lemmas.DeAny
/-!
No value begins with a comma, a colon or a closing delimiter.
-/

set_option linter.unusedSimpArgs false

namespace Ron

variable {α β : Type}

/-- The read fails. -/
def Bad (r : Res α) : Prop := ∃ e s', r = .err e s'

theorem Bad.not {r : Res α} (h : Bad r) {a : α} {s : St} : r ≠ .ok a s := by
  obtain ⟨e, s', rfl⟩ := h
  intro h; cases h

theorem Bad.fail {e : Err} {s : St} : Bad (Ron.fail e s : Res α) := ⟨e, s, rfl⟩
theorem Bad.bind {f : P α} {g : α → P β} {s : St} (h : Bad (f s)) : Bad ((f >>= g) s) := by
  obtain ⟨e, s', h⟩ := h
  exact ⟨e, s', by rw [bind_apply, h]⟩
theorem Bad.next {f : P α} {g : α → P β} {s s1 : St} {a : α} (h : f s = .ok a s1) (hg : Bad (g a s1)) : Bad ((f >>= g) s) := by
  rw [bind_apply, h]; exact hg
theorem Bad.mapErr {f : P α} {g : Err → Err} {s : St} (h : Bad (f s)) : Bad (Ron.mapErr g f s) := by
  obtain ⟨e, s', h⟩ := h
  exact ⟨g e, s', by rw [mapErr_apply, h]⟩
theorem Bad.ff {f g : P α} {s : St} (h : Bad (g s)) : Bad ((if false = true then f else g) s) := h
theorem Bad.guardQ {f : P α} {s : St} (h : Bad (f s.down)) : Bad (deGuardQ f s) := by
  obtain ⟨e, s', h⟩ := h
  have h : f { s with limit := s.limit.map (· - 1) } = .err e s' := h
  unfold deGuardQ
  split
  · exact ⟨_, _, rfl⟩
  · rw [h]; exact ⟨_, _, rfl⟩
theorem Bad.guardR {f : P α} {s : St} (h : Bad (f s.down)) : Bad (deGuardR f s) := by
  obtain ⟨e, s', h⟩ := h
  have h : f { s with limit := s.limit.map (· - 1) } = .err e s' := h
  unfold deGuardR
  split
  · exact ⟨_, _, rfl⟩
  · rw [h]; exact ⟨_, _, rfl⟩

/-- The reader stands before a separator or a closing delimiter. -/
def Sep (s : St) : Prop := s.nv = false ∧ ∃ c r, s.rest = c :: r ∧ c ∈ [',', ')', ']', '}', ':']

theorem Sep.down {s : St} (h : Sep s) : Sep s.down := h
theorem Sep.nvOff {s : St} (h : Sep s) : Sep { s with nv := false } := ⟨rfl, h.2⟩

theorem Sep.skipWs {s : St} (h : Sep s) : ∃ s1, Ron.skipWs s = .ok () s1 ∧ Sep s1 := by
  obtain ⟨hn, c, r, hr, hc⟩ := h
  obtain ⟨s1, h1, h2, h3⟩ := skipWs_tok (d := s) (l := []) (r := c :: r) hr .nil (by
    intro d r' e; cases e; revert hc; simp only [List.mem_cons, List.mem_nil_iff, or_false]; rintro (rfl | rfl | rfl | rfl | rfl) <;> decide)
  exact ⟨s1, h1, h3.nv hn, c, r, h2, hc⟩

theorem Sep.starts {s : St} (h : Sep s) {d : Char} {t : Text} (hd : d ∉ [',', ')', ']', '}', ':']) : startsWith s.rest (d :: t) = false := by
  obtain ⟨hn, c, r, hr, hc⟩ := h
  rw [hr]
  simp only [startsWith, List.isPrefixOf, Bool.and_eq_false_imp, beq_iff_eq]
  rintro rfl
  exact absurd hc hd

theorem Sep.str {s : St} (h : Sep s) {d : Char} {t : Text} (hd : d ∉ [',', ')', ']', '}', ':'] := by decide) : consumeStr (d :: t) s = .ok false s :=
  consumeStr_false (h.starts hd)
theorem Sep.char {s : St} (h : Sep s) {d : Char} (hd : d ∉ [',', ')', ']', '}', ':'] := by decide) : consumeChar d s = .ok false s := h.str hd
variable [Env]

theorem Sep.check {s : St} (h : Sep s) {d : Char} {t : Text} (hd : d ∉ [',', ')', ']', '}', ':'] := by decide) : checkIdent (d :: t) s = .ok false s := by
  simp [checkIdent, h.starts hd]
theorem Sep.ident {s : St} (h : Sep s) {d : Char} {t : Text} (hd : d ∉ [',', ')', ']', '}', ':'] := by decide) : consumeIdent (d :: t) s = .ok false s := by
  unfold consumeIdent
  rw [bind_apply, h.check hd]
  rfl

theorem sep_notFirst {c : Char} (hc : c ∈ [',', ')', ']', '}', ':']) : isIdentFirst c = false := by
  cases h : isIdentFirst c with
  | false => rfl
  | true =>
    have := (identFirst_notDelim h).2
    exact absurd (by revert hc; simp; rintro (rfl | rfl | rfl | rfl | rfl) <;> simp) this

theorem Sep.noStringLike {s : St} (h : Sep s) : startsStringLike s.rest = false := by
  simp [startsStringLike, h.starts]

theorem Sep.skipIdentifier {s : St} (h : Sep s) : Ron.skipIdentifier s = .ok none s := by
  unfold Ron.skipIdentifier
  rw [getSt_bind]
  simp only [h.noStringLike, h.starts (d := 'r') (by decide), Bool.false_eq_true, ↓reduceIte]
  obtain ⟨hn, c, r, hr, hc⟩ := h
  rw [hr]
  simp [sep_notFirst hc]

theorem Sep.identifier {s : St} (h : Sep s) : Bad (Ron.identifier s) := by
  obtain ⟨hn, c, r, hr, hc⟩ := h
  unfold Ron.identifier
  refine .next (a := c) (s1 := s) (by simp [peekCharOrEof, hr]) ?_
  rw [getSt_bind]
  simp only [sep_notFirst hc, Bool.not_false, ↓reduceIte]
  rw [ite_P]
  split <;> exact .fail

theorem Sep.structName {s : St} (h : Sep s) (n : Text) : consumeStructName n s = .ok false s ∨ Bad (consumeStructName n s) := by
  unfold consumeStructName
  rw [bind_apply, checkIdent_apply]
  dsimp only
  split
  · rw [getSt_bind, ite_P]
    split
    · exact .inr .fail
    · exact .inl rfl
  · right
    obtain ⟨e, s', he⟩ := h.identifier
    rw [bind_apply, attempt_apply, he]
    dsimp only
    cases e with
    | suggestRawIdentifier f => dsimp only; rw [ite_P]; split <;> exact .fail
    | _ => exact .fail

theorem Sep.bool {s : St} (h : Sep s) : Bad (Ron.bool s) := by
  unfold Ron.bool
  exact .next h.ident (.next h.ident .fail)

theorem Sep.integer {s : St} (h : Sep s) (tg : IntTarget) : Bad (Ron.integer tg s) := by
  cases hr : Ron.integer tg s with
  | err e s' => exact ⟨e, s', rfl⟩
  | ok a s' =>
    obtain ⟨t, v⟩ := a
    obtain ⟨l, hv, e, -⟩ := integer_sound (h.starts (by decide)) hr
    exfalso
    obtain ⟨hn, c, r, hr, hc⟩ := h
    obtain ⟨b1, b2, b3⟩ := hv
    obtain ⟨sg, ba, body, sfx⟩ := l
    cases body with
    | nil => exact b1 rfl
    | cons d body =>
      have hd : d = '_' ∨ ∃ x, hexVal d = some x := by
        rcases b3 d (by simp) with h | ⟨x, h, -⟩
        · exact .inl h
        · exact .inr ⟨x, h⟩
      rw [hr] at e
      have key : c = '+' ∨ c = '-' ∨ c = '0' ∨ c = d := by
        cases sg <;> cases ba <;> simp [IntLit.text, LitSign.text, LitBase.pre] at e <;> simp [e.1]
      revert hc
      simp only [List.mem_cons, List.mem_nil_iff, or_false]
      rcases key with rfl | rfl | rfl | rfl
      · decide
      · decide
      · decide
      · rcases hd with rfl | ⟨x, hx⟩
        · decide
        · rintro (rfl | rfl | rfl | rfl | rfl) <;> revert hx <;> decide +revert

theorem Sep.float {s : St} (h : Sep s) (tg : FloatTarget) : Bad (Ron.float tg s) := by
  unfold Ron.float
  have hs : floatSpecial tg floatLiterals s = .ok none s := by
    have gen : ∀ ls : List (Text × F32 × F64), (∀ e ∈ ls, ∃ d t, e.1 = d :: t ∧ d ∉ [',', ')', ']', '}', ':']) → floatSpecial tg ls s = .ok none s := by
      intro ls hl
      induction ls with
      | nil => rfl
      | cons e ls ih =>
        obtain ⟨lit, v32, v64⟩ := e
        obtain ⟨d, t, he, hd⟩ := hl _ List.mem_cons_self
        dsimp only at he
        subst he
        unfold floatSpecial
        rw [bind_apply, h.ident hd]
        dsimp only
        simp only [Bool.false_eq_true, ↓reduceIte, bind_apply, getSt_apply, List.cons_append, h.starts hd, Bool.false_and]
        exact ih fun e he => hl e (List.mem_cons_of_mem _ he)
    refine gen _ ?_
    intro e he
    simp only [floatLiterals, List.mem_cons, List.mem_nil_iff, or_false] at he
    rcases he with rfl | rfl | rfl | rfl | rfl | rfl <;> exact ⟨_, _, rfl, by decide⟩
  refine .next hs ?_
  dsimp only
  rw [getSt_bind]
  obtain ⟨hn, c, r, hr, hc⟩ := h
  have : isFloatChar c = false := by
    revert hc; simp only [List.mem_cons, List.mem_nil_iff, or_false]; rintro (rfl | rfl | rfl | rfl | rfl) <;> decide
  simp only [hr, List.takeWhile_cons, this, findSub, Bool.false_eq_true, ↓reduceIte, ite_P]
  exact .fail

theorem Sep.charLit {s : St} (h : Sep s) : Bad (Ron.charLit s) := by
  unfold Ron.charLit expectChar
  exact .bind (.next h.char .fail)

theorem Sep.string {s : St} (h : Sep s) : Bad (Ron.string s) := by
  unfold Ron.string
  exact .next h.char (.next h.char .fail)

theorem Sep.byteString {s : St} (h : Sep s) : Bad (Ron.byteString s) := by
  unfold Ron.byteString byteStringNoBase64
  exact .next h.char (.next h.char (.next h.str (.next h.str .fail)))

theorem Sep.unit {s : St} (h : Sep s) : Bad (deUnit s) := by
  unfold deUnit
  rw [getSt_bind]
  simp only [h.1, Bool.false_eq_true, ↓reduceIte]
  exact .next h.str .fail

theorem Sep.seq {s : St} (h : Sep s) (visit : P α) : Bad (deSeq visit s) := by
  unfold deSeq
  exact .next (setNv_apply _ _) (.next h.nvOff.char .fail)

theorem Sep.map {s : St} (h : Sep s) (visit : P α) : Bad (deMap visit s) := by
  unfold deMap
  exact .next (setNv_apply _ _) (.next h.nvOff.char .fail)

theorem Sep.tuple {s : St} (h : Sep s) (visit : P α) : Bad (deTuple visit s) := by
  unfold deTuple
  rw [getSt_bind]
  simp only [h.1, Bool.false_eq_true, ↓reduceIte]
  exact .next h.char .fail

theorem Sep.struct {s : St} (h : Sep s) (n : Text) (visit : P α) : Bad (structAfterName n visit s) := by
  unfold structAfterName
  rw [getSt_bind]
  simp only [h.1, Bool.false_eq_true, ↓reduceIte]
  refine .next h.char ?_
  rw [ite_P]
  simp only [Bool.false_eq_true, ↓reduceIte]
  rw [ite_P]
  split <;> exact .fail

theorem Sep.any {s : St} (h : Sep s) (any : P Value) : Bad (anyBody any s) := by
  unfold anyBody
  rw [getSt_bind]
  simp only [h.1, Bool.false_eq_true, ↓reduceIte]
  unfold anyPlain
  refine .next h.ident (.next h.ident (.next h.check (.next h.ident (.next h.str ?_))))
  refine .next h.ident (.next h.ident (.next h.ident (.next h.ident (.next h.ident (.next h.ident ?_)))))
  refine .next h.skipIdentifier ?_
  obtain ⟨hn, c, r, hr, hc⟩ := h
  unfold anyChar
  refine .next (a := c) (s1 := s) (by simp [peekCharOrEof, hr]) ?_
  rw [getSt_bind]
  revert hc; simp only [List.mem_cons, List.mem_nil_iff, or_false]
  rintro (rfl | rfl | rfl | rfl | rfl) <;> exact .fail

theorem Sep.value {s : St} (h : Sep s) : Bad (deValue s) := by
  unfold deValue
  rw [getSt_bind]
  exact h.any _

theorem Sep.range {s : St} (h : Sep s) (n : Text) (fs : List Text) : rangeStruct n fs s = .ok none s := by
  have hi : ∀ t, checkIdent ('i' :: t) s = .ok false s := fun t => h.check
  have hN : ∀ t, checkIdent ('N' :: t) s = .ok false s := fun t => h.check
  have hd := h.starts (d := '.') (t := ['.']) (by decide)
  obtain ⟨hn, c, r, hr, hc⟩ := h
  have hnum : ∀ t, isNumberStart t c = false := by
    intro t
    revert hc
    simp only [List.mem_cons, List.mem_nil_iff, or_false]
    rintro (rfl | rfl | rfl | rfl | rfl) <;> rfl
  unfold rangeStruct
  rw [getSt_bind]
  rw [hr] at hd
  simp only [hr, hnum, hd, Bool.false_eq_true, ↓reduceIte, and_false, Bool.false_or]
  simp only [ite_P, bind_apply, hi, hN, Bool.false_eq_true, ↓reduceIte, pure_apply, ite_self]

theorem Sep.deInt {s : St} (h : Sep s) (t : IntTy) : Bad (deInt t s) := by
  unfold Ron.deInt
  split
  · exact .fail
  · exact h.integer _

/-- No value of any type begins with a separator or a closing delimiter. -/
theorem Sep.ty (D : Nat → Ty) (f : Nat) : ∀ (T : Ty) (s : St), Sep s → Bad (deTy D f T s) := by
  induction f with
  | zero => exact fun _ _ _ => .fail
  | succ f ih =>
    intro T s h
    cases T with
    | bool => exact .bind h.bool
    | int t => exact .bind (h.deInt _)
    | f32 => exact .bind (h.float _)
    | f64 => exact .bind (h.float _)
    | char => exact .bind h.charLit
    | str => exact .bind h.string
    | bytes =>
      refine .bind ?_
      unfold deBytes
      refine .next (a := false) (s1 := s) ?_ h.byteString
      rw [checkChar_apply, h.starts (by decide)]
    | unit => exact .bind h.unit
    | unitStruct name =>
      refine .bind ?_
      unfold deUnitStruct
      have hp : (if name = c!"RangeFull" then consumeStr c!".." else pure false : P Bool) s = .ok false s := by
        rw [ite_P]
        split
        · exact h.str
        · rfl
      refine .next hp ?_
      refine .ff ?_
      rw [getSt_bind]
      simp only [h.1, Bool.false_eq_true, ↓reduceIte]
      rcases h.structName name with h1 | h1
      · exact .next h1 h.unit
      · exact .bind h1
    | newtype name t =>
      refine .bind ?_
      unfold deNewtype
      rw [getSt_bind, ite_P]
      split
      · exact .next (setNv_apply _ _) (.guardR (ih t _ h.nvOff.down))
      · rcases h.structName name with h1 | h1
        · obtain ⟨s1, h2, h3⟩ := h.skipWs
          refine .next h1 (.next h2 (.next h3.char (.ff ?_)))
          rw [ite_P]
          split <;> exact .fail
        · exact .bind h1
    | option t =>
      unfold deTy deOption
      refine .next h.ident (.ff (.next h.ident (.next (a := false) (s1 := s) rfl (.ff ?_))))
      rw [getSt_bind, ite_P]
      split
      · exact .guardR (.bind (ih t _ h.down))
      · exact .fail
    | seq t => exact .bind (h.seq _)
    | tuple ts => exact .bind (h.tuple _)
    | tupleStruct name ts =>
      refine .bind ?_
      unfold deTupleStruct
      rw [getSt_bind]
      simp only [h.1, Bool.not_false, ↓reduceIte]
      rcases h.structName name with h1 | h1
      · exact .next h1 (.mapErr (h.tuple _))
      · exact .bind h1
    | map k v => exact .bind (h.map _)
    | struct name deny fields =>
      unfold deTy deStruct
      refine .next (h.range _ _) ?_
      dsimp only
      rw [getSt_bind]
      simp only [h.1, Bool.not_false, ↓reduceIte]
      rcases h.structName name with h1 | h1
      · obtain ⟨s1, h2, h3⟩ := h.skipWs
        exact .next h1 (.next h2 (.bind (h3.struct _ _)))
      · exact .bind h1
    | enum name variants =>
      unfold deTy deEnum
      refine .next (setNv_apply _ _) (.mapErr (.guardR ?_))
      unfold visitEnum
      obtain ⟨s1, h2, h3⟩ := h.nvOff.down.skipWs
      exact .next h2 (.bind (.guardQ (.bind (.bind h3.down.identifier))))
    | value => exact .bind h.value
    | raw =>
      refine .bind ?_
      unfold deRaw
      rw [getSt_bind]
      obtain ⟨s1, h2, h3⟩ := h.skipWs
      exact .next h2 (.bind (.bind h3.value))
    | ref i => exact ih _ _ h

end Ron
