import Verif.Lemmas.TypedHas
import Verif.Lemmas.Lim
import Verif.Lemmas.Witness
import Verif.Lemmas.Deq
/-! C23: deserialization enforces the recursion limit exactly. -/

set_option linter.unusedSectionVars false

namespace Ron

section
variable [Env]

theorem fromStr_lim {α : Type} {f : P α} (hf : Lim f) (o : Options) (t : Text) : ∃ k, ∀ n,
    (k ≤ n → fromStr (o.withRecursionLimit n) f t = fromStr o.withoutRecursionLimit f t) ∧
    (n < k → ∃ sp, fromStr (o.withRecursionLimit n) f t = .error (.exceededRecursionLimit, sp)) := by
  obtain ⟨k, hk⟩ := readDoc_lim (o := o) hf (St.init t)
  refine ⟨k, fun n => ⟨fun h => ?_, fun h => ?_⟩⟩
  · have := (hk n).1 h
    unfold fromStr Options.withRecursionLimit Options.withoutRecursionLimit
    cases hr : readDoc { o with recursionLimit := none } f (St.init t) with
    | ok a s =>
      rw [hr] at this
      rw [this.2]
      rfl
    | err e s =>
      rw [hr] at this
      obtain ⟨l, this⟩ := this
      rw [this]
      rfl
  · obtain ⟨s, hs⟩ := (hk n).2 h
    exact ⟨s.span, by unfold fromStr Options.withRecursionLimit; rw [hs]; rfl⟩

/-- For every text and type there is a number of levels that reading it takes.  With a limit of at least that many levels the outcome
(data, or error with its position) is the one without a limit, and with a lower limit it is `ExceededRecursionLimit`. -/
theorem C23_threshold (o : Options) (D : Nat → Ty) (f : Nat) (T : Ty) (t : Text) : ∃ k, ∀ n,
    (k ≤ n → fromStr (o.withRecursionLimit n) (deTy D f T) t = fromStr o.withoutRecursionLimit (deTy D f T) t) ∧
    (n < k → ∃ sp, fromStr (o.withRecursionLimit n) (deTy D f T) t = .error (.exceededRecursionLimit, sp)) :=
  fromStr_lim (Lim.deTy f T) o t

/-- The same for a `Value`. -/
theorem C23_threshold_value (o : Options) (t : Text) : ∃ k, ∀ n,
    (k ≤ n → fromStr (o.withRecursionLimit n) deValue t = fromStr o.withoutRecursionLimit deValue t) ∧
    (n < k → ∃ sp, fromStr (o.withRecursionLimit n) deValue t = .error (.exceededRecursionLimit, sp)) :=
  fromStr_lim Lim.deValue o t

/-- The same for text that is only skipped (`IgnoredAny`). -/
theorem C23_threshold_ignored (o : Options) (t : Text) : ∃ k, ∀ n,
    (k ≤ n → fromStr (o.withRecursionLimit n) deIgnored t = fromStr o.withoutRecursionLimit deIgnored t) ∧
    (n < k → ∃ sp, fromStr (o.withRecursionLimit n) deIgnored t = .error (.exceededRecursionLimit, sp)) :=
  fromStr_lim Lim.deIgnored o t

/-- Data that was read with limit `n` is nested at most `n + 1` levels.  (One more than `n` only if the innermost level is a range
such as `1..5` or a `RawValue`: their content is not read by recursion.) -/
theorem C23_depth (o : Options) (n : Nat) (D : Nat → Ty) (hD : ∀ i, (D i).Every Ty.Distinct) (f : Nat) (T : Ty) (hT : T.Every Ty.Distinct)
    (t : Text) (v : SVal) (h : fromStr (o.withRecursionLimit n) (deTy D f T) t = .ok v) : v.nesting ≤ n + 1 :=
  (fromStr_y (o := o.withRecursionLimit n) (Y.deTy hD f T _ hT) h).2 n rfl

/-- The same for a `Value`. -/
theorem C23_depth_value (o : Options) (n : Nat) (t : Text) (V : Value) (h : fromStr (o.withRecursionLimit n) deValue t = .ok V) :
    V.toS.nesting ≤ n + 1 :=
  (fromStr_y (o := o.withRecursionLimit n) Y.deValue h).2 n rfl

/-- What has been read does not use up the budget of what follows: after every value the remaining budget is what it was before. -/
theorem C23_siblings (D : Nat → Ty) (hD : ∀ i, (D i).Every Ty.Distinct) (f : Nat) (T : Ty) (hT : T.Every Ty.Distinct) (s s' : St) (v : SVal)
    (h : deTy D f T s = .ok v s') : s'.limit = s.limit :=
  (Y.deTy hD f T s.limit hT s v s' rfl h).1

/-- Data within the limit is accepted: `cost` counts the levels along the deepest branch only, whatever stands beside it. -/
theorem C23_accepts (o : Options) (cfg : Option PrettyConfig) (D : Nat → Ty) (m f n : Nat) (T : Ty) (v : SVal) (t l l' : Text)
    (hT : HasTy D m T v) (hf : m ≤ f) (hc : v.Clean (rgOf o cfg) (wxOf o cfg)) (ht : toText (o.withRecursionLimit n) cfg v = .ok t)
    (hn : v.cost ≤ n) (hl : Layout l) (hl' : Layout l') :
    fromStr (o.withRecursionLimit n) (deTy D f T) (l ++ (t ++ l')) = .ok v :=
  typed_reads hT hf (by cases cfg <;> exact hc) (by rintro _ ⟨⟩; exact hn) ht l l' hl hl'

/-- The levels of a list of any length are those of its deepest element. -/
theorem C23_width (vs : List SVal) (n : Nat) (h : ∀ v ∈ vs, v.cost + 2 ≤ n) (hn : 0 < n) (k : Option Nat) : (SVal.seq k vs).cost ≤ n := by
  have : ∀ vs : List SVal, (∀ v ∈ vs, v.cost + 2 ≤ n) → costAll vs ≤ n - 1 := by
    intro vs
    induction vs with
    | nil => intro _; simp [costAll]
    | cons v vs ih =>
      intro h
      obtain ⟨h1, h2⟩ := List.forall_mem_cons.mp h
      have := ih h2
      simp only [costAll]
      omega
  have := this vs h
  simp only [SVal.cost]
  omega

/-- Every recursive call goes through the guard, which takes one level and gives it back afterwards; with nothing left it reports the
limit instead of calling. -/
theorem C23_guard {α : Type} (f : P α) (s : St) :
    (s.limit = some 0 → deGuardQ f s = .err .exceededRecursionLimit s ∧ deGuardR f s = .err .exceededRecursionLimit s) ∧
    (s.limit ≠ some 0 → ∀ a s', deGuardQ f s = .ok a s' → ∃ s1, f { s with limit := s.limit.map (· - 1) } = .ok a s1) := by
  constructor
  · intro h
    simp [deGuardQ, deGuardR, h]
  · intro h a s' e
    obtain ⟨s2, l, e1, -⟩ := deGuardQ_inv e
    refine ⟨s2, ?_⟩
    have hd : s.down = { s with limit := s.limit.map (· - 1) } := by
      unfold St.down
      rfl
    rw [← hd]
    exact e1

end

/-- `[[[()]]]` takes six levels; a list of such lists takes eight, however long it is; `1..5` takes none. -/
example : ∃ _ : Env,
    let T : Ty := .seq (.seq (.seq .unit))
    let u : SVal := .seq (some 1) [.seq (some 1) [.seq (some 1) [.unit]]]
    fromStr (({} : Options).withRecursionLimit 6) (deTy (fun _ => .unit) 9 T) c!"[[[()]]]" = .ok u ∧
    (fromStr (({} : Options).withRecursionLimit 5) (deTy (fun _ => .unit) 9 T) c!"[[[()]]]").mapError Prod.fst = .error .exceededRecursionLimit ∧
    u.nesting = 3 ∧ u.cost = 6 ∧ T.Every Ty.Distinct ∧
    fromStr (({} : Options).withRecursionLimit 8) (deTy (fun _ => .unit) 9 (.seq T)) c!"[[[[()]]], [[[()]]], [[[()]]]]" =
      .ok (.seq (some 3) [u, u, u]) ∧
    (let v : SVal := .struct c!"Range" [(c!"start", .num (.int .u8 1)), (c!"end", .num (.int .u8 5))]
     fromStr (({} : Options).withRecursionLimit 0) (deTy (fun _ => .unit) 9 (.struct c!"Range" false [(c!"start", .int .u8), (c!"end", .int .u8)]))
      c!"1..5" = .ok v ∧ v.nesting = 1) := by
  refine ⟨asciiEnv true true, ?_⟩
  let _ : Env := asciiEnv true true
  exact ⟨by decide +kernel, by decide +kernel, by decide +kernel, by decide +kernel, by simp [Ty.Every, Ty.Distinct, Ty.Parts], by decide +kernel,
    by decide +kernel, by decide +kernel⟩

end Ron
