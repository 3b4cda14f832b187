import Verif.Lemmas.Lang
import Verif.Lemmas.RendDen
/-!
# The language with `implicit_some`

Its texts are read as what they denote, and without the extension it is the language of `Spec/Ron.lean`.
-/

namespace Ron

variable [Env]

theorem LevelX.imp {i : Bool} {S D E S' D' E' : Text → Value → Prop} (hs : ∀ t v, S t v → S' t v) (hd : ∀ t v, D t v → D' t v)
    (he : ∀ t v, E t v → E' t v) {w : Text} {v : Value} (h : LevelX i S D E w v) : LevelX i S' D' E' w v := by
  cases h with
  | level h => exact .level (h.imp hs hd he)
  | bare h1 h2 h3 h4 h5 => exact .bare h1 h2 (hd _ _ h3) h4 h5

theorem gramX_succ {i : Bool} {S : Text → Value → Prop} : ∀ {n : Nat} {w : Text} {v : Value}, GramX i S n w v → GramX i S (n + 1) w v
  | 0, _, _, h => .level (.scalar h)
  | 1, _, _, h => LevelX.imp (fun _ _ h => h) (fun _ _ h => gramX_succ (n := 0) h) (fun _ _ h => h.elim) h
  | n + 2, _, _, h => LevelX.imp (fun _ _ h => h) (fun _ _ h => gramX_succ (n := n + 1) h) (fun _ _ h => gramX_succ (n := n) h) h

theorem gramX_mono {i : Bool} {S : Text → Value → Prop} {n m : Nat} (h : n ≤ m) {w : Text} {v : Value} (hd : GramX i S n w v) :
    GramX i S m w v := by
  induction h with
  | refl => exact hd
  | step _ ih => exact gramX_succ ih

theorem levelX_length {i : Bool} {S D E : Text → Value → Prop} (hd : ∀ t v, D t v → GramX i S t.length t v)
    (he : ∀ t v, E t v → GramX i S t.length t v) {w : Text} {v : Value} (h : LevelX i S D E w v) : GramX i S w.length w v := by
  cases h with
  | level h => exact level_length_of (G := GramX i S) (fun _ _ h => h) (fun hl h => gramX_mono hl h) (fun _ _ _ h => .level h) hd he h
  | @bare l t v h1 h2 h3 h4 h5 =>
    have hlen : (c!"Some" ++ (l ++ t)).length = (l.length + t.length + 2) + 2 := by simp
    rw [hlen]
    exact .bare h1 h2 (gramX_mono (by omega) (hd _ _ h3)) h4 h5

/-- The budget is bounded by the length of the text. -/
theorem gramX_length {i : Bool} {S : Text → Value → Prop} : ∀ {n : Nat} {w : Text} {v : Value}, GramX i S n w v → GramX i S w.length w v
  | 0, _, _, h => gramX_mono (Nat.zero_le _) (show GramX i S 0 _ _ from h)
  | 1, _, _, h => levelX_length (fun _ _ h => gramX_length (n := 0) h) (fun _ _ h => h.elim) h
  | n + 2, _, _, h => levelX_length (fun _ _ h => gramX_length (n := n + 1) h) (fun _ _ h => gramX_length (n := n) h) h

/-- What is a text without the extension is one with it. -/
theorem gramX_of {i : Bool} {S : Text → Value → Prop} : ∀ {n : Nat} {w : Text} {v : Value}, Gram S n w v → GramX i S n w v
  | 0, _, _, h => h
  | 1, _, _, h => .level h
  | n + 2, _, _, h => .level (Level.imp (fun _ _ h => h) (fun _ _ h => gramX_of (n := n + 1) h) (fun _ _ h => gramX_of (n := n) h) h)

theorem LevelX.plain {S D E : Text → Value → Prop} {w : Text} {v : Value} (h : LevelX false S D E w v) : Level S D E w v := by
  cases h with
  | level h => exact h
  | bare h1 => cases h1

theorem gramX_plain {S : Text → Value → Prop} : ∀ {n : Nat} {w : Text} {v : Value}, GramX false S n w v → Gram S n w v
  | 0, _, _, h => h
  | 1, _, _, h => LevelX.plain h
  | n + 2, _, _, h => Level.imp (fun _ _ h => h) (fun _ _ h => gramX_plain (n := n + 1) h) (fun _ _ h => gramX_plain (n := n) h) (LevelX.plain h)

theorem langX_of {i : Bool} {n : Nat} {w : Text} {v : Value} (h : Lang n w v) : LangX i n w v := gramX_of h

theorem langX_plain {n : Nat} {w : Text} {v : Value} : LangX false n w v ↔ Lang n w v := ⟨gramX_plain, gramX_of⟩

/-! ### Reading -/

/-- A word followed by something that does not continue it. -/
theorem some_skips {r : Text} {d : St} (hr : NoIdentStart r) (hd : d.rest = c!"Some" ++ r) : RunsW skipIdentifier d (some c!"Some") r := by
  have hx : ∀ c ∈ c!"ome", Env.xidCont c = true := fun c hc => reserved_xid (kw := c!"Some") (by simp [reservedNames]) c (by simp_all)
  have w1 : whileLen Env.xidCont (c!"ome" ++ r) = 3 := by
    rw [whileLen_append _ _ _ hx, hr.whileLen]; rfl
  have hb : 1 + 3 ≤ d.rest.length := by rw [hd]; simp
  have hc : isIdentFirst 'S' = true := by rw [isIdentFirst_ascii (by decide)]; decide
  refine ⟨{ d with prev := d.rest, rest := r }, ?_, rfl, .step _ _ _⟩
  unfold skipIdentifier
  simp only [bind_apply, getSt_apply, ite_P]
  have e1 : startsStringLike d.rest = false ∧ startsWith d.rest c!"r#" = false := by rw [hd]; simp [startsStringLike]
  rw [e1.1, e1.2, hd]
  simp only [List.cons_append, List.nil_append] at w1
  simp only [Bool.false_eq_true, ↓reduceIte, List.cons_append, List.nil_append, hc, w1, bind_apply, advance_ok hb, pure_apply]
  simp [hd]

theorem noIdent_more {l t : Text} (hn : NoIdentStart (l ++ t)) (ht : TokStart t) (r : Text) : NoIdentStart (l ++ (t ++ r)) := by
  obtain ⟨c, u, rfl, -, -⟩ := ht
  cases l with
  | nil => intro d q e; cases e; exact hn c u rfl
  | cons b l => intro d q e; cases e; exact hn b _ rfl

theorem heads_bare {l t : Text} (hl : Layout l) (ht : TokStart t) (hn : NoIdentStart (l ++ t)) : Heads (c!"Some" ++ (l ++ t)) := by
  intro d l' q hd _ _
  obtain ⟨s, h1, h2, h3⟩ := some_skips (r := l ++ (t ++ (l' ++ q))) (noIdent_more hn ht _) (by simpa using hd)
  exact .inr ⟨_, s, l, h1, h3.toD, hl, .inr ⟨_, ht.append _, h2⟩⟩

/-- `Some` without parentheses. -/
theorem deOption_bare {α : Type} {x : Exts} {k : Nat} {vn : α} {visit : P α} {v : α} {l t l' q : Text} {d : St}
    (hi : x.implicitSome = true) (hv : Reads x k visit t v) (hp : Pre x (k + 1) d)
    (hd : d.rest = c!"Some" ++ (l ++ (t ++ (l' ++ q)))) (hl : Layout l) (hl' : Layout l') (hq : Stop q) (hn : NoIdentStart (l ++ t))
    (ho : ∀ u, t ≠ '(' :: u) : RunsTo (deOption vn visit) d v q := by
  have hf := noIdent_more hn hv.1 (l' ++ q)
  have hnone : consumeIdent c!"None" d = .ok false d := consumeIdent_false (by
    rw [hd]; exact keyword_other (t := c!"Some") (by simp [reservedNames]) (by simp [reservedNames]) hf (by simp))
  have hsome : consumeIdent c!"Some" d = .ok true { d with prev := d.rest, rest := l ++ (t ++ (l' ++ q)) } := consumeIdent_true hd hf
  obtain ⟨s1, h1, h2, h3⟩ := skipWs_tok (d := { d with prev := d.rest, rest := l ++ (t ++ (l' ++ q)) }) rfl hl (hv.1.noLayout _)
  have hk1 := (KeepsD.step d _ _).trans h3
  have hp1 := hp.keep hk1
  have hc : startsWith s1.rest ['('] = false := by
    rw [h2]
    obtain ⟨c, u, rfl, -, -⟩ := hv.1
    simp
    rintro rfl
    exact ho u rfl
  obtain ⟨s2, b, g1, g2, g3, g4⟩ := hv.guardR.2 s1 l' q hp1 h2 hl' hq
  refine ⟨s2, b, ?_, g2, g3, hk1.trans g4⟩
  unfold deOption
  simp only [bind_apply, hnone, hsome, Bool.false_eq_true, ↓reduceIte, h1, consumeChar_false hc, getSt_apply, hp1.exts, hi, g1]

theorem levelX_reads {S D E : Text → Value → Prop} {any : P Value} {x : Exts} {kD kE N : Nat} (hx : x.unwrapVariantNewtypes = false)
    (hS : ∀ t v, S t v → Reads x 0 (anyBody any) t v ∧ Heads t)
    (hD : ∀ t v, D t v → Reads x kD any t v) (hE : ∀ t v, E t v → kE + 2 ≤ N ∧ Reads x kE any t v ∧ Heads t)
    (hkD : kD + 1 ≤ N) {w : Text} {v : Value} (h : LevelX x.implicitSome S D E w v) : Reads x N (anyBody any) w v ∧ Heads w := by
  cases h with
  | level h => exact level_reads hx hS hD hE hkD h
  | @bare l t v h1 h2 h3 h4 h5 =>
    have hr := hD t v h3
    refine ⟨⟨tokStart_plain (reserved_plain (w := c!"Some") (by simp [reservedNames])) |>.append _, fun d l' q hp hd hl' hq => ?_⟩,
      heads_bare h2 hr.1 h4⟩
    have hd' : d.rest = c!"Some" ++ (l ++ (t ++ (l' ++ q))) := by simpa using hd
    obtain ⟨s', b, g⟩ := deOption_bare (vn := Value.none) h1 (hr.bind_pure Value.some) (hp.mono hkD) hd' h2 hl' hq h4 h5
    refine ⟨s', b, ?_, g.2⟩
    rw [anyBody_plain hp.nv, anyPlain_some hd' (noIdent_more h4 hr.1 _)]
    exact g.1

/-- Every text of the language is read. -/
theorem langX_reads {x : Exts} (hx : x.unwrapVariantNewtypes = false) : ∀ (n f : Nat), n < f → ∀ (w : Text) (v : Value),
    LangX x.implicitSome n w v → Reads x n (deAny f) w v ∧ Heads w := by
  have hS : ∀ any t v, Tok t v → Reads x 0 (anyBody any) t v ∧ Heads t := fun any _ _ h => tok_reads h any
  intro n
  induction n using Nat.strongRecOn with
  | ind n ih =>
    intro f hf w v h
    obtain ⟨f, rfl⟩ : ∃ g, f = g + 1 := ⟨f - 1, by omega⟩
    match n, h with
    | 0, h => exact hS _ _ _ h
    | 1, h =>
      have ih0 := ih 0 (by omega) f (by omega)
      exact levelX_reads (kD := 0) (kE := 0) hx (hS _) (fun t v h => (ih0 t v h).1) (fun t v h => h.elim) (Nat.le_refl _) h
    | n + 2, h =>
      have ih0 := ih n (by omega) f (by omega)
      have ih1 := ih (n + 1) (by omega) f (by omega)
      exact levelX_reads (kD := n + 1) (kE := n) hx (hS _) (fun t v h => (ih1 t v h).1) (fun t v h => ⟨Nat.le_refl _, ih0 t v h⟩)
        (Nat.le_refl _) h

end Ron
