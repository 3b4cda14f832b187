import Verif.Lemmas.NumText
import Verif.Lemmas.Deq
import Verif.Lemmas.Witness
import Verif.Props.C59
/-!
# C63: numbers whose type is not given

`NumberAt` and `BadNumberAt` of `Verif.Spec.AnyNumber` divide all texts (byte literals `b'..'` that are malformed are those of C59): which
number a text begins with when nothing says of which type it is, as in a `Value`, and what is left; or which error, and what is left.
`NumText` says which texts are values that are numbers or ranges.
-/

namespace Ron

variable [Env]

/-- A number is read exactly when the text begins with one. -/
theorem C63_reads (d : St) (n : Number) (r : Text) : (∃ d', anyNumber d = .ok n d' ∧ d'.rest = r) ↔ NumberAt d.rest n r :=
  number_iff

/-- Reading fails with `e`, leaving `r`, exactly when the text is bad in that way. -/
theorem C63_fails (d : St) (e : Err) (r : Text) (hb : ∀ r, d.rest ≠ 'b' :: '\'' :: r) :
    (∃ d', anyNumber d = .err e d' ∧ d'.rest = r) ↔ BadNumberAt d.rest e r := by
  constructor
  · rintro ⟨d', h, rfl⟩
    rcases number_total d.rest with ⟨n, r', hg⟩ | ⟨e, r', hg⟩
    · obtain ⟨_, h3, -⟩ := number_ok rfl hg
      rw [h3] at h; cases h
    · obtain ⟨_, h3, rfl, -⟩ := number_bad rfl hb hg
      rw [h3] at h; cases h; exact hg
  · intro h
    obtain ⟨d', h1, h2, -⟩ := number_bad rfl hb h
    exact ⟨d', h1, h2⟩

/-- Every text is one or the other, in one way only. -/
theorem C63_unique (u : Text) (hb : ∀ r, u ≠ 'b' :: '\'' :: r) :
    ((∃ n r, NumberAt u n r ∧ ∀ n' r', NumberAt u n' r' → n' = n ∧ r' = r) ∧ ∀ e r, ¬ BadNumberAt u e r) ∨
    ((∃ e r, BadNumberAt u e r ∧ ∀ e' r', BadNumberAt u e' r' → e' = e ∧ r' = r) ∧ ∀ n r, ¬ NumberAt u n r) := by
  rcases number_total u with ⟨v, r, hg⟩ | ⟨e, r, hg⟩
  · obtain ⟨_, h1, rfl, -⟩ := number_ok (s := St.init u) rfl hg
    refine .inl ⟨⟨v, _, hg, fun v' r' h => ?_⟩, fun e r h => ?_⟩
    · obtain ⟨_, h2, rfl, -⟩ := number_ok (s := St.init u) rfl h
      rw [h1] at h2; cases h2; exact ⟨rfl, rfl⟩
    · obtain ⟨_, h2, -⟩ := number_bad (s := St.init u) rfl hb h
      rw [h1] at h2; cases h2
  · obtain ⟨_, h1, rfl, -⟩ := number_bad (s := St.init u) rfl hb hg
    refine .inr ⟨⟨e, _, hg, fun v' r' h => ?_⟩, fun e r h => ?_⟩
    · obtain ⟨_, h2, rfl, -⟩ := number_bad (s := St.init u) rfl hb h
      rw [h1] at h2; cases h2; exact ⟨rfl, rfl⟩
    · obtain ⟨_, h2, -⟩ := number_ok (s := St.init u) rfl h
      rw [h1] at h2; cases h2

/-- Numbers and ranges as values. -/
theorem C63_values (w : Text) (v : Value) (h : NumHead w) : (∃ d, deValue (St.init w) = .ok v d ∧ d.rest = []) ↔ NumText w v :=
  (numText_read h).symm

/-- A text has one value only. -/
theorem C63_one_value (w : Text) (v v' : Value) (hw : NumHead w) (h : NumText w v) (h' : NumText w v') : v = v' := by
  obtain ⟨s, h1, -⟩ := (numText_read hw).1 h
  obtain ⟨s', h2, -⟩ := (numText_read hw).1 h'
  rw [h1] at h2; cases h2; rfl

theorem doc_errs' {α : Type} {seed : P α} {u r : Text} {e : Err} (hn : NoLayoutStart u) (hh : u.head? ≠ some '#')
    (hr : ∀ d : St, d.rest = u → d.nv = false → Errs seed d e r) {o : Options} {l hdr : Text} {ex : Exts} (hl : Layout l) (ha : Attrs hdr ex)
    {p : Text} (hp : l ++ (hdr ++ u) = p ++ r) :
    ∃ sp, fromStr o seed (l ++ (hdr ++ u)) = .error (e, sp) ∧ sp.stop = Position.after p := by
  obtain ⟨s1, h1, r1, e1, c1, n1, -, m1⟩ := parserNew_ok hl ha hn (head_ne hh)
    { St.init (l ++ (hdr ++ u)) with limit := o.recursionLimit } (by simp [St.init])
  obtain ⟨s2, h2, h3, h4⟩ := hr { s1 with exts := s1.exts.union o.defaultExtensions } r1 n1
  refine ⟨s2.span, ?_, ?_⟩
  · unfold fromStr readDoc deNew
    simp only [bind_apply, modSt_apply, h1, h2]
    rfl
  · have hsrc : s2.src = p ++ r := by
      rw [h4.src]
      show s1.src = _
      rw [c1, ← hp]
      rfl
    unfold St.span
    simp only [St.before, hsrc, h3]
    rw [C25_counts]
    congr 1
    simp

/-- A document that should be a value, with a malformed number: the error says what is wrong, and ends where reading stopped. -/
theorem C63_doc (o : Options) (l hdr u r p : Text) (ex : Exts) (e : Err) (hl : Layout l) (ha : Attrs hdr ex) (hu : DigitHead u)
    (hd : ¬ c!".." <+: u) (h : BadNumberAt u e r) (hp : l ++ (hdr ++ u) = p ++ r) :
    ∃ sp, fromStr o deValue (l ++ (hdr ++ u)) = .error (e, sp) ∧ sp.stop = Position.after p := by
  have hb : ∀ r, u ≠ 'b' :: '\'' :: r := by
    rintro r rfl
    obtain ⟨c, u, e, hc⟩ := hu
    cases e; revert hc; decide
  have hn : NoLayoutStart u := by
    have := (num_tokStart (.inl hu)).noLayout []
    rwa [List.append_nil] at this
  have hh : u.head? ≠ some '#' := by
    obtain ⟨c, u, rfl, hc⟩ := hu
    rintro ⟨⟩; revert hc; decide
  refine doc_errs' hn hh (fun d hd' hv => ?_) hl ha hp
  have hs : startsWith u c!".." = false := by
    cases hs : startsWith u c!".." with
    | false => rfl
    | true => rw [startsWith_iff] at hs; obtain ⟨r, rfl⟩ := hs; exact absurd ⟨_, rfl⟩ hd
  have hs' : startsWith u c!"..=" = false := by
    cases hs' : startsWith u c!"..=" with
    | false => rfl
    | true =>
      rw [startsWith_iff] at hs'; obtain ⟨r, rfl⟩ := hs'
      exact absurd ⟨'=' :: r, rfl⟩ hd
  obtain ⟨s', h1, h2, h3⟩ := number_bad hd' hb h
  refine ⟨s', ?_, h2, h3⟩
  unfold deValue
  rw [bind_apply, getSt_apply]
  show anyBody _ d = _
  rw [anyBody_plain hv, anyPlain_numeric (by rw [hd']; exact .inl hu)]
  unfold numeric
  simp only [bind_apply, getSt_apply, consumeStr_apply, hd', hs, hs', Bool.false_eq_true, ↓reduceIte, h1]

/-- Integers get the smallest type, unless a suffix names one; signs make them signed. -/
example : (let _ : Env := asciiEnv true true; NumberAt c!"255" (.int .u8 255) [] ∧ NumberAt c!"256]" (.int .u16 256) c!"]" ∧
    NumberAt c!"-129" (.int .i16 (-129)) [] ∧ NumberAt c!"7i64," (.int .i64 7) c!"," ∧ NumberAt c!"b'a'..9" (.int .u8 97) c!"..9") := by
  intro _
  refine ⟨number_iff (s := St.init _) |>.1 ?_, number_iff (s := St.init _) |>.1 ?_, number_iff (s := St.init _) |>.1 ?_,
    number_iff (s := St.init _) |>.1 ?_, number_iff (s := St.init _) |>.1 ?_⟩
  all_goals exact ⟨_, rfl, rfl⟩

/-- Errors: too large for the suffix, which is found after it; an underscore first. -/
example : (let _ : Env := asciiEnv true true; BadNumberAt c!"300u8," .integerOutOfBounds c!"," ∧
    BadNumberAt c!"_1" .underscoreAtBeginning c!"_1") := by
  intro _
  refine ⟨C63_fails (St.init _) _ _ ?_ |>.1 ⟨_, rfl, rfl⟩, C63_fails (St.init _) _ _ ?_ |>.1 ⟨_, rfl, rfl⟩⟩
  all_goals (intro r h; cases h)

/-- What is too large for every integer is a float. -/
example : (let _ : Env := asciiEnv true true; ∃ n, NumberAt c!"340282366920938463463374607431768211456" n [] ∧ ∀ T v, n ≠ .int T v) := by
  intro _
  refine ⟨.f32 0, number_iff (s := St.init _) |>.1 ?_, fun _ _ h => by cases h⟩
  exact ⟨{ St.init c!"340282366920938463463374607431768211456" with rest := [] }, by decide +kernel, rfl⟩

/-- A range. -/
example : (let _ : Env := asciiEnv true true; NumText c!"1..=500" (.map (mapOfList [(.str c!"start", .num (.int .u8 1)), (.str c!"end", .num (.int .u16 500))]))) := by
  intro _
  exact .startLast (v := c!"500") (number_iff (s := St.init _) |>.1 ⟨_, rfl, rfl⟩) (number_iff (s := St.init _) |>.1 ⟨_, rfl, rfl⟩)

end Ron
