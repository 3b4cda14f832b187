import Verif.Spec.Raw
import Verif.Lemmas.LangDoc
/-!
# Items with layout around them
-/

namespace Ron

variable [Env]

theorem Tail.pad {l t : Text} (hl : Layout l) (h : Tail t) : Tail (l ++ t) := by
  cases h with
  | plain h => exact .plain (hl.append h)
  | comma h h' =>
    rw [← List.append_assoc]
    exact .comma (hl.append h) h'

/-- The layout around the first and around the last item comes out. -/
theorem body_pad {α : Type} {R R' : Text → α → Prop}
    (hR : ∀ t a, R t a → ∃ l w l', t = l ++ (w ++ l') ∧ Layout l ∧ R' w a ∧ Layout l') {ts : List Text} {u : Text} (h : Body ts u) :
    ∀ {as : List α}, All2 R ts as →
      ∃ l u' l' ws, u = l ++ (u' ++ l') ∧ Layout l ∧ Layout l' ∧ Body ws u' ∧ All2 R' ws as := by
  induction h with
  | @one t =>
    intro as ha
    match as, ha with
    | [a], ⟨h1, h2⟩ =>
      obtain ⟨l, w, l', rfl, g1, g2, g3⟩ := hR _ _ h1
      exact ⟨l, w, l', [w], rfl, g1, g3, .one, g2, trivial⟩
  | @cons t b a u ts hb ha hbody ih =>
    intro as has
    match as, has with
    | a1 :: as, ⟨h1, h2⟩ =>
      obtain ⟨l, w, l', rfl, g1, g2, g3⟩ := hR _ _ h1
      obtain ⟨m, u', m', ws, rfl, k1, k2, k3, k4⟩ := ih h2
      refine ⟨l, w ++ ((l' ++ b) ++ ',' :: ((a ++ m) ++ u')), m', w :: ws, ?_, g1, k2,
        .cons (g3.append hb) (ha.append k1) k3, g2, k4⟩
      simp

theorem delim_pad {α : Type} {R R' : Text → α → Prop}
    (hR : ∀ t a, R t a → ∃ l w l', t = l ++ (w ++ l') ∧ Layout l ∧ R' w a ∧ Layout l') {o c : Char} {ts : List Text} {w : Text}
    {as : List α} (h : Delim o c ts w) (ha : All2 R ts as) : ∃ ws, Delim o c ws w ∧ All2 R' ws as := by
  cases h with
  | nil h =>
    match as, ha with
    | [], _ => exact ⟨[], .nil h, trivial⟩
  | @items a u t ts hl hb ht =>
    obtain ⟨l, u', l', ws, rfl, g1, g2, g3, g4⟩ := body_pad hR hb ha
    refine ⟨ws, ?_, g4⟩
    have := Delim.items (o := o) (c := c) (hl.append g1) g3 (ht.pad g2)
    simpa using this

/-- One level of the grammar whose parts have layout around them is one level of the grammar. -/
theorem level_pad {S D E : Text → Value → Prop} {w : Text} {v : Value} (h : Level S (Pad D) (Pad E) w v) : Level S D E w v := by
  cases h with
  | scalar h => exact .scalar h
  | @some l a t b v hl ha ht hb =>
    obtain ⟨m, w, m', rfl, g1, g2, g3⟩ := ht
    have := Level.some (S := S) (E := E) hl (ha.append g1) g2 (hb.pad g3)
    simpa using this
  | seq h1 h2 =>
    obtain ⟨ws, g1, g2⟩ := delim_pad (R' := E) (fun _ _ h => h) h2 h1
    exact .seq g2 g1
  | map h1 h2 =>
    have key := delim_pad (R' := fun e kv => ∃ k v, E k kv.1 ∧ E v kv.2 ∧ Entry k v e) (fun t kv h => by
      obtain ⟨k, v, ⟨l1, k', l2, rfl, a1, a2, a3⟩, ⟨l3, v', l4, rfl, b1, b2, b3⟩, @⟨m, m', hm, hm'⟩⟩ := h
      refine ⟨l1, k' ++ ((l2 ++ m) ++ ':' :: ((m' ++ l3) ++ v')), l4, by simp, a1,
        ⟨k', v', a2, b2, .mk (a3.append hm) (hm'.append b1)⟩, b3⟩) h2 h1
    obtain ⟨ws, g1, g2⟩ := key
    exact .map g2 g1
  | tuple hp h1 h2 hne =>
    obtain ⟨ws, g1, g2⟩ := delim_pad (R' := E) (fun _ _ h => h) h2 h1
    exact .tuple hp g2 g1 hne
  | @struct p w es fs hp hne h1 h2 =>
    have key := delim_pad (R' := fun e (f : Text × Value) => ∃ k v, KeyTok f.1 k ∧ E v f.2 ∧ Entry k v e) (fun t f h => by
      obtain ⟨k, v, hk, ⟨l3, v', l4, rfl, b1, b2, b3⟩, @⟨m, m', hm, hm'⟩⟩ := h
      refine ⟨[], k ++ (m ++ ':' :: ((m' ++ l3) ++ v')), l4, by simp, .nil, ⟨k, v', hk, b2, .mk hm (hm'.append b1)⟩, b3⟩) h2 h1
    obtain ⟨ws, g1, g2⟩ := key
    exact .struct hp hne g2 g1

omit [Env] in
/-- A sequence of texts. -/
theorem joinComma_body : ∀ (t : Text) (ts : List Text), Body (t :: ts) (joinComma (t :: ts))
  | t, [] => .one
  | t, u :: ts => by
    have := Body.cons (t := t) Layout.nil Layout.nil (joinComma_body u ts)
    simpa [joinComma] using this

omit [Env] in
theorem joinComma_delim (o c : Char) (ts : List Text) : Delim o c ts (o :: (joinComma ts ++ [c])) := by
  cases ts with
  | nil => exact .nil (a := []) .nil
  | cons t ts =>
    have := Delim.items (o := o) (c := c) (a := []) .nil (joinComma_body t ts) (.plain .nil)
    simpa using this

end Ron
