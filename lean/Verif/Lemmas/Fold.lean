import Verif.Model.Tagged
import Verif.Lemmas.Reader
/-! The loop of a `visit_map` on the text of a map or struct. -/

set_option linter.unusedSectionVars false

namespace Ron

/-- The entries take the state `st` to `st'`. -/
def FoldReads {κ σ : Type} (x : Exts) (n : Nat) (key : P κ) (check : σ → κ → Except Err Unit) (val : σ → κ → P σ) : List Text → σ → σ → Prop
  | [], st, st' => st = st'
  | e :: ts, st, st' => ∃ kt vt k st1, Reads x n key kt k ∧ check st k = .ok () ∧ Reads x n (val st k) vt st1 ∧ Entry kt vt e ∧
      FoldReads x n key check val ts st1 st'

theorem FoldReads.tokStart {κ σ : Type} {x : Exts} {n : Nat} {key : P κ} {check : σ → κ → Except Err Unit} {val : σ → κ → P σ} :
    ∀ {ts : List Text} {st st' : σ}, FoldReads x n key check val ts st st' → ∀ t ∈ ts, TokStart t
  | [], _, _, _, t, h => by simp at h
  | e :: ts, st, st', ⟨kt, vt, k, st1, h1, _, _, h4, h5⟩, t, ht => by
    rcases List.mem_cons.mp ht with rfl | ht
    · cases h4 with
      | mk _ _ => exact h1.1.append _
    · exact FoldReads.tokStart h5 t ht

theorem foldLoop_body {κ σ : Type} {x : Exts} {n : Nat} {term : Char} {key : P κ} {check : σ → κ → Except Err Unit} {val : σ → κ → P σ}
    (hterm : term ∈ [')', ']', '}']) {ts : List Text} {u : Text} (hu : Body ts u) : ∀ (f : Nat) (st st' : σ) (d : St) (l b r : Text),
    FoldReads x n key check val ts st st' → Pre x (n + 1) d → d.rest = l ++ (u ++ (b ++ term :: r)) → Layout l → Tail b →
    ts.length < f →
    ∃ s', foldLoop term key check val f true st d = .ok st' s' ∧ s'.rest = term :: r ∧ KeepsD d s' := by
  induction hu with
  | @one t =>
    intro f st st' d l b r h2 hp hd hl hb hf
    obtain ⟨f, rfl⟩ : ∃ g, f = g + 1 + 1 := ⟨f - 2, by simp at hf; omega⟩
    obtain ⟨kt, vt, k, st1, hk, hc, hv, he, rfl⟩ := h2
    cases he with
    | @mk l1 l2 hl1 hl2 =>
      obtain ⟨s1, b1, h1, h3, h4, h5⟩ := nextKey_ok (r := l2 ++ (vt ++ (b ++ term :: r))) hp hterm hk (by simpa using hd) hl hl1
      obtain ⟨had, s2, g1, g3, g4⟩ := nextValue_last (hp.keep h5) hterm hv h3 h4 hl2 hb
      obtain ⟨s3, m1, m3, m4⟩ := nextKey_end (key := key) had hterm (l := []) g3 layout_nil
      refine ⟨s3, ?_, m3, h5.trans (g4.trans m4)⟩
      rw [foldLoop]
      simp only [bind_apply, h1, hc, liftE, pure_apply, g1]
      rw [foldLoop]
      simp only [bind_apply, m1, pure_apply]
  | @cons t b' a u ts hb' ha hu ih =>
    intro f st st' d l b r h2 hp hd hl hb hf
    obtain ⟨f, rfl⟩ : ∃ g, f = g + 1 := ⟨f - 1, by simp at hf; omega⟩
    obtain ⟨kt, vt, k, st1, hk, hc, hv, he, h2'⟩ := h2
    have hts := h2'.tokStart
    cases he with
    | @mk l1 l2 hl1 hl2 =>
      obtain ⟨s1, b1, h1, h3, h4, h5⟩ := nextKey_ok (r := l2 ++ (vt ++ (b' ++ ',' :: (a ++ (u ++ (b ++ term :: r))))))
        hp hterm hk (by simpa using hd) hl hl1
      obtain ⟨s2, g1, g3, g4⟩ := nextValue_more (hp.keep h5) hv h3 h4 hl2 hb' ha ((hu.tokStart hts).noLayout _)
      obtain ⟨s3, m1, m3, m4⟩ := ih f st1 st' s2 [] b r h2' (hp.keep (h5.trans g4)) (by simpa using g3) layout_nil hb
        (by simp at hf; omega)
      refine ⟨s3, ?_, m3, h5.trans (g4.trans m4)⟩
      rw [foldLoop]
      simp only [bind_apply, h1, hc, liftE, pure_apply, g1, m1]

theorem foldMap_inner {κ σ : Type} {x : Exts} {n : Nat} {term : Char} {key : P κ} {check : σ → κ → Except Err Unit} {val : σ → κ → P σ}
    (hterm : term ∈ [')', ']', '}']) {ts : List Text} {w : Text} (hw : Inner term ts w) {st st' : σ} {d : St} {r : Text}
    (h2 : FoldReads x n key check val ts st st') (hp : Pre x (if ts = [] then 0 else n + 1) d) (hd : d.rest = w ++ r) :
    ∃ s', foldMap term key check val st d = .ok st' s' ∧ s'.rest = term :: r ∧ KeepsD d s' := by
  unfold foldMap
  simp only [bind_apply, getSt_apply]
  cases hw with
  | @nil a ha =>
    cases h2
    obtain ⟨s2, g1, g3, g4⟩ := nextKey_end (key := key) true hterm (l := a) (r := r) (by simpa using hd) ha
    refine ⟨s2, ?_, g3, g4⟩
    rw [foldLoop]
    simp only [bind_apply, g1, pure_apply]
  | @items a u t _ ha hu ht =>
    rw [if_neg (body_ne hu)] at hp
    have hlen := hu.length h2.tokStart
    exact foldLoop_body hterm hu _ st st' d a t r h2 hp (by simpa using hd) ha ht (by rw [hd]; simp; omega)

/-- Reading at the text fails, whatever follows. -/
def FailsAt {α : Type} (x : Exts) (n : Nat) (seed : P α) (t : Text) (err : Err) : Prop :=
  TokStart t ∧ ∀ (d : St) (r : Text), Pre x n d → d.rest = t ++ r → ∃ s', seed d = .err err s'

theorem deGuardQ_fails {α : Type} {f : P α} {s : St} {n : Nat} (hb : Budget s (n + 1)) {e : Err}
    (h : ∃ s', f { s with limit := s.limit.map (· - 1) } = .err e s') : ∃ s', deGuardQ f s = .err e s' := by
  obtain ⟨s', h⟩ := h
  refine ⟨s', ?_⟩
  unfold deGuardQ
  cases hs : s.limit with
  | none => rw [hs] at h; simp only [h]
  | some m =>
    have := hb m hs
    cases m with
    | zero => omega
    | succ m => rw [hs] at h; simp only [h]

theorem nextValue_fails {α : Type} {x : Exts} {k : Nat} {seed : P α} {d : St} {l l' t r : Text} {e : Err}
    (hp : Pre x (k + 1) d) (ht : FailsAt x k seed t e) (hd : d.rest = l ++ ':' :: (l' ++ (t ++ r))) (hl : Layout l) (hl' : Layout l') :
    ∃ s', nextValue seed d = .err e s' := by
  obtain ⟨s1, h1, h2, h3⟩ := skipWs_tok hd hl (noLayout_colon _)
  obtain ⟨s2, g1, g2, g3⟩ := skipWs_tok (d := { s1 with prev := s1.rest, rest := l' ++ (t ++ r) }) rfl hl' (ht.1.noLayout _)
  have hk2 : KeepsD d s2 := h3.trans ((KeepsD.step _ _ _).trans g3)
  have hp2 := hp.keep hk2
  obtain ⟨s3, k1⟩ := deGuardQ_fails hp2.budget (ht.2 _ r hp2.lower g2)
  refine ⟨s3, ?_⟩
  unfold nextValue
  simp only [bind_apply, h1, consumeChar_true h2, ↓reduceIte, g1, k1]

theorem structAfterName_fails {α : Type} {x : Exts} {k : Nat} {visit : P α} {d : St} {w : Text} {e : Err}
    (hp : Pre x (k + 1) d) (hd : d.rest = '(' :: w) (hv : ∀ d : St, Pre x k d → d.rest = w → ∃ s', visit d = .err e s') :
    ∃ s', structAfterName [] visit d = .err (structErrorName none e) s' := by
  let d1 : St := { d with nv := false, prev := d.rest, rest := w }
  have hk1 : KeepsD d d1 := ⟨rfl, rfl, rfl, fun _ => rfl⟩
  have hp1 : Pre x (k + 1) d1 := ⟨rfl, hp.exts, hp.budget.keep hk1⟩
  obtain ⟨s1, h1⟩ := hv _ hp1.lower rfl
  obtain ⟨s2, g1⟩ := deGuardQ_fails (f := mapErr (structErrorName none) visit) (e := structErrorName none e) hp1.budget
    ⟨s1, by simp only [mapErr, h1]⟩
  refine ⟨s2, ?_⟩
  unfold structAfterName
  have hnv := hp.nv
  have e0 : consumeChar '(' d = .ok true { d with prev := d.rest, rest := w } := consumeChar_true hd
  have e1 : ({ d with nv := false, prev := d.rest, rest := w } : St) = d1 := rfl
  simp only [bind_apply, getSt_apply, hnv, Bool.false_eq_true, ↓reduceIte, e0, setNv_apply, List.isEmpty_nil, Bool.not_true, Bool.and_false]
  rw [e1, g1]

theorem deMap_fails {α : Type} {x : Exts} {k : Nat} {visit : P α} {d : St} {w : Text} {e : Err}
    (hp : Pre x (k + 1) d) (hd : d.rest = '{' :: w) (hv : ∀ d : St, Pre x k d → d.rest = w → ∃ s', visit d = .err e s') :
    ∃ s', deMap visit d = .err e s' := by
  let d1 : St := { d with nv := false, prev := d.rest, rest := w }
  have hk1 : KeepsD d d1 := ⟨rfl, rfl, rfl, fun _ => rfl⟩
  have hp1 : Pre x (k + 1) d1 := ⟨rfl, hp.exts, hp.budget.keep hk1⟩
  obtain ⟨s2, g1⟩ := deGuardQ_fails hp1.budget (hv _ hp1.lower rfl)
  refine ⟨s2, ?_⟩
  unfold deMap
  have e0 : consumeChar '{' { d with nv := false } = .ok true d1 := consumeChar_true (s := { d with nv := false }) hd
  simp only [bind_apply, setNv_apply, e0, ↓reduceIte, g1]

/-- The entries `ts` take the state to one in which the check of the next key, or its value, fails. -/
def FoldFails {κ σ : Type} (x : Exts) (n : Nat) (key : P κ) (check : σ → κ → Except Err Unit) (val : σ → κ → P σ) (err : Err) :
    List Text → σ → Prop
  | [], _ => False
  | e :: ts, st => TokStart e ∧ (∀ t ∈ ts, TokStart t) ∧ ((∃ kt vt k, Reads x n key kt k ∧ check st k = .error err ∧ Entry kt vt e) ∨
      (∃ kt vt k, Reads x n key kt k ∧ check st k = .ok () ∧ FailsAt x n (val st k) vt err ∧ Entry kt vt e) ∨
      ∃ kt vt k st1, Reads x n key kt k ∧ check st k = .ok () ∧ Reads x n (val st k) vt st1 ∧ Entry kt vt e ∧ FoldFails x n key check val err ts st1)

theorem foldLoop_fails {κ σ : Type} {x : Exts} {n : Nat} {term : Char} {key : P κ} {check : σ → κ → Except Err Unit} {val : σ → κ → P σ} {err : Err}
    (hterm : term ∈ [')', ']', '}']) {ts : List Text} {u : Text} (hu : Body ts u) : ∀ (f : Nat) (st : σ) (d : St) (l b r : Text),
    FoldFails x n key check val err ts st → Pre x (n + 1) d → d.rest = l ++ (u ++ (b ++ term :: r)) → Layout l →
    ts.length < f → ∃ s', foldLoop term key check val f true st d = .err err s' := by
  have stop : ∀ (f : Nat) (st : σ) (d : St) (l e kt vt q : Text) (k : κ), Reads x n key kt k → check st k = .error err → Entry kt vt e →
      Pre x (n + 1) d → d.rest = l ++ (e ++ q) → Layout l → ∃ s', foldLoop term key check val (f + 1) true st d = .err err s' := by
    intro f st d l e kt vt q k hk hc he hp hd hl
    cases he with
    | @mk l1 l2 hl1 hl2 =>
      obtain ⟨s1, b1, h1, h3, h4, h5⟩ := nextKey_ok (r := l2 ++ (vt ++ q)) hp hterm hk (by simpa using hd) hl hl1
      refine ⟨s1, ?_⟩
      rw [foldLoop]
      simp only [bind_apply, h1, hc, liftE]
      rfl
  have stop2 : ∀ (f : Nat) (st : σ) (d : St) (l e kt vt q : Text) (k : κ), Reads x n key kt k → check st k = .ok () →
      FailsAt x n (val st k) vt err → Entry kt vt e →
      Pre x (n + 1) d → d.rest = l ++ (e ++ q) → Layout l → ∃ s', foldLoop term key check val (f + 1) true st d = .err err s' := by
    intro f st d l e kt vt q k hk hc hv he hp hd hl
    cases he with
    | @mk l1 l2 hl1 hl2 =>
      obtain ⟨s1, b1, h1, h3, h4, h5⟩ := nextKey_ok (r := l2 ++ (vt ++ q)) hp hterm hk (by simpa using hd) hl hl1
      obtain ⟨s2, g1⟩ := nextValue_fails (hp.keep h5) hv h3 h4 hl2
      refine ⟨s2, ?_⟩
      rw [foldLoop]
      simp only [bind_apply, h1, hc, liftE, pure_apply, g1]
  induction hu with
  | @one t =>
    intro f st d l b r h2 hp hd hl hf
    obtain ⟨f, rfl⟩ : ∃ g, f = g + 1 := ⟨f - 1, by simp at hf; omega⟩
    obtain ⟨-, -, ⟨kt, vt, k, hk, hc, he⟩ | ⟨kt, vt, k, hk, hc, hv, he⟩ | ⟨_, _, _, _, _, _, _, _, h⟩⟩ := h2
    · exact stop f st d l t kt vt _ k hk hc he hp hd hl
    · exact stop2 f st d l t kt vt _ k hk hc hv he hp hd hl
    · exact h.elim
  | @cons t b' a u ts hb' ha hu ih =>
    intro f st d l b r h2 hp hd hl hf
    obtain ⟨f, rfl⟩ : ∃ g, f = g + 1 := ⟨f - 1, by simp at hf; omega⟩
    obtain ⟨-, hts, ⟨kt, vt, k, hk, hc, he⟩ | ⟨kt, vt, k, hk, hc, hv, he⟩ | ⟨kt, vt, k, st1, hk, hc, hv, he, h2'⟩⟩ := h2
    · exact stop f st d l t kt vt (b' ++ ',' :: (a ++ (u ++ (b ++ term :: r)))) k hk hc he hp (by simpa using hd) hl
    · exact stop2 f st d l t kt vt (b' ++ ',' :: (a ++ (u ++ (b ++ term :: r)))) k hk hc hv he hp (by simpa using hd) hl
    · cases he with
      | @mk l1 l2 hl1 hl2 =>
        obtain ⟨s1, b1, h1, h3, h4, h5⟩ := nextKey_ok (r := l2 ++ (vt ++ (b' ++ ',' :: (a ++ (u ++ (b ++ term :: r))))))
          hp hterm hk (by simpa using hd) hl hl1
        obtain ⟨s2, g1, g3, g4⟩ := nextValue_more (hp.keep h5) hv h3 h4 hl2 hb' ha ((hu.tokStart hts).noLayout _)
        obtain ⟨s3, m1⟩ := ih f st1 s2 [] b r h2' (hp.keep (h5.trans g4)) (by simpa using g3) layout_nil (by simp at hf; omega)
        refine ⟨s3, ?_⟩
        rw [foldLoop]
        simp only [bind_apply, h1, hc, liftE, pure_apply, g1, m1]

theorem FoldFails.tokStart {κ σ : Type} {x : Exts} {n : Nat} {key : P κ} {check : σ → κ → Except Err Unit} {val : σ → κ → P σ} {err : Err}
    {ts : List Text} {st : σ} (h : FoldFails x n key check val err ts st) : ∀ t ∈ ts, TokStart t := by
  cases ts with
  | nil => exact h.elim
  | cons e ts =>
    intro t ht
    rcases List.mem_cons.mp ht with rfl | ht
    · exact h.1
    · exact h.2.1 t ht

theorem foldMap_fails {κ σ : Type} {x : Exts} {n : Nat} {term : Char} {key : P κ} {check : σ → κ → Except Err Unit} {val : σ → κ → P σ} {err : Err}
    (hterm : term ∈ [')', ']', '}']) {ts : List Text} {w : Text} (hw : Inner term ts w) {st : σ} {d : St} {r : Text}
    (h2 : FoldFails x n key check val err ts st) (hp : Pre x (n + 1) d) (hd : d.rest = w ++ r) :
    ∃ s', foldMap term key check val st d = .err err s' := by
  unfold foldMap
  simp only [bind_apply, getSt_apply]
  cases hw with
  | nil ha => exact h2.elim
  | @items a u t _ ha hu ht =>
    have hlen := hu.length h2.tokStart
    exact foldLoop_fails hterm hu _ st d a t r h2 hp (by simpa using hd) ha (by rw [hd]; simp; omega)

end Ron
