import Verif.Lemmas.Eat
import Verif.Lemmas.Seps
import Verif.Lemmas.Feed
import Verif.Lemmas.TyDoc
import Verif.Lemmas.Deq
import Verif.Lemmas.Witness
/-!
# C45: without implicit_some options are explicit
-/

set_option linter.unusedSimpArgs false

namespace Ron

section
variable [Env]

/-- Without `implicit_some` an option is read only from `None` or from `Some(…)` around data of the payload. -/
theorem C45_read (D : Nat → Ty) (f : Nat) (T : Ty) (s s' : St) (v : SVal) (hx : s.exts.implicitSome = false)
    (h : deTy D f (.option T) s = .ok v s') :
    (v = .none ∧ s.rest = c!"None" ++ s'.rest ∧ NoIdentStart s'.rest) ∨
    ∃ u l r s1 s2, v = .some u ∧ s.rest = c!"Some" ++ (l ++ '(' :: r) ∧ Layout l ∧ deTy D (f - 1) T s1 = .ok u s2 := by
  cases f with
  | zero => cases h
  | succ f =>
    simp only [deTy] at h
    unfold deOption at h
    replace h := bind_ok h; obtain ⟨b, s1, h1, h⟩ := h
    rcases consumeIdent_inv h1 with ⟨rfl, e1, e2, -⟩ | ⟨rfl, rfl⟩
    · simp only [↓reduceIte, Bool.false_eq_true] at h
      cases h
      exact .inl ⟨rfl, e1, e2⟩
    · simp only [↓reduceIte, Bool.false_eq_true] at h
      replace h := bind_ok h; obtain ⟨b, s2, h2, h⟩ := h
      replace h := bind_ok h; obtain ⟨o, s3, h3, h⟩ := h
      rcases consumeIdent_inv h2 with ⟨rfl, e1, e2, k1⟩ | ⟨rfl, rfl⟩
      · simp only [↓reduceIte, Bool.false_eq_true] at h3
        replace h3 := bind_ok h3; obtain ⟨_, s4, h4, h3⟩ := h3
        rcases consumeChar_inv h3 with ⟨rfl, e3, e4⟩ | ⟨rfl, rfl, -⟩
        · simp only [↓reduceIte, Bool.false_eq_true] at h
          obtain ⟨-, l, e5, hl, -⟩ := skipWs_inv_ne h4 (by rw [e3]; simp)
          replace h := bind_ok h; obtain ⟨_, s5, -, h⟩ := h
          replace h := bind_ok h; obtain ⟨_, s6, -, h⟩ := h
          replace h := bind_ok h; obtain ⟨u, s7, h7, h⟩ := h
          replace h := bind_ok h; obtain ⟨_, s8, -, h⟩ := h
          replace h := bind_ok h; obtain ⟨_, s9, -, h⟩ := h
          replace h := bind_ok h; obtain ⟨b, s10, -, h⟩ := h
          obtain ⟨t, _, h7, -⟩ := deGuardQ_inv h7
          replace h7 := bind_ok h7; obtain ⟨w, s11, h7, h8⟩ := h7
          cases h8
          cases b
          · simp only [↓reduceIte, Bool.false_eq_true] at h; cases h
          · simp only [↓reduceIte, Bool.false_eq_true] at h
            cases h
            exact .inr ⟨w, l, s3.rest, _, _, rfl, by rw [e1, e5, e3], hl, h7⟩
        · simp only [↓reduceIte, Bool.false_eq_true] at h
          replace h := bind_ok h; obtain ⟨_, s5, h5, h⟩ := h
          cases h5
          rw [show s3.exts.implicitSome = false from ?_] at h
          · simp only [↓reduceIte, Bool.false_eq_true] at h
            cases h
          · rw [(skipWs_inv h4).1.exts, k1.exts, hx]
      · simp only [↓reduceIte, Bool.false_eq_true] at h3
        cases h3
        simp only [↓reduceIte, Bool.false_eq_true] at h
        replace h := bind_ok h; obtain ⟨_, s5, h5, h⟩ := h
        cases h5
        simp only [hx, ↓reduceIte, Bool.false_eq_true] at h
        cases h

/-- Without `implicit_some` the writer marks every present option. -/
theorem C45_write (s s' : Ser) (v : SVal) (hq : s.Quiet) (hf : s.w.Fresh) (hx : s.extensions.implicitSome = false)
    (h : ser (.some v) s = .ok () s') : ∃ w, s'.w.out = s.w.out ++ (c!"Some(" ++ (w ++ c!")")) := by
  simp only [ser] at h
  unfold serSome at h
  obtain ⟨_, _, h1, h⟩ := wbind_ok h
  cases h1
  rw [hx] at h
  simp only [Bool.false_eq_true, ↓reduceIte] at h
  obtain ⟨_, s1, h1, h⟩ := wbind_ok h
  obtain ⟨_, s2, h2, h⟩ := wbind_ok h
  obtain ⟨_, s3, h3, h⟩ := wbind_ok h
  obtain ⟨_, s4, h4, h⟩ := wbind_ok h
  have q1 : s1.Quiet ∧ s1.w = s.w := by cases h1; exact ⟨hq, rfl⟩
  rw [write_quiet q1.1] at h2
  cases h2
  have K := feeds_walk
  obtain ⟨⟨w, e3⟩, q3, -⟩ := (K.guardQ (K.ser v)).appends (s := s1.put c!"Some(") q1.1 (by rw [show (s1.put c!"Some(").w.Fresh = s1.w.Fresh from rfl, q1.2]; exact hf) h3
  rw [write_quiet q3] at h4
  cases h4
  cases h
  refine ⟨w, ?_⟩
  show s3.w.out ++ c!")" = _
  rw [e3]
  simp [Ser.put, q1.2]

end

/-- Both forms are read, and nothing else. -/
example : ∃ _ : Env,
    fromStr {} (deTy (fun _ => .unit) 2 (.option .bool)) c!"None" = .ok .none ∧
    fromStr {} (deTy (fun _ => .unit) 2 (.option .bool)) c!"Some (true)" = .ok (.some (.bool true)) ∧
    (∃ e, fromStr {} (deTy (fun _ => .unit) 2 (.option .bool)) c!"true" = .error e) := by
  refine ⟨asciiEnv true true, ?_⟩
  let _ : Env := asciiEnv true true
  exact ⟨by decide +kernel, by decide +kernel, ⟨_, rfl⟩⟩

end Ron
