import Verif.Lemmas.Feed
import Verif.Lemmas.Witness
import Verif.Lemmas.Deq
/-! # C32: writer failures always surface and the output is a prefix -/

namespace Ron

section
variable [Env]

/-- The serializer makes a sequence of writes that depends on the data and the configuration only.  `to_writer` hands
them to the writer in order, stops at the first one that fails, and then returns an error.  `to_io_writer` returns the
error of the writer.  Without a failure, the result is that of `to_string`. -/
theorem C32_writes (o : Options) (c : Option PrettyConfig) (v : SVal) :
    ∃ ts, ∃ r : Except Err Unit, toText o c v = r.map (fun _ => ts.flatten) ∧
      ∀ w : Writer, w.failed = false →
        toIoWriter o c w v = (if (feed w ts).failed then .error (.io []) else r, (feed w ts).out) ∧
        (∃ s, s.w = feed w ts ∧ toWriter o c w v =
          if (feed w ts).failed then .err .fmt s else match r with | .ok _ => .ok () s | .error e => .err e s) := by
  have hF : Feeds (do serNew; ser v : W Unit) := feeds_walk.bind feeds_walk.serNew fun _ => feeds_walk.ser v
  obtain ⟨ts, r, h⟩ := hF (Ser.init o c {})
  have key : ∀ w : Writer, w.Fresh → Delivers (toWriter o c w v) r (feed w ts) := h
  have hq : (feed {} ts).failed = false := feed_quiet (w := {}) (fun _ _ => rfl) (show false = false from rfl) ts
  have hout := feed_out hq
  have htext := (key {} (show false = false from rfl)).1 hq
  clear h hF
  let R : WRes Unit → Except Err Unit := fun r => match r with | .ok _ _ => .ok () | .err e _ => .error e
  refine ⟨ts, R r, ?_, fun w hw => ⟨?_, ?_⟩⟩
  · unfold toText
    rw [htext]
    cases r with
    | ok a s => simp only [WRes.setW, hout]; rfl
    | err e s => rfl
  · obtain ⟨h1, h2⟩ := key w hw
    unfold toIoWriter
    cases hc : (feed w ts).failed with
    | false => rw [h1 hc]; cases r <;> simp [R, WRes.setW, hc]
    | true =>
      obtain ⟨s, h2⟩ := h2 hc
      rw [h2]
      simp [hc]
  · obtain ⟨h1, h2⟩ := key w hw
    cases hc : (feed w ts).failed with
    | false =>
      rw [h1 hc]
      cases r with
      | ok a s => exact ⟨{ s with w := feed w ts }, rfl, by simp [R, WRes.setW]⟩
      | err e s => exact ⟨{ s with w := feed w ts }, rfl, by simp [R, WRes.setW]⟩
    | true =>
      obtain ⟨s, h2⟩ := h2 hc
      exact ⟨{ s with w := feed w ts }, rfl, by simp [h2]⟩

/-- If `to_io_writer` succeeds, the writer received exactly the text of `to_string`. -/
theorem C32_success_is_complete (o : Options) (c : Option PrettyConfig) (v : SVal) (w : Writer) (hw : w.failed = false)
    (h : (toIoWriter o c w v).1 = .ok ()) : ∃ t, toText o c v = .ok t ∧ (toIoWriter o c w v).2 = w.out ++ t := by
  obtain ⟨ts, r, ht, hA⟩ := C32_writes o c v
  have hi := (hA w hw).1
  rw [hi] at h ⊢
  cases hc : (feed w ts).failed with
  | true => rw [hc] at h; cases h
  | false =>
    rw [hc] at h
    simp only [Bool.false_eq_true, if_false] at h
    subst h
    exact ⟨ts.flatten, ht, feed_out hc⟩

/-- Whatever the writer does, it received a prefix of the text of `to_string`, and the error is the error of the
writer. -/
theorem C32_prefix (o : Options) (c : Option PrettyConfig) (v : SVal) (w : Writer) (hw : w.failed = false) {t : Text}
    (h : toText o c v = .ok t) :
    ∃ p, p <+: t ∧ (toIoWriter o c w v).2 = w.out ++ p ∧
      ((toIoWriter o c w v).1 = .ok () ∧ p = t ∨ (toIoWriter o c w v).1 = .error (.io [])) := by
  obtain ⟨ts, r, ht, hA⟩ := C32_writes o c v
  have hi := (hA w hw).1
  rw [hi]
  obtain ⟨p, h1, h2⟩ := feed_prefix (w := w) ts
  cases r with
  | error e => rw [h] at ht; cases ht
  | ok u =>
    rw [h] at ht
    have : t = ts.flatten := by simpa [Except.map] using ht
    subst this
    refine ⟨p, h2, h1, ?_⟩
    cases hc : (feed w ts).failed with
    | true => exact .inr rfl
    | false =>
      refine .inl ⟨rfl, ?_⟩
      rw [feed_out hc] at h1
      exact (List.append_cancel_left h1).symm

/-- A writer that never fails receives the text of `to_string`, and the results agree. -/
theorem C32_no_failure (o : Options) (c : Option PrettyConfig) (v : SVal) (w : Writer) (hw : w.failed = false)
    (hq : ∀ a b, w.fault a b = none) : (toIoWriter o c w v).1 = (toText o c v).map (fun _ => ()) ∧
      ∀ t, toText o c v = .ok t → (toIoWriter o c w v).2 = w.out ++ t := by
  obtain ⟨ts, r, ht, hA⟩ := C32_writes o c v
  have hi := (hA w hw).1
  have hc := feed_quiet hq hw ts
  rw [hi, hc, ht]
  refine ⟨by cases r <;> rfl, fun t e => ?_⟩
  cases r with
  | error e' => cases e
  | ok u =>
    have : ts.flatten = t := by simpa [Except.map] using e
    rw [feed_out hc, this]

/-- A device with room for `n` more characters, which takes what still fits. -/
def disk (n : Nat) : Writer where
  fault out t := if out.length + t.length ≤ n then none else some (n - out.length)

omit [Env] in
theorem feed_disk (n : Nat) (ts : List Text) (w : Writer) (hw : w.failed = false) (hf : w.fault = (disk n).fault)
    (hl : w.out.length ≤ n) :
    (feed w ts).out = (w.out ++ ts.flatten).take n ∧ ((feed w ts).failed = false ↔ (w.out ++ ts.flatten).length ≤ n) := by
  induction ts generalizing w with
  | nil => exact ⟨by simp [feed, List.take_of_length_le hl], by simp [feed, hw, hl]⟩
  | cons t ts ih =>
    simp only [feed]
    by_cases h : w.out.length + t.length ≤ n
    · have e : w.fault w.out t = none := by rw [hf]; simp [disk, h]
      rw [e]
      simp only
      have := ih { w with out := w.out ++ t } hw hf (by simpa using h)
      simpa using this
    · have e : w.fault w.out t = some (n - w.out.length) := by rw [hf]; simp [disk, h]
      rw [e]
      refine ⟨?_, ?_⟩
      · simp only [List.flatten_cons]
        rw [List.take_append, List.take_of_length_le hl, List.take_append_of_le_length (by omega)]
      · simp
        omega

/-- A device that gets full: the text is cut exactly where the room ends, and this is reported exactly if it happens. -/
theorem C32_full_disk (o : Options) (c : Option PrettyConfig) (v : SVal) (n : Nat) {t : Text} (h : toText o c v = .ok t) :
    toIoWriter o c (disk n) v = (if t.length ≤ n then .ok () else .error (.io []), t.take n) := by
  obtain ⟨ts, r, ht, hA⟩ := C32_writes o c v
  have hi := (hA (disk n) rfl).1
  cases r with
  | error e => rw [h] at ht; cases ht
  | ok u =>
    rw [h] at ht
    have : t = ts.flatten := by simpa [Except.map] using ht
    subst this
    obtain ⟨h1, h2⟩ := feed_disk n ts (disk n) rfl rfl (by simp [disk])
    rw [hi, h1]
    have e : (disk n).out = [] := rfl
    rw [e, List.nil_append] at h2 ⊢
    cases hc : (feed (disk n) ts).failed with
    | false => rw [if_pos (h2.1 hc)]; rfl
    | true =>
      have hn : ¬ ts.flatten.length ≤ n := fun hl => by rw [h2.2 hl] at hc; cases hc
      rw [if_neg hn]; rfl

end

/-- The hypotheses hold: a list of a number and a unit on a device with room for four characters. -/
example : let _ : Env := asciiEnv true true
    toText {} none (.seq (some 2) [.bool true, .unit]) = .ok c!"[true,()]" ∧
    toIoWriter {} none (disk 4) (.seq (some 2) [.bool true, .unit]) = (.error (.io []), c!"[tru") ∧
    toIoWriter {} none (disk 9) (.seq (some 2) [.bool true, .unit]) = (.ok (), c!"[true,()]") := by
  decide +kernel

end Ron
