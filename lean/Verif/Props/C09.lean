import Verif.Lemmas.Strings
import Verif.Lemmas.TyDoc
import Verif.Lemmas.Deq
import Verif.Lemmas.Witness
/-!
# C09: byte strings round-trip
-/

namespace Ron

variable [Env]

/-- Serializing any byte sequence, with either escape setting, and reading it as a byte string gives the bytes back;
exactly the literal is consumed, whatever follows. -/
theorem C09_roundtrip (s : Ser) (hq : s.Quiet) (v : List UInt8) :
    ∃ w, Emits (ser (.bytes v)) s w ∧ ∀ (d : St) (r : Text), d.rest = w ++ r → RunsW byteString d v r := by
  refine ⟨bytesText s.escapeStrings v, .of ?_, fun d r hd => byteString_ok hd (bytesText_lit _ _)⟩
  rw [ser, serBytes_quiet hq]

omit [Env] in
/-- Every well-formed byte string literal denotes the bytes the specification assigns to it. -/
theorem C09_reads_literal (d : St) (t r : Text) (bs : List UInt8) (hd : d.rest = t ++ r) (h : BytesLit t bs) :
    RunsW byteString d bs r := byteString_ok hd h

/-- Non-vacuity: bytes that are not UTF-8 need the escaped form even without escaping; text uses the raw form. -/
example : utf8Dec [0xff, 0x00] = none ∧ bytesText false [0xff, 0x00] = c!"b\"\\xff\\x00\"" ∧
    bytesText false [0x22] = c!"br#\"\"\"#" := by decide

/-- A byte buffer may also be written as a list of numbers: it reads as those bytes. -/
theorem C09_list (o : Options) (D : Nat → Ty) (f : Nat) (bs : List UInt8) (ts : List Text) (w l l' : Text)
    (hts : All2 (fun t b => ∃ sfx, t = (Number.int .u8 (b : UInt8).toNat).text sfx) ts bs) (hw : Delim '[' ']' ts w)
    (hl : Layout l) (hl' : Layout l') (hk : ∀ m, o.recursionLimit = some m → 2 ≤ m) :
    fromStr o (deTy D (f + 1) .bytes) (l ++ (w ++ l')) = .ok (.bytes bs) := by
  refine doc_reads (x := o.defaultExtensions) (k := 2) (hdr := []) (e := {}) ?_ hl .nil (by simp [Exts.union]) hk hl'
  obtain ⟨w', rfl, hi⟩ := delim_inner hw
  have hR : All2 (Reads o.defaultExtensions 0 (do let (_, v) ← integer (.one .u8); pure (UInt8.ofNat v.toNat))) ts bs := by
    refine hts.mono fun t _ b _ ⟨sfx, h⟩ => ?_
    have hb := (integer_reads (x := o.defaultExtensions) (t := .u8) (i := (b : UInt8).toNat) sfx (by intro h; cases h <;> contradiction)
      ⟨by show (0 : Int) ≤ _; omega, by have := b.toNat_lt; show _ ≤ (255 : Int); omega⟩).bind_pure (fun p => UInt8.ofNat p.2.toNat)
    rw [← h] at hb
    simpa using hb.reads
  refine ReadsA.reads (ReadsA.bind_pure (g := SVal.bytes) ⟨⟨_, _, rfl, by decide, by decide⟩, fun d l q hx hb hd hl hq => ?_⟩)
  obtain ⟨s', h1, h2, h3, h4⟩ := deSeq_ok (k := 1) (visit := readSeq ']' (do let (_, v) ← integer (.one .u8); pure (UInt8.ofNat v.toNat)))
    (v := bs) (w := w') (r := l ++ q) hx hb (by rw [hd]; rfl) (fun d' hp' hd' => by
      obtain ⟨s', m1, m2, m3⟩ := readSeq_inner (term := ']') (by simp) hi hR (hp'.mono (by split <;> omega)) hd'
      exact ⟨s', m1, by simpa using m2, m3⟩)
  refine ⟨s', l, ?_, h2, hl, h3⟩
  unfold deBytes
  have : startsWith d.rest ['['] = true := by rw [hd]; simp [startsWith]
  simp only [bind_apply, checkChar_apply, this, ↓reduceIte, h1]

end Ron

namespace Ron

/-- A list of numbers with layout. -/
example : ∃ _ : Env, fromStr {} (deTy (fun _ => .unit) 1 .bytes) c!"[ 1, 0255 /* . */, ]" = .ok (.bytes [1, 255]) := by
  refine ⟨asciiEnv true true, ?_⟩
  let _ : Env := asciiEnv true true
  decide +kernel

end Ron
