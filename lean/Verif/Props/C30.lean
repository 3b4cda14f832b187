import Verif.Lemmas.RawSeq
import Verif.Lemmas.RawSer
import Verif.Props.C48
import Verif.Props.C46
/-!
# C30: a raw value is one valid RON value, keeps its text, and can be trimmed and embedded

`rawFromRon` is `RawValue::from_ron`, `rawTrim` is `trim`, `rawTrimBoxed` is `trim_boxed`; a raw value is its text.  The claim about
embedding is false for raw values that begin with an attribute (`C30_attribute_fails`) and for raw values that use up the recursion limit
(`C30_depth_fails`); `C30_embeds_partial` excludes both.  `RawValue::from_rust` does not check what it wrote: `C30_from_rust_fails`.
-/

namespace Ron

section
variable [Env]

/-- `from_ron` accepts exactly the documents that enable no extension, and keeps the text. -/
theorem C30_accepts (t t' : Text) : rawFromRon t = .ok t' ↔ t' = t ∧ ∃ v, DocOf .empty (some 128) t v := by
  constructor
  · intro h
    obtain ⟨rfl, -⟩ := rawFromRon_inv h
    obtain ⟨l, hdr, w, u, n, v, h1, h2, h3, h4, h5, h6, -⟩ := raw_parts h
    exact ⟨rfl, v, l, hdr, w, u, n, h1, h2, h3, h4, fun m hm => by cases hm; exact h5, h6⟩
  · rintro ⟨rfl, v, l, hdr, w, u, n, rfl, h2, h3, h4, h5, h6⟩
    exact raw_accepts h2 h3 h4 (h5 128 rfl) h6

/-- Trimming an accepted text does not panic; it takes away layout and attributes in front and layout behind, and what is left is a
text of the language. -/
theorem C30_trim (t : Text) (h : rawFromRon t = .ok t) :
    ∃ l hdr w l' n v, t = l ++ (hdr ++ (w ++ l')) ∧ Layout l ∧ Attrs hdr .empty ∧ Lang n w v ∧ Layout l' ∧
      rawTrim t = .ok w ∧ rawTrimBoxed t = .ok w := by
  obtain ⟨l, hdr, w, u, n, v, rfl, h2, h3, h4, h5, h6, h7⟩ := raw_parts h
  have e : l ++ (hdr ++ (w ++ u)) = (l ++ hdr) ++ w ++ u := by simp
  have e1 : (l ++ (hdr ++ (w ++ u))).take (l ++ hdr ++ w).length = l ++ hdr ++ w := by rw [e]; exact List.take_left' rfl
  have e2 : (l ++ hdr ++ w).drop (l ++ hdr).length = w := List.drop_left' rfl
  have e3 : (l ++ hdr).length ≤ (l ++ hdr ++ w).length := by simp
  have e4 : (l ++ hdr ++ w).length ≤ (l ++ (hdr ++ (w ++ u))).length := by simp
  refine ⟨l, hdr, w, u, n, v, rfl, h2, h3, h4, h6, ?_, ?_⟩
  · unfold rawTrim
    simp only [h7]
    rw [if_pos ⟨e3, e4⟩, e1, e2]
  · unfold rawTrimBoxed
    simp only [h7]
    rw [if_pos e4, e1, if_pos e3, e2]

/-- Trimming twice is trimming once, the trimmed text is accepted again, and both texts denote the same value. -/
theorem C30_trim_again (t : Text) (h : rawFromRon t = .ok t) :
    ∃ w v, rawTrim t = .ok w ∧ rawFromRon w = .ok w ∧ rawTrim w = .ok w ∧
      rawIntoRust deValue t = .ok v ∧ rawIntoRust deValue w = .ok v := by
  obtain ⟨l, hdr, w, u, n, v, h1, h2, h3, h4, h5, h6, h7⟩ := raw_parts h
  obtain ⟨l0, hdr0, w0, u0, n0, v0, g1, g2, g3, g4, g6, g7, -⟩ := C30_trim t h
  have hw : rawTrim t = .ok w := by
    subst h1
    have e : l ++ (hdr ++ (w ++ u)) = (l ++ hdr) ++ w ++ u := by simp
    unfold rawTrim
    simp only [h7]
    rw [if_pos ⟨by simp, by simp⟩]
    rw [e, List.take_left' (l₁ := l ++ hdr ++ w) rfl, List.drop_left' rfl]
  refine ⟨w, v, hw, ?_, ?_, ?_, ?_⟩
  · have := raw_accepts (l := []) (hdr := []) (l' := []) .nil .nil h4 h5 .nil
    simpa using this
  · unfold rawTrim
    simp only [raw_trim_lang h4 h5]
    simp
  · rw [h1]
    exact C48_reads {} .empty _ v rfl ⟨l, hdr, w, u, n, rfl, h2, h3, langX_of h4, fun m hm => by cases hm; exact h5, h6⟩
  · exact C48_reads {} .empty _ v rfl ⟨[], [], w, [], n, by simp, .nil, .nil, langX_of h4, fun m hm => by cases hm; exact h5, .nil⟩

/-- The accepted texts that do not begin with an attribute are the texts of the language with layout around them. -/
theorem C30_plain (t : Text) (ha : NoAttr t) : rawFromRon t = .ok t ↔ ∃ n v, n ≤ 128 ∧ Pad (Lang n) t v := by
  constructor
  · intro h
    obtain ⟨l, hdr, w, u, n, v, h1, h2, h3, h4, h5, h6, -⟩ := raw_parts h
    rcases attrs_hash h3 with rfl | ⟨x, rfl⟩
    · exact ⟨n, v, h5, l, w, u, by simpa using h1, h2, h4, h6⟩
    · exact absurd h1 (ha l _ h2)
  · rintro ⟨n, v, hn, l, w, l', rfl, hl, hw, hl'⟩
    exact raw_accepts (hdr := []) hl .nil hw hn hl'

/-- Such a text may stand wherever a value may stand: as the content of an option, as an element, as a key, as a value of a map or as a
field (`Level` is one level of the grammar).  What it is a part of is a text of the language and denotes what it would denote with the
trimmed text; so it may be a part of something larger.  `n` is the number of levels that the parts need. -/
theorem C30_embeds_partial (n : Nat) (w : Text) (v : Value) (h : Level Tok (Pad (Lang (n + 1))) (Pad (Lang n)) w v) :
    Lang (n + 2) w v ∧
      ∀ o : Options, o.defaultExtensions.unwrapVariantNewtypes = false → (∀ m, o.recursionLimit = some m → n + 2 ≤ m) → fromStr o deValue w = .ok v := by
  have hl : Lang (n + 2) w v := level_pad h
  exact ⟨hl, fun o hx hm => C48_reads o .empty w v (by simpa [Exts.union, Exts.empty] using hx)
    ⟨[], [], w, [], n + 2, by simp, .nil, .nil, langX_of hl, hm, .nil⟩⟩

/-- A sequence of such raw values is written as it should be, and it is read back text by text: with the layout around each. -/
theorem C30_sequence (o : Options) (hx : o.defaultExtensions.unwrapVariantNewtypes = false) (n : Nat) (hn : n ≤ 128)
    (hm : ∀ m, o.recursionLimit = some m → n + 2 ≤ m) (D : Nat → Ty) (f : Nat) (ts : List Text)
    (hts : ∀ t ∈ ts, ∃ v, Pad (Lang n) t v) :
    let text := '[' :: (joinComma ts ++ [']'])
    toText o none (.seq (some ts.length) (ts.map .raw)) = .ok text ∧
      fromStr o (deTy D (f + 2) (.seq .raw)) text = .ok (.seq (some ts.length) (ts.map .raw)) :=
  ⟨seq_raw_text o (fun m h => by have := hm m h; omega) _ _, rawSeq_reads D f hx hn hm hts⟩

/-- Whatever document a raw value is read from, its text is by itself a document, for the default options: also if the document
enables extensions.  (For raw values inside other data: `C46_typed`.) -/
theorem C30_read (o : Options) (D : Nat → Ty) (f : Nat) (t : Text) (v : SVal) (h : fromStr o (deTy D f .raw) t = .ok v) :
    ∃ u V, v = .raw u ∧ fromStr {} deValue u = .ok V := by
  have h0 : deTy D f .raw = deTy (fun _ => .unit) f .raw := by cases f <;> rfl
  rw [h0] at h
  have ht := C46_typed o (fun _ => .unit) (fun _ => ⟨trivial, trivial⟩) f .raw ⟨trivial, trivial⟩ t v h
  cases f with
  | zero => exact ht.elim
  | succ f =>
    obtain ⟨u, e, V, hV⟩ := ht
    exact ⟨u, V, e, hV⟩

end

/-- An extension changes what the document means, but a raw value has to be one without it. -/
example : let _ : Env := asciiEnv true true
    (fromStr {} (deTy (fun _ => .unit) 1 .raw) c!"#![enable(unwrap_variant_newtypes)] Some(a: 1, b: 2)").toOption = none ∧
    (fromStr {} deValue c!"#![enable(unwrap_variant_newtypes)] Some(a: 1, b: 2)").toOption ≠ none ∧
    fromStr {} (deTy (fun _ => .unit) 1 .raw) c!"#![enable(unwrap_variant_newtypes)] Some((a: 1, b: 2)) " = .ok (.raw c!" Some((a: 1, b: 2)) ") := by
  decide +kernel

/-! ### Limits of the claim -/

/-- A raw value that begins with an attribute is accepted, and no longer one when it is an element of a sequence. -/
theorem C30_attribute_fails :
    let _ : Env := asciiEnv true true
    let t := c!"#![type = \"x\"] 1"
    rawFromRon t = .ok t ∧ toText {} none (.seq (some 1) [.raw t]) = .ok (c!"[" ++ t ++ c!"]") ∧
      (fromStr {} deValue (c!"[" ++ t ++ c!"]")).toOption = none := by
  decide +kernel

/-- `n` sequences, each in the next. -/
def nestedC30 : Nat → SVal
  | 0 => .unit
  | n + 1 => .seq (some 1) [nestedC30 n]

/-- The text of `n` sequences, each in the next. -/
def nestedTextC30 (n : Nat) : Text := List.replicate n '[' ++ (c!"()" ++ List.replicate n ']')

/-- A raw value that uses up the recursion limit is accepted, and no longer a value when it is an element of a sequence. -/
theorem C30_depth_fails :
    let _ : Env := asciiEnv true true
    let t := nestedTextC30 64
    rawFromRon t = .ok t ∧ toText {} none (.seq (some 1) [.raw t]) = .ok (c!"[" ++ t ++ c!"]") ∧
      (fromStr {} deValue (c!"[" ++ t ++ c!"]")).toOption = none := by
  decide +kernel

/-- `from_rust` gives a raw value that `from_ron` rejects, and on which `trim` panics: writing allows more levels than reading. -/
theorem C30_from_rust_fails :
    let _ : Env := asciiEnv true true
    rawFromRust (nestedC30 65) = .ok (nestedTextC30 65) ∧ (rawFromRon (nestedTextC30 65)).toOption = none ∧
      rawTrim (nestedTextC30 65) = .error .panic := by
  decide +kernel

/-! ### Examples -/

/-- Accepted, and what trimming gives. -/
example :
    let _ : Env := asciiEnv true true
    let t := c!"  /*a*/ Foo(x: [1 , 2]) // b\n"
    rawFromRon t = .ok t ∧ rawTrim t = .ok c!"Foo(x: [1 , 2])" ∧ rawTrimBoxed t = .ok c!"Foo(x: [1 , 2])" := by
  decide +kernel

/-- Not accepted: two values, an extension, a comment that the end of the text ends. -/
example :
    let _ : Env := asciiEnv true true
    (rawFromRon c!"1 1").toOption = none ∧ (rawFromRon c!"#![enable(implicit_some)] 1").toOption = none ∧
      (rawFromRon c!"Foo // b").toOption = none := by
  decide +kernel

/-- Two texts that meet the hypothesis of `C30_sequence`. -/
theorem padsC30 : let _ : Env := asciiEnv true true; ∀ t ∈ [c!" true", c!"/*a*/None "], ∃ v, Pad (Lang 0) t v := by
  intro _ t ht
  rcases List.mem_cons.mp ht with rfl | ht
  · exact ⟨.bool true, c!" ", c!"true", [], by simp, .ws (by decide) .nil, Tok.true, .nil⟩
  · rcases List.mem_cons.mp ht with rfl | ht
    · refine ⟨.none, c!"/*a*/", c!"None", c!" ", rfl, ?_, ?_, .ws (by decide) .nil⟩
      · exact .block (b := c!"a*/") (.other (by decide) (by decide) (.closes .done)) .nil
      · exact Tok.none
    · cases ht

example :
    let _ : Env := asciiEnv true true
    fromStr {} (deTy (fun _ => .unit) 2 (.seq .raw)) c!"[ true,/*a*/None ]" =
      .ok (.seq (some 2) [.raw c!" true", .raw c!"/*a*/None "]) := by
  intro _
  exact (C30_sequence {} rfl 0 (by omega) (fun m h => by cases h; omega) (fun _ => .unit) 0 _ padsC30).2

/-- The same texts in the grammar. -/
example :
    let _ : Env := asciiEnv true true
    Lang 2 c!"[ true,/*a*/None ]" (.seq [.bool true, .none]) := by
  intro _
  refine (C30_embeds_partial 0 _ _ (.seq (ts := [c!" true", c!"/*a*/None "]) (vs := [.bool true, .none]) ⟨?_, ?_, trivial⟩ (joinComma_delim '[' ']' _))).1
  · exact ⟨c!" ", c!"true", [], by simp, .ws (by decide) .nil, Tok.true, .nil⟩
  · exact ⟨c!"/*a*/", c!"None", c!" ", rfl, .block (b := c!"a*/") (.other (by decide) (by decide) (.closes .done)) .nil, Tok.none,
      .ws (by decide) .nil⟩

end Ron
