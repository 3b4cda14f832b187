import Verif.Lemmas.Closed
import Verif.Lemmas.TyDoc
import Verif.Props.C62
import Verif.Lemmas.Witness
import Verif.Lemmas.Deq
/-!
# C64: a document that was cut off is refused, or it still says the same

`Closed` (`Spec/Closed.lean`) are the types the texts of which show where they end.  For others the claim is false: `C64_number_fails`,
`C64_range_fails`, `C64_variant_fails`, `C64_implicit_fails`.  Not claimed: documents in which `unwrap_variant_newtypes` is enabled, and raw values.
-/

namespace Ron

section
variable [Env]

/-- Of two texts of a closed type neither is a beginning of the other. -/
theorem C64_text (D : Nat → Ty) (x : Exts) (hx : x.unwrapVariantNewtypes = false) (f : Nat) (T : Ty) (hc : Closed D x f T) (n n' : Nat)
    (p s : Text) (v v' : SVal) (h : TyLang D x f T n p v) (h' : TyLang D x f T n' (p ++ s) v') : s = [] ∧ v = v' := by
  have hs := tyLang_whole hx hc h h'
  subst hs
  rw [List.append_nil] at h'
  exact ⟨rfl, C62_one D x hx f T n n' p v v' h h'⟩

/-- Two documents of a closed type one of which begins with the other: they have the same data, and what the longer one has more is
layout. -/
theorem C64_same (o : Options) (D : Nat → Ty) (hD : ∀ i, (D i).Every Ty.Described) (f : Nat) (T : Ty) (hT : T.Every Ty.Described) (p s : Text)
    (v v' : SVal) (h : fromStr o (deTy D f T) p = .ok v) (h' : fromStr o (deTy D f T) (p ++ s) = .ok v') :
    ∃ l hdr e r, p = l ++ (hdr ++ r) ∧ Layout l ∧ Attrs hdr e ∧ ((e.union o.defaultExtensions).unwrapVariantNewtypes = false →
      Closed D (e.union o.defaultExtensions) f T → v = v' ∧ ∃ w u, r = w ++ u ∧ Trail u ∧ Trail (u ++ s)) := by
  obtain ⟨l, hdr, e, r, h1, h2, h3, -, h4⟩ := docs_same hD hT h h'
  exact ⟨l, hdr, e, r, h1, h2, h3, h4⟩

/-- The same without attributes: documents that begin, after layout, with something else than `#`. -/
theorem C64 (o : Options) (hx : o.defaultExtensions.unwrapVariantNewtypes = false) (D : Nat → Ty) (hD : ∀ i, (D i).Every Ty.Described) (f : Nat) (T : Ty)
    (hT : T.Every Ty.Described) (hc : Closed D o.defaultExtensions f T) (l r s : Text) (hl : Layout l) (hr : NoLayoutStart r)
    (hh : ∀ u, r ≠ '#' :: u) (v v' : SVal) (h : fromStr o (deTy D f T) (l ++ r) = .ok v) (h' : fromStr o (deTy D f T) (l ++ r ++ s) = .ok v') :
    v = v' ∧ ∃ w u, r = w ++ u ∧ Trail u ∧ Trail (u ++ s) := by
  obtain ⟨l1, hdr, e, r1, h1, h2, h3, ⟨-, hr1, hs1⟩, h4⟩ := docs_same hD hT h h'
  have hs : startsWith r ['#'] = false := by
    cases r with
    | nil => rfl
    | cons c r =>
      simp only [startsWith_cons, startsWith_nil_right, Bool.and_true, beq_eq_false_iff_ne]
      rintro rfl
      exact hh r rfl
  obtain ⟨rfl, rfl⟩ := parts_unique (hdr := []) hl .nil hr hs h2 h3 hr1 hs1 h1
  have hex : Exts.empty.union o.defaultExtensions = o.defaultExtensions := by
    cases o.defaultExtensions; simp [Exts.union, Exts.empty]
  exact h4 (hex.symm ▸ hx) (hex.symm ▸ hc)

/-- A document that is cut off before its value ends is refused. -/
theorem C64_cut (o : Options) (D : Nat → Ty) (hD : ∀ i, (D i).Every Ty.Described) (f : Nat) (T : Ty) (hT : T.Every Ty.Described) (e : Exts)
    (l hdr w p s : Text) (n : Nat) (v : SVal) (hx : (e.union o.defaultExtensions).unwrapVariantNewtypes = false)
    (hc : Closed D (e.union o.defaultExtensions) f T) (hl : Layout l) (hh : Attrs hdr e) (h : TyLang D (e.union o.defaultExtensions) f T n w v)
    (hp : p ++ s = l ++ (hdr ++ w)) (hs : s ≠ []) (u : SVal) : fromStr o (deTy D f T) p ≠ .ok u := by
  intro hu
  obtain ⟨l', hdr', e', r', rfl, hl', hh', ⟨hne, hr, hh2⟩, hk⟩ := fromStr_typed_any hD hT hu
  obtain ⟨hr2, hs2⟩ := longer_start (s := s) hne hr hh2
  have ht := (tyLang_reads hx f T n w v h).1
  obtain ⟨rfl, rfl⟩ := parts_unique hl hh (r := w) (by simpa using ht.noLayout []) (by simpa using ht.noHash []) hl' hh' hr2 hs2
    (by simpa using hp.symm)
  obtain ⟨n', w', u', rfl, k2, -⟩ := hk hx
  rw [List.append_assoc] at h
  have := tyLang_whole hx hc k2 h
  simp only [List.append_eq_nil_iff] at this
  exact hs this.2

/-- What was written and then cut off is refused or gives the data that was written. -/
theorem C64_written (o : Options) (cfg : Option PrettyConfig) (D : Nat → Ty) (hD : ∀ i, (D i).Every Ty.Described) (n f : Nat) (T : Ty)
    (hT : T.Every Ty.Described) (v : SVal) (p s : Text)
    (hv : HasTy D n T v) (hf : n ≤ f) (hcl : v.Clean (rgOf o cfg) (wxOf o cfg)) (hk : ∀ m, o.recursionLimit = some m → v.cost ≤ m)
    (hx : (extsOf o cfg).unwrapVariantNewtypes = false) (hc : Closed D (extsOf o cfg) f T)
    (h : toText o cfg v = .ok (p ++ s)) (u : SVal) (hu : fromStr o (deTy D f T) p = .ok u) : u = v := by
  have h1 := typed_reads hv hf hcl hk h [] [] .nil .nil
  simp only [List.nil_append, List.append_nil] at h1
  obtain ⟨l, hdr, e, r, rfl, hl, hh, ⟨hne, hr, hs⟩, hg⟩ := docs_same hD hT hu h1
  obtain ⟨hdr', w, e', heq, g1, g2, g3⟩ := toText_rend hcl h
  have ht := ((ty_reads D n f T v hf hv).1 w g3).1
  obtain ⟨hr2, hs2⟩ := longer_start (s := s) hne hr hs
  obtain ⟨-, rfl⟩ := parts_unique (l := []) .nil g1 (r := w) (by simpa using ht.noLayout []) (by simpa using ht.noHash []) hl hh hr2 hs2
    (by simpa using heq.symm)
  rw [g2] at hg
  exact (hg hx hc).1

end

/-- Non-vacuity: the struct of C62, a document of it and the document cut off at a comment behind the value. -/
example :
    let _ : Env := asciiEnv true true
    Closed (fun _ => .unit) {} 9 tyC62 ∧ NoLayoutStart textC62 ∧ (∀ u, textC62 ≠ '#' :: u) ∧
    fromStr {} (deTy (fun _ => .unit) 9 tyC62) ([] ++ textC62) = .ok dataC62 ∧
    fromStr {} (deTy (fun _ => .unit) 9 tyC62) ([] ++ textC62 ++ c!" // x") = .ok dataC62 := by
  intro _
  refine ⟨.struct (by rintro (⟨h, -⟩ | ⟨h, -⟩ | ⟨h, -⟩ | ⟨h, -⟩ | ⟨h, -⟩) <;> cases h), ?_, ?_, by decide +kernel, by decide +kernel⟩
  · intro c r h
    cases h
    exact ⟨by decide, by decide⟩
  · intro u h
    cases h

/-- `C64_cut` is met: every beginning of that text, without the line break behind it, is refused. -/
example :
    let _ : Env := asciiEnv true true
    ∃ w l', textC62 ++ ['\n'] = w ++ l' ∧ Layout l' ∧ ∀ p s, p ++ s = w → s ≠ [] → ∀ u, fromStr {} (deTy (fun _ => .unit) 9 tyC62) p ≠ .ok u := by
  intro _
  obtain ⟨n, w, l', h1, h2, -, h3⟩ := (C62 {} rfl (fun _ => .unit) (fun _ => ⟨trivial, trivial⟩) 9 tyC62 describedC62 []
    (textC62 ++ ['\n']) dataC62 .nil (fun c r h => by cases h; exact ⟨by decide, by decide⟩) (fun u h => by cases h) ⟨textC62, rfl⟩).mp (by decide +kernel)
  refine ⟨w, l', h1, h3, fun p s hp hs u => ?_⟩
  exact C64_cut {} (fun _ => .unit) (fun _ => ⟨trivial, trivial⟩) 9 tyC62 describedC62 {} [] [] w p s n dataC62 rfl
    (.struct (by rintro (⟨h, -⟩ | ⟨h, -⟩ | ⟨h, -⟩ | ⟨h, -⟩ | ⟨h, -⟩) <;> cases h)) .nil .nil h2 (by simpa using hp) hs u

/-- The hypotheses of `C64_written` are met by a list of options of booleans. -/
example :
    let _ : Env := asciiEnv true true
    let T : Ty := .seq (.option .bool)
    let v : SVal := .seq (some 2) [.some (.bool true), .none]
    HasTy (fun _ => .unit) 4 T v ∧ v.Clean .compactStrict true ∧ Closed (fun _ => .unit) {} 4 T ∧ T.Every Ty.Described ∧
      toText {} none v = .ok (c!"[Some(tr" ++ c!"ue),None]") := by
  refine ⟨⟨[.some (.bool true), .none], rfl, ?_⟩, ?_, .seq, ?_, by decide +kernel⟩
  · intro u hu
    simp only [List.mem_cons, List.not_mem_nil, or_false] at hu
    rcases hu with rfl | rfl
    · exact .inr ⟨_, rfl, true, rfl⟩
    · exact .inl rfl
  · simp [SVal.Clean, SVal.OptOk, CleanAll]
  · simp [Ty.Every, Ty.Parts, Ty.Described]

/-- The claim is false for numbers: `12` cut off is `1`. -/
theorem C64_number_fails :
    ∃ (_ : Env) (p s : Text) (v v' : SVal), fromStr {} (deTy (fun _ => .unit) 2 (.int .u8)) p = .ok v ∧
      fromStr {} (deTy (fun _ => .unit) 2 (.int .u8)) (p ++ s) = .ok v' ∧ v ≠ v' := by
  let _ : Env := asciiEnv true true
  exact ⟨inferInstance, c!"1", c!"2", .num (.int .u8 1), .num (.int .u8 12), by decide +kernel, by decide +kernel, by decide +kernel⟩

/-- For ranges: `1..23` cut off is `1..2`. -/
theorem C64_range_fails :
    ∃ (_ : Env) (p s : Text) (v v' : SVal),
      let T : Ty := .struct c!"Range" false [(c!"start", .int .u8), (c!"end", .int .u8)]
      fromStr {} (deTy (fun _ => .unit) 3 T) p = .ok v ∧ fromStr {} (deTy (fun _ => .unit) 3 T) (p ++ s) = .ok v' ∧ v ≠ v' := by
  let _ : Env := asciiEnv true true
  exact ⟨inferInstance, c!"1..2", c!"3", .struct c!"Range" [(c!"start", .num (.int .u8 1)), (c!"end", .num (.int .u8 2))],
    .struct c!"Range" [(c!"start", .num (.int .u8 1)), (c!"end", .num (.int .u8 23))], by decide +kernel, by decide +kernel, by decide +kernel⟩

/-- For enums with variants without data: `AB` cut off is `A`. -/
theorem C64_variant_fails :
    ∃ (_ : Env) (p s : Text) (v v' : SVal),
      let T : Ty := .enum c!"E" [(c!"A", .unit), (c!"AB", .unit)]
      fromStr {} (deTy (fun _ => .unit) 3 T) p = .ok v ∧ fromStr {} (deTy (fun _ => .unit) 3 T) (p ++ s) = .ok v' ∧ v ≠ v' := by
  let _ : Env := asciiEnv true true
  exact ⟨inferInstance, c!"A", c!"B", .unitVariant c!"E" c!"A", .unitVariant c!"E" c!"AB", by decide +kernel, by decide +kernel, by decide +kernel⟩

/-- With `implicit_some` options are numbers too: `12` cut off is `1`, `Some` around it in both. -/
theorem C64_implicit_fails :
    ∃ (_ : Env) (p s : Text) (v v' : SVal),
      let o : Options := { defaultExtensions := { implicitSome := true } }
      fromStr o (deTy (fun _ => .unit) 3 (.option (.int .u8))) p = .ok v ∧ fromStr o (deTy (fun _ => .unit) 3 (.option (.int .u8))) (p ++ s) = .ok v' ∧ v ≠ v' := by
  let _ : Env := asciiEnv true true
  exact ⟨inferInstance, c!"1", c!"2", .some (.num (.int .u8 1)), .some (.num (.int .u8 12)), by decide +kernel, by decide +kernel, by decide +kernel⟩

end Ron
