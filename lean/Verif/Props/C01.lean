import Verif.Lemmas.Layout
import Verif.Lemmas.TyDoc
import Verif.Lemmas.Doc
/-!
# C01: layout between tokens is skipped completely and exactly

`Parser::skip_ws` is called wherever RON allows layout.  Specification: `Verif/Spec/Layout.lean`.
-/

namespace Ron

/-- Any layout in front of a text that does not start with layout is skipped, nothing else is consumed, and
everything but the reading position stays as it is. -/
theorem C01_layout_is_skipped (s : St) (l r : Text) (hs : s.rest = l ++ r) (hl : Layout l) (hr : NoLayoutStart r) :
    ∃ s', skipWs s = .ok () s' ∧ s'.rest = r ∧ s'.src = s.src ∧ s'.exts = s.exts ∧ s'.nv = s.nv ∧
      s'.lastIdent = s.lastIdent ∧ s'.limit = s.limit := by
  obtain ⟨s', h1, h2, h3⟩ := skipWs_ok hs hl hr
  exact ⟨s', h1, h2, h3.src, h3.exts, h3.nv, h3.lastIdent, h3.limit⟩

/-- A line comment may also be ended by the end of the input. -/
theorem C01_open_line_comment_is_skipped (s : St) (l u : Text) (hs : s.rest = l ++ u) (hl : Layout l)
    (hu : OpenLine u) : ∃ s', skipWs s = .ok () s' ∧ s'.rest = [] := by
  obtain ⟨s', h1, h2, -⟩ := skipWs_openLine hs hl hu
  exact ⟨s', h1, h2⟩

/-- Whatever `skip_ws` skips is layout (possibly ended by a line comment up to the end of the input), and it does
not stop before the end of the layout. -/
theorem C01_only_layout_is_skipped (s s' : St) (h : skipWs s = .ok () s') :
    (∃ l, s.rest = l ++ s'.rest ∧ Layout l ∧ NoLayoutStart s'.rest) ∨
    (∃ l u, s.rest = l ++ u ∧ Layout l ∧ OpenLine u ∧ s'.rest = []) := by
  rcases skipWs_cases s with ⟨l', r, e, hl', hr, s1, h1, h2, -⟩ | ⟨l, u, e, hl, hu, s1, h1, h2, _⟩ |
      ⟨_, _, _, _, _, _, s1, h1⟩
  · rw [h1] at h; cases h
    exact .inl ⟨l', by rw [h2]; exact e, hl', by rw [h2]; exact hr⟩
  · rw [h1] at h; cases h
    exact .inr ⟨l, u, e, hl, hu, h2⟩
  · rw [h1] at h; cases h

/-- Skipping again does nothing. -/
theorem C01_idempotent (s s' : St) (h : skipWs s = .ok () s') :
    ∃ s'', skipWs s' = .ok () s'' ∧ s''.rest = s'.rest := by
  have hn : NoLayoutStart s'.rest := by
    rcases C01_only_layout_is_skipped s s' h with ⟨_, _, _, h⟩ | ⟨_, _, _, _, _, h⟩
    · exact h
    · rw [h]; intro c r' e; cases e
  obtain ⟨s'', h1, h2, -⟩ := skipWs_ok (s := s') (l := []) (r := s'.rest) rfl .nil hn
  exact ⟨s'', h1, h2⟩

/-- `skip_ws` fails only at a `/` that does not start a complete comment. -/
theorem C01_failure (s s' : St) (e : Err) (h : skipWs s = .err e s') :
    ∃ l u, s.rest = l ++ u ∧ Layout l ∧
      ((∃ t, u = '/' :: '*' :: t ∧ (∀ b r, t = b ++ r → ¬ BlockTail 1 b) ∧ e = .unclosedBlockComment) ∨
       (u = ['/'] ∧ e = .eof) ∨
       (∃ c t, u = '/' :: c :: t ∧ c ≠ '/' ∧ c ≠ '*' ∧ e = .unexpectedChar c)) := by
  rcases skipWs_cases s with ⟨_, _, _, _, _, s1, h1, _⟩ | ⟨_, _, _, _, _, s1, h1, _⟩ | ⟨l, u, e', he, hl, hu, s1, h1⟩
  · rw [h1] at h; cases h
  · rw [h1] at h; cases h
  · rw [h1] at h; cases h
    exact ⟨l, u, he, hl, hu⟩

/-! ### Whole documents

`Rend` (`Verif/Spec/Rend.lean`) and `Den` (`Verif/Spec/Ron.lean`) are the grammars of typed and of self-describing data; every rule
of theirs that joins two tokens has a free layout between them. -/

/-- Layout makes no difference in a document of typed data: whatever layout stands between the tokens, before and after the value
and between the attributes, the same data is read. -/
theorem C01_typed_document [Env] (o : Options) (D : Nat → Ty) (n f : Nat) (T : Ty) (v : SVal) (hT : HasTy D n T v) (hf : n ≤ f)
    (sfx : Bool) (l hdr w l' : Text) (e : Exts) (hh : Attrs hdr e) (hl : Layout l) (hl' : Layout l')
    (hw : Rend (e.union o.defaultExtensions) sfx false v w) (hk : ∀ m, o.recursionLimit = some m → v.cost ≤ m) :
    fromStr o (deTy D f T) (l ++ (hdr ++ (w ++ l'))) = .ok v :=
  doc_reads ((ty_reads D n f T v hf hT).1 w hw) hl hh rfl hk hl'

/-- The same for self-describing data read as a `Value`. -/
theorem C01_value_document [Env] (o : Options) (n : Nat) (V : Value) (l hdr w l' : Text) (e : Exts) (hh : Attrs hdr e)
    (hx : (e.union o.defaultExtensions).unwrapVariantNewtypes = false) (hl : Layout l) (hl' : Layout l') (hw : Den n w V)
    (hk : ∀ m, o.recursionLimit = some m → n ≤ m) :
    fromStr o deValue (l ++ (hdr ++ (w ++ l'))) = .ok V :=
  doc_reads (deValue_reads hx hw) hl hh rfl hk hl'

/-- Non-vacuity: `[true /**/ , false ]` and `[1,2]` both denote the same list. -/
example [Env] : Den 2 c!"[true /**/ , false ]" (.seq [.bool true, .bool false]) ∧ Den 2 c!"[true,false]" (.seq [.bool true, .bool false]) := by
  refine ⟨.seq (ts := [c!"true", c!"false"]) ⟨.true, .false, trivial⟩ ?_, .seq (ts := [c!"true", c!"false"]) ⟨.true, .false, trivial⟩ ?_⟩
  · exact .items (a := []) (t := c!" ") (u := c!"true /**/ , false") .nil
      (.cons (b := c!" /**/ ") (a := c!" ") (.ws (by decide) (.block (b := c!"*/") (l := c!" ") (.closes .done) (.ws (by decide) .nil)))
        (.ws (by decide) .nil) .one) (.plain (.ws (by decide) .nil))
  · exact .items (a := []) (t := []) (u := c!"true,false") .nil (.cons (b := []) (a := []) .nil .nil .one) (.plain .nil)

/-- Non-vacuity: a space, a nested block comment, a newline, a line comment, in front of `x`. -/
example : Layout c!" /* a /* b */ */\n// c\n" ∧ NoLayoutStart c!"x" := by
  refine ⟨?_, ?_⟩
  · refine .ws (by decide) (.block (b := c!" a /* b */ */") (l := c!"\n// c\n") ?_ (.ws (by decide) ?_))
    · exact .other (by decide) (by decide) <| .other (by decide) (by decide) <| .other (by decide) (by decide) <|
        .opens <| .other (by decide) (by decide) <| .other (by decide) (by decide) <| .other (by decide) (by decide) <|
        .closes <| .other (by decide) (by decide) <| .closes .done
    · exact .line (b := c!" c") (l := []) (by decide) .nil
  · intro c r h; cases h; decide

end Ron
