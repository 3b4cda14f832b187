import Verif.Lemmas.MessageHead
import Verif.Lemmas.Deq
/-! C56: the text of an error says where and what, and can be read only one way. -/

namespace Ron

section
variable [Env]

/-- The text of a failed reading names the span of lines and columns: two errors with the same text have the same span and say the same. -/
theorem C56_place (u : Text) (e e' : Err) (sp sp' : Span) (h : showSpanned u e sp = showSpanned u e' sp') :
    sp = sp' ∧ e.show u = e'.show u := by
  have pos : ∀ (p q : Position) (x y : Text), (∀ c ∈ x.head?, isDigit c = false) → (∀ c ∈ y.head?, isDigit c = false) →
      p.show ++ x = q.show ++ y → p = q ∧ x = y := by
    intro p q x y hx hy h
    simp only [Position.show, List.append_assoc, List.cons_append] at h
    obtain ⟨h1, h2⟩ := natText_inj (by simp; decide) (by simp; decide) h
    obtain ⟨h3, h4⟩ := natText_inj hx hy (List.cons.inj h2).2
    cases p; cases q
    exact ⟨by simp_all, h4⟩
  have d1 : ∀ t : Text, ∀ c ∈ (c!": " ++ t).head?, isDigit c = false := by simp; decide
  have d2 : ∀ t : Text, ∀ c ∈ ('-' :: t).head?, isDigit c = false := by simp; decide
  obtain ⟨a, b⟩ := sp
  obtain ⟨a', b'⟩ := sp'
  simp only [showSpanned, Span.show] at h
  split at h <;> split at h
  · rename_i h1 h2
    subst h1 h2
    obtain ⟨rfl, g⟩ := pos _ _ _ _ (d1 _) (d1 _) h
    exact ⟨rfl, List.append_cancel_left g⟩
  · simp only [List.append_assoc, List.cons_append] at h
    obtain ⟨-, g⟩ := pos _ _ _ _ (d1 _) (d2 _) h
    simp at g
  · simp only [List.append_assoc, List.cons_append] at h
    obtain ⟨-, g⟩ := pos _ _ _ _ (d2 _) (d1 _) h
    simp at g
  · simp only [List.append_assoc, List.cons_append] at h
    obtain ⟨rfl, g⟩ := pos _ _ _ _ (d2 _) (d2 _) h
    obtain ⟨rfl, g2⟩ := pos _ _ _ _ (d1 _) (d1 _) (List.cons.inj g).2
    exact ⟨rfl, List.append_cancel_left g2⟩

/-- The text of an error says its kind, all its names, alternatives, digits and characters.  Left out are the errors whose text is chosen
by a visitor, a writer or std; and two errors about a closing parenthesis share their text. -/
theorem C56_message (u : Text) (e e' : Err) (he : e.Told) (he' : e'.Told) (h : e.show u = e'.show u) :
    e = e' ∨ ((e = .expectedOptionEnd ∨ e = .expectedStructLikeEnd) ∧ (e' = .expectedOptionEnd ∨ e' = .expectedStructLikeEnd)) := by
  obtain ⟨h1, h2, h3⟩ := head_apart he he' h
  rcases h3 with h3 | ⟨h3, h4⟩
  · exact .inl (tail_inj he h3 h1 h2)
  · refine .inr ⟨?_, ?_⟩
    · cases e <;> simp_all [Err.closing]
    · cases e' <;> simp_all [Err.closing]

/-- Both together: from the text of a failed reading follow its span and the error. -/
theorem C56_whole (u : Text) (e e' : Err) (sp sp' : Span) (he : e.Told) (he' : e'.Told) (hc : e ≠ .expectedOptionEnd)
    (hc' : e ≠ .expectedStructLikeEnd) (h : showSpanned u e sp = showSpanned u e' sp') : sp = sp' ∧ e = e' := by
  obtain ⟨h1, h2⟩ := C56_place u e e' sp sp' h
  rcases C56_message u e e' he he' h2 with h3 | ⟨h3 | h3, -⟩
  · exact ⟨h1, h3⟩
  · exact absurd h3 hc
  · exact absurd h3 hc'

/-- Once it is known what was expected, the length or the kind that was found can be read off. -/
theorem C56_found (u : Text) (w : Text) :
    (∀ n m, (Err.expectedDifferentLength w n).show u = (Err.expectedDifferentLength w m).show u → n = m) ∧
    (∀ f g, (Err.invalidValueForType w f).show u = (Err.invalidValueForType w g).show u → f = g) := by
  constructor
  · intro n m h
    simp only [Err.show] at h
    exact showCount_inj (List.append_cancel_left (List.append_cancel_left (List.append_cancel_left h)))
  · intro f g h
    simp only [Err.show] at h
    exact List.append_cancel_right (List.append_cancel_left (List.append_cancel_left (List.append_cancel_left h)))

/-- A name in an error is shown as it has to be written in RON, between backquotes: put in a document, it is read as that name.  A name
that cannot be written in RON is shown as a string, marked as invalid. -/
theorem C56_name (n : Text) :
    (RawName n → ∃ tok, showIdent n = c!"`" ++ (tok ++ c!"`") ∧
      ∀ (d : St) (r : Text), IdentFollow r → d.rest = tok ++ r → ∃ d', identifier d = .ok n d' ∧ d'.rest = r) ∧
    (¬ RawName n → showIdent n = debugStr n ++ c!"_[invalid identifier]") := by
  rcases showIdent_forms n with ⟨hn, h⟩ | ⟨hn, -, h⟩ | ⟨hn, hp, h⟩
  · exact ⟨fun h' => absurd h' hn, fun _ => h⟩
  · refine ⟨fun _ => ⟨c!"r#" ++ n, by rw [h]; simp, fun d r hr hd => ?_⟩, fun h' => absurd hn h'⟩
    obtain ⟨s', h1, h2, -⟩ := KeyTok.reads (name := n) ⟨hn, .inl rfl⟩ hr (by simpa using hd)
    exact ⟨s', h1, h2⟩
  · refine ⟨fun _ => ⟨n, h, fun d r hr hd => ?_⟩, fun h' => absurd hn h'⟩
    obtain ⟨s', h1, h2, -⟩ := KeyTok.reads (name := n) ⟨hn, .inr ⟨rfl, hp⟩⟩ hr hd
    exact ⟨s', h1, h2⟩

/-- Names and lists of names are shown so that they can be told apart from each other and from whatever follows them. -/
theorem C56_names (noun : Text) (l l' : List Text) (n n' x y : Text) :
    (showIdent n ++ x = showIdent n' ++ y → n = n' ∧ x = y) ∧
    (showOneOf noun l ++ x = showOneOf noun l' ++ y → l = l' ∧ x = y) :=
  ⟨showIdent_inj, showOneOf_inj⟩

/-- The two errors with one text. -/
theorem C56_closing_same (u : Text) : (Err.expectedOptionEnd).show u = (Err.expectedStructLikeEnd).show u := rfl

/-- A visitor can say what the crate says: the text alone does not tell a custom message. -/
theorem C56_custom_same (u : Text) : (Err.message c!"Expected comma").show u = (Err.expectedComma).show u := rfl

/-- What a visitor expected is put into the text as it is: it can look like what was found. -/
theorem C56_expected_same (u : Text) : ∃ w f w' f', (w, f) ≠ (w', f') ∧
    (Err.invalidValueForType w f).show u = (Err.invalidValueForType w' f').show u :=
  ⟨c!"a but found b", c!"c", c!"a", c!"b but found c", by decide, rfl⟩

end

/-! ### The theorems apply -/

/-- The text of a failed reading. -/
def C56_text [Env] (T : Ty) (t : Text) : Text :=
  match fromStr {} (deTy (fun _ => .unit) 20 T) t with
  | .ok _ => []
  | .error (e, sp) => showSpanned [] e sp

example : let _ : Env := asciiEnv true true
    C56_text (.struct c!"P" true [(c!"x", .bool), (c!"y-z", .bool)]) c!"(x: true,\n w: false)" =
      c!"2:2-2:3: Unexpected field named `w` in `P`, expected either `x` or `r#y-z` instead" := by decide +kernel

example : let _ : Env := asciiEnv true true
    C56_text (.int .u8) c!"0b12" = c!"1:3-1:4: Invalid digit '2' for base 2 integers" := by decide +kernel

example : Err.Told (.noSuchStructField [c!"x"] c!"w" (some c!"P")) ∧ Err.Told (.unexpectedChar '\'') ∧ Err.Told .expectedComma := ⟨rfl, rfl, rfl⟩

example : let _ : Env := asciiEnv true true
    RawName c!"y-z" ∧ ¬ RawName c!"y z" ∧ showIdent c!"y z" = c!"\"y z\"_[invalid identifier]" := by
  intro _
  refine ⟨⟨by decide, by decide⟩, fun h => ?_, by decide⟩
  exact absurd (h.2 ' ' (by decide)) (by decide)

end Ron
