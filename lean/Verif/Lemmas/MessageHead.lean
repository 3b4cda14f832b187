import Verif.Lemmas.Message
import Verif.Lemmas.Witness
/-! The kind of an error can be told from how its text begins. -/

namespace Ron

/-- Errors whose text has no part chosen by someone else: all but the messages of visitors, of writers and of std. -/
def Err.Told : Err → Bool
  | .fuel | .panic | .io _ | .message _ | .invalidEscape _ | .utf8Error | .invalidValueForType _ _ | .expectedDifferentLength _ _ => false
  | _ => true

section
variable [Env]

/-- The text up to the first argument; a text without arguments is closed by a NUL. -/
def Err.head : Err → Text
  | .expectedDifferentStructName _ _ => c!"Expected struct "
  | .expectedNamedStructLike n => if n.isEmpty then c!"Expected only opening `(`, no name, for un-nameable struct\x00" else c!"Expected opening `(` for struct "
  | .invalidIntegerDigit _ _ => c!"Invalid digit "
  | .noSuchExtension _ => c!"No RON extension named "
  | .unexpectedChar _ => c!"Unexpected char "
  | .noSuchEnumVariant _ _ o => if o.isNone then c!"Unexpected enum variant named " else c!"Unexpected variant named "
  | .noSuchStructField _ _ _ => c!"Unexpected field named "
  | .missingStructField _ _ => c!"Unexpected missing field named "
  | .duplicateStructField _ _ => c!"Unexpected duplicate field named "
  | .invalidIdentifier _ => c!"Invalid identifier "
  | .suggestRawIdentifier _ => c!"Found invalid std identifier "
  | .expectedStructName _ => c!"Expected the explicit struct name "
  | e => e.show [] ++ ['\x00']

/-- The arguments. -/
def Err.tail : Err → Text
  | .expectedDifferentStructName e f => showIdent e ++ (c!" but found " ++ (showIdent f ++ ['\x00']))
  | .expectedNamedStructLike n => if n.isEmpty then [] else showIdent n ++ ['\x00']
  | .invalidIntegerDigit d b => debugChar d ++ (c!" for base " ++ (natText b ++ c!" integers\x00"))
  | .noSuchExtension n => showIdent n ++ ['\x00']
  | .unexpectedChar c => debugChar c ++ ['\x00']
  | .noSuchEnumVariant e f o => showIdent f ++ (showIn c!" in enum " o ++ (c!", " ++ (showOneOf c!"variants" e ++ ['\x00'])))
  | .noSuchStructField e f o => showIdent f ++ (showIn c!" in " o ++ (c!", " ++ (showOneOf c!"fields" e ++ ['\x00'])))
  | .missingStructField n o => showIdent n ++ (showIn c!" in " o ++ ['\x00'])
  | .duplicateStructField n o => showIdent n ++ (showIn c!" in " o ++ ['\x00'])
  | .invalidIdentifier n => debugStr n ++ ['\x00']
  | .suggestRawIdentifier n => debugStr n ++ (c!", try the raw identifier `r#" ++ (n ++ c!"` instead\x00"))
  | .expectedStructName n => showIdent n ++ c!", but none was found\x00"
  | _ => []

theorem Err.show_split {u : Text} {e : Err} (he : e.Told) : e.show u ++ ['\x00'] = e.head ++ e.tail := by
  cases e <;> first | (simp [Err.Told] at he; done) | rfl | skip
  all_goals simp [Err.show, Err.head, Err.tail]
  all_goals (try split <;> simp [*])

/-- One error of every kind. -/
def reps : List Err :=
  [.fmt, .eof, .expectedArray, .expectedArrayEnd, .expectedAttribute, .expectedAttributeEnd, .expectedBoolean, .expectedComma, .expectedChar,
   .expectedByteLiteral, .expectedFloat, .floatUnderscore, .expectedInteger, .expectedOption, .expectedOptionEnd, .expectedMap, .expectedMapColon,
   .expectedMapEnd, .expectedDifferentStructName [] [], .expectedStructLike, .expectedNamedStructLike [], .expectedNamedStructLike ['a'],
   .expectedStructLikeEnd, .expectedUnit, .expectedString, .expectedByteString, .expectedStringEnd, .expectedIdentifier, .integerOutOfBounds,
   .invalidIntegerDigit 'a' 0, .noSuchExtension [], .unclosedBlockComment, .unclosedLineComment, .underscoreAtBeginning, .unexpectedChar 'a',
   .trailingCharacters, .noSuchEnumVariant [] [] none, .noSuchEnumVariant [] [] (some []), .noSuchStructField [] [] none, .missingStructField [] none,
   .duplicateStructField [] none, .invalidIdentifier [], .suggestRawIdentifier [], .expectedRawValue, .exceededRecursionLimit,
   .expectedStructName [], .expectedRangeSyntax]

theorem reps_cover {e : Err} (he : e.Told) : ∃ a ∈ reps, @Err.head (asciiEnv true true) a = e.head ∧ a.ctorIdx = e.ctorIdx := by
  cases e
  case expectedNamedStructLike n =>
    cases n with
    | nil => exact ⟨.expectedNamedStructLike [], by simp only [reps, List.mem_cons, true_or, or_true], rfl, rfl⟩
    | cons c n => exact ⟨.expectedNamedStructLike ['a'], by simp only [reps, List.mem_cons, true_or, or_true], rfl, rfl⟩
  case noSuchEnumVariant e f o =>
    cases o with
    | none => exact ⟨.noSuchEnumVariant [] [] none, by simp only [reps, List.mem_cons, true_or, or_true], rfl, rfl⟩
    | some o => exact ⟨.noSuchEnumVariant [] [] (some []), by simp only [reps, List.mem_cons, true_or, or_true], rfl, rfl⟩
  case expectedDifferentStructName => exact ⟨.expectedDifferentStructName [] [], by simp only [reps, List.mem_cons, true_or, or_true], rfl, rfl⟩
  case invalidIntegerDigit => exact ⟨.invalidIntegerDigit 'a' 0, by simp only [reps, List.mem_cons, true_or, or_true], rfl, rfl⟩
  case noSuchExtension => exact ⟨.noSuchExtension [], by simp only [reps, List.mem_cons, true_or, or_true], rfl, rfl⟩
  case unexpectedChar => exact ⟨.unexpectedChar 'a', by simp only [reps, List.mem_cons, true_or, or_true], rfl, rfl⟩
  case noSuchStructField => exact ⟨.noSuchStructField [] [] none, by simp only [reps, List.mem_cons, true_or, or_true], rfl, rfl⟩
  case missingStructField => exact ⟨.missingStructField [] none, by simp only [reps, List.mem_cons, true_or, or_true], rfl, rfl⟩
  case duplicateStructField => exact ⟨.duplicateStructField [] none, by simp only [reps, List.mem_cons, true_or, or_true], rfl, rfl⟩
  case invalidIdentifier => exact ⟨.invalidIdentifier [], by simp only [reps, List.mem_cons, true_or, or_true], rfl, rfl⟩
  case suggestRawIdentifier => exact ⟨.suggestRawIdentifier [], by simp only [reps, List.mem_cons, true_or, or_true], rfl, rfl⟩
  case expectedStructName => exact ⟨.expectedStructName [], by simp only [reps, List.mem_cons, true_or, or_true], rfl, rfl⟩
  all_goals first
    | (simp [Err.Told] at he; done)
    | exact ⟨_, by simp only [reps, List.mem_cons, true_or, or_true], rfl, rfl⟩

/-- The two errors with the same text. -/
def Err.closing : Err → Bool
  | .expectedOptionEnd | .expectedStructLikeEnd => true
  | _ => false

omit [Env] in
theorem reps_apart : ∀ a ∈ reps, ∀ b ∈ reps,
    (@Err.head (asciiEnv true true) a).isPrefixOf (@Err.head (asciiEnv true true) b) →
      @Err.head (asciiEnv true true) a = @Err.head (asciiEnv true true) b ∧ (a.ctorIdx = b.ctorIdx ∨
        (a.ctorIdx = Err.expectedOptionEnd.ctorIdx ∨ a.ctorIdx = Err.expectedStructLikeEnd.ctorIdx) ∧
        (b.ctorIdx = Err.expectedOptionEnd.ctorIdx ∨ b.ctorIdx = Err.expectedStructLikeEnd.ctorIdx)) := by
  decide +kernel

omit [Env] in
theorem isPrefixOf_split {a b x y : Text} (h : a ++ x = b ++ y) : a.isPrefixOf b ∨ b.isPrefixOf a := by
  rcases List.append_eq_append_iff.mp h with ⟨c, rfl, -⟩ | ⟨c, rfl, -⟩
  · exact .inl (by simp)
  · exact .inr (by simp)

omit [Env] in
theorem closing_of {e : Err} (h : e.ctorIdx = Err.expectedOptionEnd.ctorIdx ∨ e.ctorIdx = Err.expectedStructLikeEnd.ctorIdx) : e.closing := by
  cases e <;> first | rfl | (rcases h with h | h <;> cases h)

theorem head_apart {u : Text} {e e' : Err} (he : e.Told) (he' : e'.Told) (h : e.show u = e'.show u) :
    e.head = e'.head ∧ e.tail = e'.tail ∧ (e.ctorIdx = e'.ctorIdx ∨ e.closing ∧ e'.closing) := by
  have h2 : e.head ++ e.tail = e'.head ++ e'.tail := by rw [← Err.show_split (u := u) he, ← Err.show_split (u := u) he', h]
  obtain ⟨a, ha, h3, h4⟩ := reps_cover he
  obtain ⟨b, hb, h5, h6⟩ := reps_cover he'
  have key : e.head = e'.head ∧ (e.ctorIdx = e'.ctorIdx ∨ e.closing ∧ e'.closing) := by
    rcases isPrefixOf_split h2 with g | g
    · rw [← h3, ← h5] at g
      obtain ⟨g1, g2⟩ := reps_apart a ha b hb g
      rw [h3, h5] at g1
      rw [h4, h6] at g2
      exact ⟨g1, g2.imp id fun g => ⟨closing_of g.1, closing_of g.2⟩⟩
    · rw [← h3, ← h5] at g
      obtain ⟨g1, g2⟩ := reps_apart b hb a ha g
      rw [h3, h5] at g1
      rw [h4, h6] at g2
      exact ⟨g1.symm, g2.imp Eq.symm fun g => ⟨closing_of g.2, closing_of g.1⟩⟩
  rw [key.1] at h2
  exact ⟨key.1, List.append_cancel_left h2, key.2⟩

theorem tail_inj {e e' : Err} (he : e.Told) (hk : e.ctorIdx = e'.ctorIdx) (hh : e.head = e'.head) (h : e.tail = e'.tail) : e = e' := by
  cases e <;> cases e' <;> first | (cases hk; done) | rfl | (simp [Err.Told] at he; done) | skip
  all_goals simp only [Err.tail] at h
  case expectedDifferentStructName.expectedDifferentStructName =>
    obtain ⟨rfl, g⟩ := showIdent_inj h
    obtain ⟨rfl, -⟩ := showIdent_inj (List.append_cancel_left g)
    rfl
  case expectedNamedStructLike.expectedNamedStructLike n m =>
    cases n with
    | nil =>
      cases m with
      | nil => rfl
      | cons d m => simp [Err.head] at hh
    | cons c n =>
      cases m with
      | nil => simp [Err.head] at hh
      | cons d m =>
        simp only [List.isEmpty_cons, Bool.false_eq_true, if_false] at h
        rw [(showIdent_inj h).1]
  case invalidIntegerDigit.invalidIntegerDigit =>
    obtain ⟨rfl, g⟩ := debugChar_inj h
    obtain ⟨rfl, -⟩ := natText_inj (by simp; decide) (by simp; decide) (List.append_cancel_left g)
    rfl
  case noSuchExtension.noSuchExtension => rw [(showIdent_inj h).1]
  case unexpectedChar.unexpectedChar => rw [(debugChar_inj h).1]
  case noSuchEnumVariant.noSuchEnumVariant =>
    obtain ⟨rfl, g⟩ := showIdent_inj h
    obtain ⟨rfl, g2⟩ := showIn_inj (by simp) (by simp) g
    obtain ⟨rfl, -⟩ := showOneOf_inj (List.append_cancel_left g2)
    rfl
  case noSuchStructField.noSuchStructField =>
    obtain ⟨rfl, g⟩ := showIdent_inj h
    obtain ⟨rfl, g2⟩ := showIn_inj (by simp) (by simp) g
    obtain ⟨rfl, -⟩ := showOneOf_inj (List.append_cancel_left g2)
    rfl
  case missingStructField.missingStructField =>
    obtain ⟨rfl, g⟩ := showIdent_inj h
    obtain ⟨rfl, -⟩ := showIn_inj (by simp) (by simp) g
    rfl
  case duplicateStructField.duplicateStructField =>
    obtain ⟨rfl, g⟩ := showIdent_inj h
    obtain ⟨rfl, -⟩ := showIn_inj (by simp) (by simp) g
    rfl
  case invalidIdentifier.invalidIdentifier => rw [(debugStr_inj h).1]
  case suggestRawIdentifier.suggestRawIdentifier => rw [(debugStr_inj h).1]
  case expectedStructName.expectedStructName => rw [(showIdent_inj h).1]

end

end Ron
