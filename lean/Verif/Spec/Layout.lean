import Verif.Model.Base
/-!
# Specification of RON layout

What the RON grammar calls `ws`: white space characters, line comments and nested block comments.
Nothing here refers to the parser.
-/

namespace Ron

/-- The eleven white space characters of RON, by code point: TAB, LF, VT, FF, CR, SPACE, NEL, LRM, RLM, LS, PS. -/
def ronWhitespace : List Char :=
  [0x9, 0xA, 0xB, 0xC, 0xD, 0x20, 0x85, 0x200E, 0x200F, 0x2028, 0x2029].map Char.ofNat

/-- `BlockTail n b`: the text `b` closes `n` open block comments, and the last of them only at its very end.
Reading from the left, every `/*` opens one more, every `*/` closes one, and any other character is content. -/
inductive BlockTail : Nat → Text → Prop
  | done : BlockTail 0 []
  | opens {n : Nat} {b : Text} : BlockTail (n + 2) b → BlockTail (n + 1) ('/' :: '*' :: b)
  | closes {n : Nat} {b : Text} : BlockTail n b → BlockTail (n + 1) ('*' :: '/' :: b)
  | other {n : Nat} {c : Char} {b : Text} : ¬ (['/', '*'] <+: c :: b) → ¬ (['*', '/'] <+: c :: b) →
      BlockTail (n + 1) b → BlockTail (n + 1) (c :: b)

/-- Layout: a sequence of white space characters, complete line comments and complete block comments. -/
inductive Layout : Text → Prop
  | nil : Layout []
  | ws {c : Char} {l : Text} : c ∈ ronWhitespace → Layout l → Layout (c :: l)
  | line {b l : Text} : '\n' ∉ b → Layout l → Layout ('/' :: '/' :: (b ++ '\n' :: l))
  | block {b l : Text} : BlockTail 1 b → Layout l → Layout ('/' :: '*' :: (b ++ l))

/-- A line comment that runs to the end of the input. -/
def OpenLine (t : Text) : Prop := ∃ b, t = '/' :: '/' :: b ∧ '\n' ∉ b

/-- The text does not begin with layout (a lone `/` cannot begin a RON token either). -/
def NoLayoutStart (r : Text) : Prop := ∀ c r', r = c :: r' → c ∉ ronWhitespace ∧ c ≠ '/'

end Ron
