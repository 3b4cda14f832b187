import Verif.Spec.Buffer
/-!
# Internally tagged data as text

An item of a struct or map is the tag, with a string that names the variant, or any other entry.  The tag may stand anywhere.
-/

namespace Ron

variable [Env]

/-- A field of a struct: the tag (`none`), or a field with the given name and content. -/
def TagField (tag id : Text) (e : Text) : Option (Content × Content) → Prop
  | none => ∃ kt vt, KeyTok tag kt ∧ StrLit vt id ∧ Entry kt vt e
  | some (k, v) => ∃ n kt vt, k = .str n ∧ n ≠ tag ∧ KeyTok n kt ∧ CText v vt ∧ Entry kt vt e

/-- An entry of a map: the tag (`none`), or any other entry. -/
def TagEntry (tag id : Text) (e : Text) : Option (Content × Content) → Prop
  | none => ∃ kt vt, CText (.str tag) kt ∧ StrLit vt id ∧ Entry kt vt e
  | some (k, v) => ∃ kt vt, k ≠ .str tag ∧ k ≠ .bytes (utf8EncAll tag) ∧ CText k kt ∧ CText v vt ∧ Entry kt vt e

/-- A struct, with or without a name, or a map that has the given items, of which one is the tag. -/
def TagText (tag id : Text) (its : List (Option (Content × Content))) (w : Text) : Prop :=
  (∃ ts b, All2 (TagField tag id) ts its ∧ its ≠ [] ∧ Delim '(' ')' ts b ∧ (w = b ∨ ∃ n nt l, NameTok n nt ∧ Layout l ∧ w = nt ++ (l ++ b))) ∨
  (∃ ts, All2 (TagEntry tag id) ts its ∧ Delim '{' '}' ts w)

/-- Of the data that are written, only the first entry is called like the tag. -/
def TagOnce (x : Exts) (tag : Text) (u : SVal) : Prop :=
  ∃ e es, u.content x = .map (e :: es) ∧ ∀ k c, (k, c) ∈ es → k ≠ .str tag ∧ k ≠ .bytes (utf8EncAll tag)

/-- The data that are written, a struct (with or without its name) or a map, have entries that survive serde's buffer. -/
def TagBuffers (x : Exts) : SVal → Prop
  | .struct _ fs => BuffersFields x fs
  | .map _ kvs => BuffersEntries x kvs
  | _ => False

end Ron
