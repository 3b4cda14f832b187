import Verif.Spec.Ron
import Verif.Model.Ser
/-!
# Specification of typed RON text

`Rend x sfx nv v w`: the text `w` is a rendering of the data `v` under the extensions `x`, with number suffixes if `sfx`.
`nv` tells whether the place is directly inside the parentheses of a newtype variant or of `Some` while
`unwrap_variant_newtypes` is enabled; there tuples and structs stand without parentheses of their own.

Layout, trailing commas, struct names (unless required) and `Some(..)` are free wherever the reader has a choice.
Ranges may be written in their own notation if their bounds are numbers that keep their value when read without a type and
are not written as words (`inf`, `NaN`).  Not covered: raw values (they have a specification of their own).
-/

namespace Ron

variable [Env]

/-- The text does not begin with the word `Some` or `None`. -/
def NotOption (w : Text) : Prop :=
  ∀ kw ∈ [c!"Some", c!"None"], ∀ u, w = kw ++ u → ∃ c u', u = c :: u' ∧ Env.xidCont c = true

/-- The name of a struct before its parentheses. -/
def OptName (x : Exts) (name p : Text) : Prop :=
  (x.explicitStructNames = false ∧ p = []) ∨ ∃ tok l, NameTok name tok ∧ Layout l ∧ p = tok ++ l

/-- The same without layout after the name. -/
def OptNameTight (x : Exts) (name p : Text) : Prop :=
  (x.explicitStructNames = false ∧ p = []) ∨ NameTok name p

/-- Items without delimiters. -/
def Bare (ts : List Text) (w : Text) : Prop := (ts = [] ∧ w = []) ∨ Body ts w

/-- What may follow the text of a single item: layout and a comma, the comma only if there is a text. -/
def TailOf (t b : Text) : Prop := Tail b ∧ (t = [] → Layout b)

/-- One item in parentheses, with layout and an optional trailing comma. -/
def Paren (R : Text → Prop) (w : Text) : Prop :=
  ∃ a t b, Layout a ∧ R t ∧ TailOf t b ∧ w = '(' :: (a ++ (t ++ (b ++ [')'])))

/-- The text `w` is the range notation of the struct. -/
def RangeRend (sfx : Bool) (name : Text) (fs : List (Text × SVal)) (w : Text) : Prop :=
  ∃ es : List (Text × Number), fs = es.map (fun e => (e.1, SVal.num e.2)) ∧ RangeLit sfx name es w ∧
    ∀ e ∈ es, e.2.WF ∧ e.2.NoWord ∧ e.2.Keeps sfx

mutual
/-- The text `w` renders the data. -/
def Rend (x : Exts) (sfx : Bool) : Bool → SVal → Text → Prop
  | _, .bool b, w => w = if b then c!"true" else c!"false"
  | _, .num n, w => n.WF ∧ w = n.text sfx
  | _, .char c, w => w = charText c
  | _, .str t, w => StrLit w t
  | _, .bytes b, w => BytesLit w b
  | _, .none, w => w = c!"None"
  | nv, .some v, w =>
    (∃ l p, Layout l ∧ Paren (fun t => Rend x sfx x.unwrapVariantNewtypes v t) p ∧ w = c!"Some" ++ (l ++ p)) ∨
    (x.implicitSome = true ∧ Rend x sfx nv v w ∧ NotOption w)
  | nv, .unit, w => w = if nv then [] else c!"()"
  | nv, .unitStruct name, w =>
    (if nv then w = [] else (x.explicitStructNames = false ∧ w = c!"()") ∨ NameTok name w) ∨ (name = c!"RangeFull" ∧ w = c!"..")
  | _, .unitVariant _ variant, w => NameTok variant w
  | nv, .newtypeStruct name v, w =>
    if x.unwrapNewtypes || nv then Rend x sfx false v w
    else ∃ p q, OptName x name p ∧ Paren (fun t => Rend x sfx false v t) q ∧ w = p ++ q
  | _, .newtypeVariant _ variant v, w =>
    ∃ k l p, NameTok variant k ∧ Layout l ∧ Paren (fun t => Rend x sfx x.unwrapVariantNewtypes v t) p ∧ w = k ++ (l ++ p)
  | _, .seq _ vs, w => ∃ ts, RendAll x sfx vs ts ∧ Delim '[' ']' ts w
  | nv, .tuple vs, w => ∃ ts, RendAll x sfx vs ts ∧ if nv then Bare ts w else Delim '(' ')' ts w
  | nv, .tupleStruct name vs, w => ∃ ts, RendAll x sfx vs ts ∧
    if nv then Bare ts w else ∃ p q, OptNameTight x name p ∧ Delim '(' ')' ts q ∧ w = p ++ q
  | _, .tupleVariant _ variant vs, w => ∃ ts, RendAll x sfx vs ts ∧
    ∃ k l q, NameTok variant k ∧ Layout l ∧ Delim '(' ')' ts q ∧ w = k ++ (l ++ q)
  | _, .map _ kvs, w => ∃ es, RendEntries x sfx kvs es ∧ Delim '{' '}' es w
  | nv, .struct name fs, w => (∃ es, RendFields x sfx fs es ∧
    if nv then Bare es w else ∃ p q, OptName x name p ∧ Delim '(' ')' es q ∧ w = p ++ q) ∨ RangeRend sfx name fs w
  | _, .structVariant _ variant fs, w => ∃ es, RendFields x sfx fs es ∧
    ∃ k l q, NameTok variant k ∧ Layout l ∧ Delim '(' ')' es q ∧ w = k ++ (l ++ q)
  | _, .raw _, _ => False
/-- Items. -/
def RendAll (x : Exts) (sfx : Bool) : List SVal → List Text → Prop
  | [], [] => True
  | v :: vs, t :: ts => Rend x sfx false v t ∧ RendAll x sfx vs ts
  | _, _ => False
/-- Map entries. -/
def RendEntries (x : Exts) (sfx : Bool) : List (SVal × SVal) → List Text → Prop
  | [], [] => True
  | (k, v) :: kvs, e :: es =>
    (∃ kt vt, Rend x sfx false k kt ∧ Rend x sfx false v vt ∧ Entry kt vt e) ∧ RendEntries x sfx kvs es
  | _, _ => False
/-- Struct fields. -/
def RendFields (x : Exts) (sfx : Bool) : List (Text × SVal) → List Text → Prop
  | [], [] => True
  | (k, v) :: fs, e :: es =>
    (∃ kt vt, NameTok k kt ∧ Rend x sfx false v vt ∧ Entry kt vt e) ∧ RendFields x sfx fs es
  | _, _ => False
end

end Ron
