import Verif.Spec.Fit
import Verif.Lemmas.FloatSer
import Verif.Lemmas.Strings
/-!
# The compact form of data

The one text that `to_string` has to write: no white space, a comma between items and none after the last, a name only where one
is required, and `Some` only where it is required.
-/

namespace Ron

variable [Env]

open Classical in
/-- A name: as it is if it can stand so, otherwise with `r#`. -/
noncomputable def compactName (n : Text) : Text := if PlainName n ∧ n ∉ reservedNames then n else 'r' :: '#' :: n

/-- Items, with commas between them. -/
def commas : List Text → Text
  | [] => []
  | [t] => t
  | t :: ts => t ++ ',' :: commas ts

/-- `t` inside `n` options. -/
def inSomes (n : Nat) (t : Text) : Text := (List.replicate n c!"Some(").flatten ++ (t ++ List.replicate n ')')

mutual
/-- The compact form under the extensions `x`.  `nv`: the parentheses around the place belong to a newtype variant (or to `Some`) whose
content drops its own; `k`: so many enclosing options have not been written. -/
noncomputable def compact (x : Exts) : Bool → Nat → SVal → Text
  | _, _, .bool b => if b then c!"true" else c!"false"
  | _, _, .num n => n.text false
  | _, _, .char c => charText c
  | _, _, .str t => '"' :: (t.flatMap escapeDebug ++ ['"'])
  | _, _, .bytes b => 'b' :: '"' :: (b.flatMap escapeDefault ++ ['"'])
  | _, k, .none => inSomes k c!"None"
  | nv, k, .some v =>
    if x.implicitSome then compact x nv (k + 1) v else c!"Some(" ++ (compact x x.unwrapVariantNewtypes k v ++ c!")")
  | nv, _, .unit => if nv then [] else c!"()"
  | nv, _, .unitStruct n => if nv then [] else if x.explicitStructNames then compactName n else c!"()"
  | _, _, .unitVariant _ m => compactName m
  | nv, k, .newtypeStruct n v =>
    if x.unwrapNewtypes || nv then compact x false k v
    else (if x.explicitStructNames then compactName n else []) ++ '(' :: (compact x false 0 v ++ c!")")
  | _, _, .newtypeVariant _ m v => compactName m ++ '(' :: (compact x x.unwrapVariantNewtypes 0 v ++ c!")")
  | _, _, .seq _ vs => '[' :: (commas (compactAll x vs) ++ c!"]")
  | nv, _, .tuple vs => if nv then commas (compactAll x vs) else '(' :: (commas (compactAll x vs) ++ c!")")
  | nv, _, .tupleStruct n vs =>
    if nv then commas (compactAll x vs)
    else (if x.explicitStructNames then compactName n else []) ++ '(' :: (commas (compactAll x vs) ++ c!")")
  | _, _, .tupleVariant _ m vs => compactName m ++ '(' :: (commas (compactAll x vs) ++ c!")")
  | _, _, .map _ kvs => '{' :: (commas (compactEntries x kvs) ++ c!"}")
  | nv, _, .struct n fs =>
    if nv then commas (compactFields x fs)
    else (if x.explicitStructNames then compactName n else []) ++ '(' :: (commas (compactFields x fs) ++ c!")")
  | _, _, .structVariant _ m fs => compactName m ++ '(' :: (commas (compactFields x fs) ++ c!")")
  | _, k, .raw t => inSomes k t
/-- Elements. -/
noncomputable def compactAll (x : Exts) : List SVal → List Text
  | [] => []
  | v :: vs => compact x false 0 v :: compactAll x vs
/-- Entries. -/
noncomputable def compactEntries (x : Exts) : List (SVal × SVal) → List Text
  | [] => []
  | (k, v) :: kvs => (compact x false 0 k ++ ':' :: compact x false 0 v) :: compactEntries x kvs
/-- Fields. -/
noncomputable def compactFields (x : Exts) : List (Text × SVal) → List Text
  | [] => []
  | (n, v) :: fs => (compactName n ++ ':' :: compact x false 0 v) :: compactFields x fs
end

end Ron
