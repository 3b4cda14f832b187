import Verif.Spec.Clean
/-! Which documentation lines belong to which data, and how they may appear in the output. -/

namespace Ron

/-- `b` is `a` with the documentation lines `ls` put in, in this order, each followed by some indentation. -/
inductive Commented (ind : Text) : List Text → Text → Text → Prop
  | nil : Commented ind [] [] []
  | same {ls : List Text} {a b : Text} (t : Text) : Commented ind ls a b → Commented ind ls (a ++ t) (b ++ t)
  | doc {ls : List Text} {a b : Text} (l : Text) (k : Nat) : Commented ind ls a b → '\n' ∉ l →
      Commented ind (ls ++ [l]) a (b ++ (c!"/// " ++ (l ++ (c!"\n" ++ (List.replicate k ind).flatten))))

/-- The metadata of the field `k` of data with metadata `m`. -/
def childMeta (m : Option MetaField) (k : Text) : Option MetaField :=
  match m with
  | some f => match f.fields with
    | some fs => fs k
    | none => none
  | none => none

/-- The documentation of a field, line by line. -/
def docOf (m : Option MetaField) : List Text :=
  match m with
  | some f => splitLines f.doc []
  | none => []

mutual
/-- The documentation lines of the data: fields in order, each with the metadata at its path of field names.  Fields of
structs on one line (`compact = true`) and of ranges in compact syntax (`ranges = true`) are not documented. -/
def docsOf (compact ranges : Bool) (m : Option MetaField) : SVal → List Text
  | .some v => docsOf compact ranges m v
  | .newtypeStruct _ v => docsOf compact ranges m v
  | .newtypeVariant _ _ v => docsOf compact ranges m v
  | .seq _ vs => docsAll compact ranges m vs
  | .tuple vs => docsAll compact ranges m vs
  | .tupleStruct _ vs => docsAll compact ranges m vs
  | .tupleVariant _ _ vs => docsAll compact ranges m vs
  | .map _ kvs => docsEntries compact ranges m kvs
  | .struct name fs => if ranges && numericRange name fs then [] else docsFields compact ranges m fs
  | .structVariant _ _ fs => docsFields compact ranges m fs
  | _ => []
/-- The documentation lines of elements. -/
def docsAll (compact ranges : Bool) (m : Option MetaField) : List SVal → List Text
  | [] => []
  | v :: vs => docsOf compact ranges m v ++ docsAll compact ranges m vs
/-- The documentation lines of entries. -/
def docsEntries (compact ranges : Bool) (m : Option MetaField) : List (SVal × SVal) → List Text
  | [] => []
  | (k, v) :: kvs => docsOf compact ranges m k ++ (docsOf compact ranges m v ++ docsEntries compact ranges m kvs)
/-- The documentation lines of fields. -/
def docsFields (compact ranges : Bool) (m : Option MetaField) : List (Text × SVal) → List Text
  | [] => []
  | (k, v) :: fs => (if compact then [] else docOf (childMeta m k)) ++
      (docsOf compact ranges (childMeta m k) v ++ docsFields compact ranges m fs)
end

end Ron
