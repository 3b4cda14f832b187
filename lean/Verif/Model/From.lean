import Verif.Model.ValueDe
/-!
# Model of the conversions into `Value` and of `Number::into_f64` (src/value/mod.rs:36-120, src/value/number.rs:278-345)
-/

namespace Ron

/-- Data of the Rust types that convert into a `Value` (src/value/mod.rs:36-120).  A number carries its Rust type, as
`Number::new` does (src/value/number.rs:278-282 and the `From` impls 317-345).  `str` is `&str`, `Cow<str>` or `String`; `seq` is a
slice, a `Vec` or any iterator over convertible items; `pairs` is an iterator over pairs, such as the entries of a
`HashMap`; `map` is a `Map`, given by its entries. -/
inductive RData
  | bool (b : Bool)
  | char (c : Char)
  | num (n : Number)
  | none
  | some (v : RData)
  | str (t : Text)
  | byteArray (bs : List UInt8)
  | seq (vs : List RData)
  | unit
  | map (m : List (Value × Value))
  | pairs (kvs : List (RData × RData))

section
variable [Env]

mutual
/-- src/value/mod.rs:36-120 `impl From<..> for Value` and `FromIterator`. -/
def RData.value : RData → Value
  | .bool b => .bool b
  | .char c => .char c
  | .num n => .num n
  | .none => .none
  | .some v => .some v.value
  | .str t => .str t
  | .byteArray bs => .bytes bs
  | .seq vs => .seq (rvalues vs)
  | .unit => .unit
  | .map m => .map m
  | .pairs kvs => .map (mapOfList (rentries kvs))
/-- Items (src/value/mod.rs:97-101). -/
def rvalues : List RData → List Value
  | [] => []
  | v :: vs => v.value :: rvalues vs
/-- Pairs (src/value/mod.rs:48-52 with src/value/map.rs:145-152, which converts each key and value). -/
def rentries : List (RData × RData) → List (Value × Value)
  | [] => []
  | (k, v) :: kvs => (k.value, v.value) :: rentries kvs
end

mutual
/-- The same data given to the serializer directly (serde's impls for types of std; external code).  A byte array is a tuple of
`u8` for serde; a container of pairs is a map with its length. -/
def RData.data : RData → SVal
  | .bool b => .bool b
  | .char c => .char c
  | .num n => .num n
  | .none => .none
  | .some v => .some v.data
  | .str t => .str t
  | .byteArray bs => .tuple (bs.map fun b => .num (.int .u8 b.toNat))
  | .seq vs => .seq (Option.some vs.length) (rdatas vs)
  | .unit => .unit
  | .map m => (Value.map m).toS
  | .pairs kvs => .map (Option.some kvs.length) (rdataEntries kvs)
/-- Items. -/
def rdatas : List RData → List SVal
  | [] => []
  | v :: vs => v.data :: rdatas vs
/-- Pairs. -/
def rdataEntries : List (RData × RData) → List (SVal × SVal)
  | [] => []
  | (k, v) :: kvs => (k.data, v.data) :: rdataEntries kvs
end

/-- src/value/number.rs:284-314 `Number::into_f64`: integers with `f64::from` or `as f64`. -/
def Number.intoF64 : Number → F64
  | .int _ v => Env.intF64 v
  | .f32 b => Env.widen b
  | .f64 b => b

end

end Ron
