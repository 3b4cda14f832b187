import Verif.Lemmas.ValueRt
import Verif.Lemmas.Witness
/-!
# C43: serialized data is self-describing
-/

set_option linter.unusedSimpArgs false

namespace Ron

variable [Env]

/-- Whatever type was serialized, the text parses as a `Value` that has the data (Spec/SelfDesc.lean): names of structs
and variants are lost, structs are maps of their field names, tuples and newtypes sequences. -/
theorem C43 (o : Options) (cfg : Option PrettyConfig) (v : SVal) (t : Text) (hv : v.Clean (rgOf o cfg) false)
    (hx : (extsOf o cfg).unwrapVariantNewtypes = false)
    (hk : ∀ m, o.recursionLimit = some m → v.levels (extsOf o cfg) ≤ m) (h : toText o cfg v = .ok t) :
    ∃ V, SelfDesc (extsOf o cfg) (sfxOf cfg) v V ∧
      ∀ l l', Layout l → Layout l' → fromStr o deValue (l ++ (t ++ l')) = .ok V :=
  serialized_reads hv hx hk h

/-- And it is written, if the configuration is blank, the names are identifiers and the nesting is within the limit. -/
theorem C43_written (o : Options) (cfg : Option PrettyConfig) (v : SVal) (hb : ∀ c, cfg = some c → c.Blank)
    (hv : v.Named) (hk : ∀ m, o.recursionLimit = some m → v.nesting ≤ m) : ∃ t, toText o cfg v = .ok t :=
  toText_goes hb hv hk

/-- Non-vacuity: a struct with a newtype variant and an optional tuple. -/
example : let _ := asciiEnv true true
    let v := SVal.struct c!"Point" [(c!"x", .newtypeVariant c!"E" c!"A" (.num (.int .i32 (-1)))),
      (c!"y", .some (.tuple [.bool true, .str c!"q\n"]))]
    v.Clean .structs false ∧ v.Named ∧ v.nesting = 3 ∧ v.levels {} = 5 ∧
      SelfDesc {} false v (.map [(.str c!"x", .seq [.num (.int .i8 (-1))]), (.str c!"y", .some (.seq [.bool true, .str c!"q\n"]))]) := by
  refine ⟨?_, ?_, rfl, rfl, ?_⟩
  · simp [SVal.Clean, SVal.OptOk, CleanFields, CleanAll, Number.WF, IntTy.Avail]
    decide
  · simp only [SVal.Named, NamedFields, NamedAll]
    refine ⟨?_, ⟨?_, ?_, ?_, trivial⟩, ⟨?_, trivial, trivial, trivial⟩, trivial⟩ <;> exact ⟨by simp, by decide⟩
  · refine .inl ⟨by simp, [(.str c!"x", .seq [.num (.int .i8 (-1))]), (.str c!"y", .some (.seq [.bool true, .str c!"q\n"]))], ⟨⟨rfl, ⟨_, rfl, rfl⟩⟩, ⟨rfl, .inl ⟨_, .inl ⟨[.bool true, .str c!"q\n"], ⟨rfl, rfl, trivial⟩, rfl⟩, rfl⟩⟩, trivial⟩, rfl⟩

end Ron
