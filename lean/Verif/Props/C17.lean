import Verif.Props.C16
/-!
# C17: without suffixes a `Value` round-trips up to number types
-/

set_option linter.unusedSimpArgs false

namespace Ron

variable [Env]

/-- Without number suffixes (compact output or a blank configuration), parsing the written text gives the value with
each number replaced by the number its literal denotes in untyped position (`Number.untyped`, Lemmas/FloatSer.lean: the
smallest integer type that holds the value, the smallest float type that holds it); maps are the same entries inserted
in the same order. -/
theorem C17 (o : Options) (cfg : Option PrettyConfig) (V : Value)
    (hb : ∀ c, cfg = some c → c.Blank ∧ c.numberSuffixes = false)
    (hi : (extsOf o cfg).implicitSome = false) (hx : (extsOf o cfg).unwrapVariantNewtypes = false)
    (hV : V.Holds Number.WF) (hk : ∀ m, o.recursionLimit = some m → V.levels ≤ m) :
    ∃ t, toText o cfg V.toS = .ok t ∧
      ∀ l l', Layout l → Layout l' → fromStr o deValue (l ++ (t ++ l')) = .ok (V.mapNum Number.untyped) := by
  obtain ⟨t, h1, h2⟩ := value_roundtrip (o := o) (cfg := cfg) (V := V) (fun c h => (hb c h).1) hi hx hV hk
  refine ⟨t, h1, ?_⟩
  have : reNum (sfxOf cfg) = Number.untyped := by
    have hs : sfxOf cfg = false := by
      cases cfg with
      | none => rfl
      | some c => exact (hb c rfl).2
    funext n
    rw [hs]; rfl
  rw [this] at h2
  exact h2

/-- In particular a value all of whose numbers have the type their literal denotes is unchanged. -/
theorem C17_exact (o : Options) (cfg : Option PrettyConfig) (V : Value)
    (hb : ∀ c, cfg = some c → c.Blank ∧ c.numberSuffixes = false)
    (hi : (extsOf o cfg).implicitSome = false) (hx : (extsOf o cfg).unwrapVariantNewtypes = false)
    (hV : V.Holds fun n => n.WF ∧ n.untyped = n) (hk : ∀ m, o.recursionLimit = some m → V.levels ≤ m) :
    ∃ t, toText o cfg V.toS = .ok t ∧
      ∀ l l', Layout l → Layout l' → fromStr o deValue (l ++ (t ++ l')) = .ok V := by
  obtain ⟨t, h1, h2⟩ := C17 o cfg V hb hi hx (hV.imp fun _ h => h.1) hk
  refine ⟨t, h1, ?_⟩
  rw [mapNum_id (p := fun n => n.WF ∧ n.untyped = n) (fun n h => h.2) V hV] at h2
  exact h2

/-- Only numbers change: everything is preserved where the map keys stay distinct.  The replacement keeps the shape. -/
theorem C17_shape (f : Number → Number) (V : Value) :
    (∀ vs, V = .seq vs → ∃ ws, V.mapNum f = .seq ws ∧ ws.length = vs.length ∧
      ∀ i (h : i < vs.length) (h' : i < ws.length), ws[i] = vs[i].mapNum f) ∧
    (∀ m, V = .map m → MapInv (m.map fun e => (e.1.mapNum f, e.2.mapNum f)) →
      V.mapNum f = .map (m.map fun e => (e.1.mapNum f, e.2.mapNum f))) ∧
    (∀ v, V = .some v → V.mapNum f = .some (v.mapNum f)) ∧
    (∀ b, V = .bool b → V.mapNum f = V) ∧ (∀ c, V = .char c → V.mapNum f = V) ∧ (∀ t, V = .str t → V.mapNum f = V) ∧
    (∀ b, V = .bytes b → V.mapNum f = V) ∧ (V = .unit → V.mapNum f = V) ∧ (V = .none → V.mapNum f = V) := by
  have hall : ∀ vs, mapNumAll f vs = vs.map fun v => v.mapNum f := by
    intro vs
    induction vs with
    | nil => simp [mapNumAll]
    | cons v vs ih => simp [mapNumAll, ih]
  have hent : ∀ m, mapNumEntries f m = m.map fun e => (e.1.mapNum f, e.2.mapNum f) := by
    intro m
    induction m with
    | nil => simp [mapNumEntries]
    | cons e m ih => obtain ⟨k, v⟩ := e; simp [mapNumEntries, ih]
  refine ⟨?_, ?_, ?_, ?_, ?_, ?_, ?_, ?_, ?_⟩
  · rintro vs rfl
    refine ⟨_, by rw [Value.mapNum, hall], by simp, ?_⟩
    intro i h h'
    simp
  · rintro m rfl hm
    rw [Value.mapNum, hent, mapOfList_inv hm]
  all_goals (intros; subst_vars; simp [Value.mapNum])

/-- Non-vacuity: `300` stored as `i64` is read as `u16`; the map keeps its two keys. -/
example : let _ := asciiEnv true true
    let V := Value.map [(.num (.int .i64 300), .some .unit), (.str c!"k", .num (.int .u8 5))]
    V.Holds Number.WF ∧ V.levels = 3 ∧
      V.mapNum Number.untyped = .map [(.num (.int .u16 300), .some .unit), (.str c!"k", .num (.int .u8 5))] := by
  refine ⟨?_, rfl, rfl⟩
  refine ⟨?_, ⟨⟨fun _ => rfl, by decide⟩, trivial⟩, ⟨trivial, ⟨fun _ => rfl, by decide⟩⟩, trivial⟩
  unfold MapInv NodupKeys
  simp

omit [Env] in
/-- Two keys that differ only in their type become one; the later value wins. -/
theorem C17_keys_collide : ∃ (_ : Env) (V : Value), V.Proper ∧
    V.mapNum Number.untyped = .map [(.num (.int .u8 1), .bool false)] ∧
    V = .map [(.num (.int .u8 1), .bool true), (.num (.int .u16 1), .bool false)] := by
  refine ⟨asciiEnv true true, _, ?_, rfl, rfl⟩
  refine ⟨?_, ⟨⟨⟨fun _ => rfl, by decide⟩, rfl⟩, trivial⟩, ⟨⟨⟨fun _ => rfl, by decide⟩, rfl⟩, trivial⟩, trivial⟩
  unfold MapInv NodupKeys
  simp

end Ron
