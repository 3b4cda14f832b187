import Verif.Lemmas.From
import Verif.Lemmas.Deq
import Verif.Props.C16
import Verif.Props.C17
import Verif.Props.C28
/-!
# C61: data converted with `Value::from`
-/

set_option linter.unusedSimpArgs false

namespace Ron

variable [Env]

/-- A converted value is written as the data themselves: the same text or the same error, with every configuration. -/
theorem C61_text (o : Options) (cfg : Option PrettyConfig) (r : RData) (hr : r.Kept) :
    toText o cfg r.value.toS = toText o cfg r.data := by
  rw [value_toS r hr]

/-- `into_rust` gives the data back, as any type they belong to. -/
theorem C61_into (D : Nat → Ty) (n f : Nat) (T : Ty) (r : RData) (hf : n ≤ f) (hr : r.Kept) (hT : HasTy D n T r.data) :
    r.value.into D f T = .ok r.data := by
  rw [← value_toS r hr] at hT ⊢
  exact into_own D n f T r.value hf hT

/-- The same for every `Value`, however it was built: it converts to the data it is written as. -/
theorem C61_value_into (D : Nat → Ty) (n f : Nat) (T : Ty) (V : Value) (hf : n ≤ f) (hT : HasTy D n T V.toS) :
    V.into D f T = .ok V.toS := into_own D n f T V hf hT

/-- With number suffixes the text of the data reads back as the converted value. -/
theorem C61_reread (o : Options) (c : PrettyConfig) (r : RData) (hb : c.Blank) (hs : c.numberSuffixes = true)
    (hi : (o.defaultExtensions.union c.extensions).implicitSome = false)
    (hx : (o.defaultExtensions.union c.extensions).unwrapVariantNewtypes = false)
    (hr : r.Kept) (hn : r.Real fun n => n.WF ∧ n.canon = n) (hk : ∀ m, o.recursionLimit = some m → r.value.levels ≤ m) :
    ∃ t, toText o (some c) r.data = .ok t ∧
      ∀ l l', Layout l → Layout l' → fromStr o deValue (l ++ (t ++ l')) = .ok r.value := by
  obtain ⟨t, h1, h2⟩ := C16 o c r.value hb hs hi hx (value_holds r hn) hk
  exact ⟨t, by rw [← C61_text o _ r hr]; exact h1, h2⟩

/-- Without number suffixes it reads back with every number as its digits denote it. -/
theorem C61_reread_untyped (o : Options) (cfg : Option PrettyConfig) (r : RData)
    (hb : ∀ c, cfg = some c → c.Blank ∧ c.numberSuffixes = false)
    (hi : (extsOf o cfg).implicitSome = false) (hx : (extsOf o cfg).unwrapVariantNewtypes = false)
    (hr : r.Kept) (hn : r.Real Number.WF) (hk : ∀ m, o.recursionLimit = some m → r.value.levels ≤ m) :
    ∃ t, toText o cfg r.data = .ok t ∧
      ∀ l l', Layout l → Layout l' → fromStr o deValue (l ++ (t ++ l')) = .ok (r.value.mapNum Number.untyped) := by
  obtain ⟨t, h1, h2⟩ := C17 o cfg r.value hb hi hx (value_holds r hn) hk
  exact ⟨t, by rw [← C61_text o _ r hr]; exact h1, h2⟩

/-- A `Value` collected from pairs maps each key to the value of its last pair, whatever the order and the repetitions. -/
theorem C61_last_wins (kvs : List (RData × RData)) : ∃ m, (RData.pairs kvs).value = .map m ∧
    (∀ k v, mapGet m k = some v ↔ ∃ a b, kvs.map (fun e => (e.1.value, e.2.value)) = a ++ (k, v) :: b ∧ ∀ e ∈ b, e.1 ≠ k) ∧
    (∀ k, k ∈ m.map Prod.fst ↔ ∃ e ∈ kvs, e.1.value = k) ∧ (m.map Prod.fst).Nodup := by
  have hmap : ∀ kvs : List (RData × RData), rentries kvs = kvs.map fun e => (e.1.value, e.2.value) := by
    intro kvs
    induction kvs with
    | nil => rfl
    | cons e kvs ih => obtain ⟨k, v⟩ := e; simp [rentries, ih]
  have hspec : ∀ (es : List (Value × Value)) (k v : Value), specMap (es.map fun e => .insert e.1 e.2) k = some v ↔
      ∃ a b, es = a ++ (k, v) :: b ∧ ∀ e ∈ a, e.1 ≠ k := by
    intro es k v
    induction es with
    | nil => simp [specMap]
    | cons e es ih =>
      obtain ⟨k', v'⟩ := e
      simp only [List.map_cons, specMap, MapOp.apply]
      by_cases hk : k = k'
      · subst hk
        rw [if_pos rfl]
        constructor
        · rintro h; cases h; exact ⟨[], es, rfl, by simp⟩
        · rintro ⟨a, b, h, hne⟩
          cases a with
          | nil => simp at h; simp [h.1]
          | cons x a => simp at h; obtain ⟨rfl, h⟩ := h; exact absurd rfl (hne (k, v') (by simp))
      · rw [if_neg hk, ih]
        constructor
        · rintro ⟨a, b, rfl, h⟩
          exact ⟨(k', v') :: a, b, rfl, by simpa using ⟨fun h => hk h.symm, fun a b => h (a, b)⟩⟩
        · rintro ⟨a, b, h, hne⟩
          cases a with
          | nil => simp at h; exact absurd h.1.1.symm hk
          | cons x a =>
            simp at h; obtain ⟨rfl, rfl⟩ := h
            exact ⟨a, b, rfl, fun e he => hne e (by simp [he])⟩
  have hget : ∀ (es : List (Value × Value)) (k v : Value), mapGet (mapOfList es) k = some v ↔
      ∃ a b, es = a ++ (k, v) :: b ∧ ∀ e ∈ b, e.1 ≠ k := by
    intro es k v
    rw [C28_collect, C28_get, hspec]
    constructor
    · rintro ⟨a, b, h, hne⟩
      refine ⟨b.reverse, a.reverse, ?_, fun e he => hne e (by simpa using he)⟩
      have := congrArg List.reverse h
      simpa using this
    · rintro ⟨a, b, rfl, hne⟩
      exact ⟨b.reverse, a.reverse, by simp, fun e he => hne e (by simpa using he)⟩
  refine ⟨mapOfList (rentries kvs), rfl, fun k v => by rw [hget, hmap], fun k => ?_, ?_⟩
  · rw [List.mem_map]
    constructor
    · rintro ⟨⟨k', v⟩, h, rfl⟩
      rw [C28_collect, (C28_iter _).1, ← C28_get, ← C28_collect, hget] at h
      obtain ⟨a, b, h, -⟩ := h
      have : (k', v) ∈ kvs.map fun e => (e.1.value, e.2.value) := by rw [← hmap, h]; simp
      obtain ⟨e, he, h⟩ := List.mem_map.1 this
      exact ⟨e, he, (Prod.mk.inj h).1⟩
    · rintro ⟨e, he, rfl⟩
      have hm : e.1.value ∈ (rentries kvs).map Prod.fst := by
        rw [hmap]; exact List.mem_map.2 ⟨_, List.mem_map.2 ⟨e, he, rfl⟩, rfl⟩
      have : ∀ es : List (Value × Value), e.1.value ∈ es.map Prod.fst → ∃ v a b, es = a ++ (e.1.value, v) :: b ∧ ∀ x ∈ b, x.1 ≠ e.1.value := by
        intro es
        induction es with
        | nil => simp
        | cons x es ih =>
          intro h
          by_cases hin : e.1.value ∈ es.map Prod.fst
          · obtain ⟨v, a, b, h1, h2⟩ := ih hin
            exact ⟨v, x :: a, b, by rw [h1]; rfl, h2⟩
          · rw [List.map_cons, List.mem_cons] at h
            rcases h with h | h
            · refine ⟨x.2, [], es, ?_, fun y hy hy' => hin (List.mem_map.2 ⟨y, hy, hy'⟩)⟩
              rw [h]; rfl
            · exact absurd h hin
      obtain ⟨v, hv⟩ := this _ hm
      refine ⟨(e.1.value, v), ?_, rfl⟩
      rw [C28_collect, (C28_iter _).1, ← C28_get, ← C28_collect, hget]
      exact hv
  · rw [C28_collect]
    exact (C28_iter _).2.1

/-- A byte array becomes a byte string: it is written as `Bytes` and converts to no sequence or tuple of bytes, as which serde
writes and reads the array itself. -/
theorem C61_byte_array (o : Options) (cfg : Option PrettyConfig) (D : Nat → Ty) (f : Nat) (bs : List UInt8) :
    toText o cfg (RData.byteArray bs).value.toS = toText o cfg (.bytes bs) ∧
    (RData.byteArray bs).value.into D (f + 1) .bytes = .ok (.bytes bs) ∧
    (∀ T, (RData.byteArray bs).value.into D (f + 1) (.seq T) = .error (.invalidValueForType [] [])) ∧
    (∀ Ts, (RData.byteArray bs).value.into D (f + 1) (.tuple Ts) = .error (.invalidValueForType [] [])) :=
  ⟨rfl, rfl, fun _ => rfl, fun _ => rfl⟩

/-- `into_f64` is the float that `into_rust::<f64>` gives, which refuses exactly the numbers of 128 bits. -/
theorem C61_into_f64 (D : Nat → Ty) (f : Nat) (n : Number) :
    (RData.num n).value.into D (f + 1) .f64 =
      match n with
      | .int .i128 _ | .int .u128 _ => .error (.invalidValueForType [] [])
      | n => .ok (.num (.f64 n.intoF64)) := by
  cases n with
  | int t v => cases t <;> rfl
  | f32 b => rfl
  | f64 b => rfl

omit [Env] in
/-- Non-vacuity: a map from strings to sequences of optional numbers, in order, is written alike, converts back and reads back with the numbers
as their digits denote them, which is not the converted value. -/
example : ∃ (_ : Env),
    let r : RData := .pairs [(.str c!"a", .seq [.some (.num (.int .i32 5)), .none]), (.str c!"b", .seq [])]
    let T : Ty := .map .str (.seq (.option (.int .i32)))
    let D : Nat → Ty := fun _ => .unit
    r.Kept ∧ r.Real (fun n => n.WF ∧ n.canon = n) ∧ HasTy D 9 T r.data ∧
    toText {} none r.data = .ok c!"{\"a\":[Some(5),None],\"b\":[]}" ∧ toText {} none r.value.toS = toText {} none r.data ∧
    r.value.into D 9 T = .ok r.data ∧ r.value.levels ≤ 128 ∧
    fromStr {} deValue c!"{\"a\":[Some(5),None],\"b\":[]}" = .ok (r.value.mapNum Number.untyped) ∧
    r.value.mapNum Number.untyped ≠ r.value := by
  refine ⟨asciiEnv true false, ?_⟩
  let _ : Env := asciiEnv true false
  have hk : (RData.pairs [(.str c!"a", .seq [.some (.num (.int .i32 5)), .none]), (.str c!"b", .seq [])]).Kept := by
    simp only [RData.Kept, keptEntries, keptAll, and_true]
    show Sorted _
    simp [Sorted, rentries, RData.value, Value.cmp, cmpText]
    decide
  have hT : HasTy (fun _ => .unit) 9 (.map .str (.seq (.option (.int .i32))))
      (RData.pairs [(.str c!"a", .seq [.some (.num (.int .i32 5)), .none]), (.str c!"b", .seq [])]).data := by
    simp only [RData.data, rdataEntries, rdatas]
    refine ⟨[(_, _), (_, _)], rfl, fun e he => ?_⟩
    simp only [List.mem_cons, List.not_mem_nil, or_false] at he
    rcases he with rfl | rfl
    · refine ⟨⟨_, rfl⟩, [_, _], rfl, fun u hu => ?_⟩
      simp only [List.mem_cons, List.not_mem_nil, or_false] at hu
      rcases hu with rfl | rfl
      · exact .inr ⟨_, rfl, 5, rfl, by simp [IntTy.Avail], by decide⟩
      · exact .inl rfl
    · exact ⟨⟨_, rfl⟩, [], rfl, fun u hu => by simp at hu⟩
  refine ⟨hk, ?_, hT, by decide +kernel, C61_text _ _ _ hk, C61_into _ 9 9 _ _ (by decide) hk hT, by decide +kernel, by decide +kernel, by decide +kernel⟩
  simp [RData.Real, realEntries, realAll, Number.WF, Number.canon, IntTy.Avail]
  decide

omit [Env] in
/-- Non-vacuity of `C61_last_wins`: repeated keys, in both kinds of map. -/
example (i : Bool) :
    letI := asciiEnv true i
    (RData.pairs [(.char 'b', .bool true), (.char 'a', .unit), (.char 'b', .bool false)]).value =
      .map (if i then [(.char 'b', .bool false), (.char 'a', .unit)] else [(.char 'a', .unit), (.char 'b', .bool false)]) := by
  cases i <;> rfl

omit [Env] in
/-- Without the order of a `Map` the texts differ: the entries of an unsorted container are sorted by a `BTreeMap`. -/
theorem C61_unsorted_fails : ∃ (_ : Env) (r : RData), toText {} none r.value.toS ≠ toText {} none r.data := by
  refine ⟨asciiEnv true false, .pairs [(.char 'b', .unit), (.char 'a', .unit)], ?_⟩
  decide +kernel

omit [Env] in
/-- A byte array is not written as the array. -/
theorem C61_byte_array_fails : ∃ (_ : Env), toText {} none (RData.byteArray [1, 2]).value.toS ≠ toText {} none (RData.byteArray [1, 2]).data := by
  refine ⟨asciiEnv true false, ?_⟩
  decide +kernel

end Ron
