import Verif.Lemmas.Shut
import Verif.Lemmas.TyDoc
import Verif.Lemmas.Witness
import Verif.Lemmas.Deq
/-!
# C38: trailing commas are optional, and no other comma is

First part: with or without one trailing comma a compound value reads the same.
Second part: whenever a compound value is read, the text that was consumed had its delimiters, exactly one comma between any two
items and at most one after the last, layout in between, and no item is empty or begins with a comma.  So two commas in a row and a
missing comma are errors.
-/

set_option linter.unusedSimpArgs false

namespace Ron

section
variable [Env]

/-- A whole document that renders the data. -/
theorem rend_doc {o : Options} {D : Nat → Ty} {n f : Nat} {T : Ty} {v : SVal} {sfx : Bool} {w : Text} (hT : HasTy D n T v) (hf : n ≤ f)
    (hk : ∀ m, o.recursionLimit = some m → v.cost ≤ m) (hr : Rend o.defaultExtensions sfx false v w) :
    fromStr o (deTy D f T) w = .ok v := by
  have := doc_reads ((ty_reads D n f T v hf hT).1 w hr) (o := o) (l := []) (hdr := []) (l' := []) (e := {}) .nil .nil
    (by simp [Exts.union, Exts.empty]) hk .nil
  simpa using this

/-! ### One trailing comma changes nothing -/

/-- Sequences. -/
theorem C38_seq (o : Options) (D : Nat → Ty) (n f : Nat) (T : Ty) (k : Option Nat) (vs : List SVal)
    (hT : HasTy D n (.seq T) (.seq k vs)) (hf : n ≤ f) (hk : ∀ m, o.recursionLimit = some m → (SVal.seq k vs).cost ≤ m)
    (sfx : Bool) (ts : List Text) (u a b c : Text) (hts : RendAll o.defaultExtensions sfx vs ts) (hu : Body ts u)
    (ha : Layout a) (hb : Layout b) (hc : Layout c) :
    fromStr o (deTy D f (.seq T)) ('[' :: (a ++ (u ++ (b ++ [']'])))) = .ok (.seq k vs) ∧
    fromStr o (deTy D f (.seq T)) ('[' :: (a ++ (u ++ ((b ++ ',' :: c) ++ [']'])))) = .ok (.seq k vs) :=
  ⟨rend_doc (sfx := sfx) hT hf hk (by simp only [Rend]; exact ⟨ts, hts, .items ha hu (.plain hb)⟩),
    rend_doc (sfx := sfx) hT hf hk (by simp only [Rend]; exact ⟨ts, hts, .items ha hu (.comma hb hc)⟩)⟩

/-- Tuples. -/
theorem C38_tuple (o : Options) (D : Nat → Ty) (n f : Nat) (Ts : List Ty) (vs : List SVal)
    (hT : HasTy D n (.tuple Ts) (.tuple vs)) (hf : n ≤ f) (hk : ∀ m, o.recursionLimit = some m → (SVal.tuple vs).cost ≤ m)
    (sfx : Bool) (ts : List Text) (u a b c : Text) (hts : RendAll o.defaultExtensions sfx vs ts) (hu : Body ts u)
    (ha : Layout a) (hb : Layout b) (hc : Layout c) :
    fromStr o (deTy D f (.tuple Ts)) ('(' :: (a ++ (u ++ (b ++ [')'])))) = .ok (.tuple vs) ∧
    fromStr o (deTy D f (.tuple Ts)) ('(' :: (a ++ (u ++ ((b ++ ',' :: c) ++ [')'])))) = .ok (.tuple vs) :=
  ⟨rend_doc (sfx := sfx) hT hf hk (by
      simp only [Rend, Bool.false_eq_true, ↓reduceIte]; exact ⟨ts, hts, .items ha hu (.plain hb)⟩),
    rend_doc (sfx := sfx) hT hf hk (by
      simp only [Rend, Bool.false_eq_true, ↓reduceIte]; exact ⟨ts, hts, .items ha hu (.comma hb hc)⟩)⟩

/-- Maps. -/
theorem C38_map (o : Options) (D : Nat → Ty) (n f : Nat) (K V : Ty) (k : Option Nat) (kvs : List (SVal × SVal))
    (hT : HasTy D n (.map K V) (.map k kvs)) (hf : n ≤ f) (hk : ∀ m, o.recursionLimit = some m → (SVal.map k kvs).cost ≤ m)
    (sfx : Bool) (ts : List Text) (u a b c : Text) (hts : RendEntries o.defaultExtensions sfx kvs ts) (hu : Body ts u)
    (ha : Layout a) (hb : Layout b) (hc : Layout c) :
    fromStr o (deTy D f (.map K V)) ('{' :: (a ++ (u ++ (b ++ ['}'])))) = .ok (.map k kvs) ∧
    fromStr o (deTy D f (.map K V)) ('{' :: (a ++ (u ++ ((b ++ ',' :: c) ++ ['}'])))) = .ok (.map k kvs) :=
  ⟨rend_doc (sfx := sfx) hT hf hk (by simp only [Rend]; exact ⟨ts, hts, .items ha hu (.plain hb)⟩),
    rend_doc (sfx := sfx) hT hf hk (by simp only [Rend]; exact ⟨ts, hts, .items ha hu (.comma hb hc)⟩)⟩

/-- Structs; `p` is the optional name. -/
theorem C38_struct (o : Options) (D : Nat → Ty) (n f : Nat) (name : Text) (deny : Bool) (fields : List (Text × Ty))
    (fs : List (Text × SVal)) (hT : HasTy D n (.struct name deny fields) (.struct name fs)) (hf : n ≤ f)
    (hk : ∀ m, o.recursionLimit = some m → (SVal.struct name fs).cost ≤ m)
    (sfx : Bool) (ts : List Text) (p u a b c : Text) (hp : OptName o.defaultExtensions name p)
    (hts : RendFields o.defaultExtensions sfx fs ts) (hu : Body ts u) (ha : Layout a) (hb : Layout b) (hc : Layout c) :
    fromStr o (deTy D f (.struct name deny fields)) (p ++ '(' :: (a ++ (u ++ (b ++ [')'])))) = .ok (.struct name fs) ∧
    fromStr o (deTy D f (.struct name deny fields)) (p ++ '(' :: (a ++ (u ++ ((b ++ ',' :: c) ++ [')'])))) = .ok (.struct name fs) :=
  ⟨rend_doc (sfx := sfx) hT hf hk (by
      simp only [Rend, Bool.false_eq_true, ↓reduceIte]; exact .inl ⟨ts, hts, p, _, hp, .items ha hu (.plain hb), rfl⟩),
    rend_doc (sfx := sfx) hT hf hk (by
      simp only [Rend, Bool.false_eq_true, ↓reduceIte]; exact .inl ⟨ts, hts, p, _, hp, .items ha hu (.comma hb hc), rfl⟩)⟩

/-- Options. -/
theorem C38_option (o : Options) (D : Nat → Ty) (n f : Nat) (T : Ty) (v : SVal)
    (hT : HasTy D n (.option T) (.some v)) (hf : n ≤ f) (hk : ∀ m, o.recursionLimit = some m → (SVal.some v).cost ≤ m)
    (sfx : Bool) (t l a b c : Text) (ht : Rend o.defaultExtensions sfx o.defaultExtensions.unwrapVariantNewtypes v t) (hne : t ≠ [])
    (hl : Layout l) (ha : Layout a) (hb : Layout b) (hc : Layout c) :
    fromStr o (deTy D f (.option T)) (c!"Some" ++ (l ++ '(' :: (a ++ (t ++ (b ++ [')']))))) = .ok (.some v) ∧
    fromStr o (deTy D f (.option T)) (c!"Some" ++ (l ++ '(' :: (a ++ (t ++ ((b ++ ',' :: c) ++ [')']))))) = .ok (.some v) :=
  ⟨rend_doc (sfx := sfx) hT hf hk (by
      simp only [Rend]; exact .inl ⟨l, _, hl, ⟨a, t, b, ha, ht, ⟨.plain hb, fun _ => hb⟩, rfl⟩, rfl⟩),
    rend_doc (sfx := sfx) hT hf hk (by
      simp only [Rend]; exact .inl ⟨l, _, hl, ⟨a, t, _, ha, ht, ⟨.comma hb hc, fun h => absurd h hne⟩, rfl⟩, rfl⟩)⟩

/-- Newtype structs (unless `unwrap_newtypes` leaves out the parentheses). -/
theorem C38_newtype (o : Options) (D : Nat → Ty) (n f : Nat) (name : Text) (T : Ty) (v : SVal)
    (hT : HasTy D n (.newtype name T) (.newtypeStruct name v)) (hf : n ≤ f)
    (hk : ∀ m, o.recursionLimit = some m → (SVal.newtypeStruct name v).cost ≤ m) (hx : o.defaultExtensions.unwrapNewtypes = false)
    (sfx : Bool) (p t a b c : Text) (hp : OptName o.defaultExtensions name p) (ht : Rend o.defaultExtensions sfx false v t) (hne : t ≠ [])
    (ha : Layout a) (hb : Layout b) (hc : Layout c) :
    fromStr o (deTy D f (.newtype name T)) (p ++ '(' :: (a ++ (t ++ (b ++ [')'])))) = .ok (.newtypeStruct name v) ∧
    fromStr o (deTy D f (.newtype name T)) (p ++ '(' :: (a ++ (t ++ ((b ++ ',' :: c) ++ [')'])))) = .ok (.newtypeStruct name v) :=
  ⟨rend_doc (sfx := sfx) hT hf hk (by
      simp only [Rend, hx, Bool.or_self, Bool.false_eq_true, ↓reduceIte]
      exact ⟨p, _, hp, ⟨a, t, b, ha, ht, ⟨.plain hb, fun _ => hb⟩, rfl⟩, rfl⟩),
    rend_doc (sfx := sfx) hT hf hk (by
      simp only [Rend, hx, Bool.or_self, Bool.false_eq_true, ↓reduceIte]
      exact ⟨p, _, hp, ⟨a, t, _, ha, ht, ⟨.comma hb hc, fun h => absurd h hne⟩, rfl⟩, rfl⟩)⟩

/-! ### No other comma may be added or left out -/

/-- The text of an item: it was read as `a`, it is not empty and begins with no separator and no closing delimiter. -/
def Item {α : Type} (x : Exts) (f : P α) (t : Text) (a : α) : Prop :=
  Took x f t a ∧ ∃ c t', t = c :: t' ∧ c ∉ [',', ')', ']', '}', ':']

theorem Took.item {α : Type} {x : Exts} {f : P α} (hf : ∀ s, Sep s → Bad (f s)) {t : Text} {a : α} (h : Took x f t a) : Item x f t a := by
  refine ⟨h, ?_⟩
  obtain ⟨hne, s1, s2, -, hn, -, hr, hf1⟩ := h
  cases t with
  | nil => exact absurd rfl hne
  | cons c t =>
    refine ⟨c, t, rfl, fun hc => ?_⟩
    exact (hf s1 ⟨hn, c, t ++ s2.rest, hr, hc⟩).not hf1

/-- A sequence is read only from items in brackets with exactly one comma between any two of them and at most one after the last;
reading stops right behind the closing bracket. -/
theorem C38_seq_only (D : Nat → Ty) (f : Nat) (T : Ty) (s s' : St) (v : SVal) (hi : s.Inside)
    (h : deTy D (f + 1) (.seq T) s = .ok v s') :
    ∃ ts w vs, v = .seq (some vs.length) vs ∧ s.rest = w ++ s'.rest ∧ Delim '[' ']' ts w ∧ All2 (Item s.exts (deTy D f T)) ts vs := by
  simp only [deTy] at h
  replace h := bind_ok h; obtain ⟨vs, s1, h1, h⟩ := h
  cases h
  obtain ⟨ts, w, h2, h3, h4⟩ := deSeq_sound (deTy_Fd D f T) hi h1
  exact ⟨ts, w, vs, rfl, h2, h3, h4.imp fun _ _ => Took.item (Sep.ty D f T)⟩

/-- Maps, likewise. -/
theorem C38_map_only (D : Nat → Ty) (f : Nat) (K V : Ty) (s s' : St) (v : SVal) (hi : s.Inside)
    (h : deTy D (f + 1) (.map K V) s = .ok v s') :
    ∃ ts w kvs, v = .map (some kvs.length) kvs ∧ s.rest = w ++ s'.rest ∧ Delim '{' '}' ts w ∧
      All2 (fun t (kv : SVal × SVal) => ∃ tk tv, Entry tk tv t ∧ Item s.exts (deTy D f K) tk kv.1 ∧ Item s.exts (deTy D f V) tv kv.2) ts kvs := by
  simp only [deTy] at h
  replace h := bind_ok h; obtain ⟨vs, s1, h1, h⟩ := h
  cases h
  obtain ⟨ts, w, h2, h3, h4⟩ := deMap_sound (deTy_Fd D f K) (deTy_Fd D f V) hi h1
  exact ⟨ts, w, vs, rfl, h2, h3, h4.imp fun _ _ ⟨tk, tv, e, h1, h2⟩ => ⟨tk, tv, e, h1.item (Sep.ty D f K), h2.item (Sep.ty D f V)⟩⟩

/-- Tuples, likewise, outside of an unwrapped newtype variant (`s.nv = false`).  Missing: inside one, where the items have no
parentheses of their own, a second comma is accepted (`C38_double_comma_fails`). -/
theorem C38_tuple_only_partial (D : Nat → Ty) (f : Nat) (Ts : List Ty) (s s' : St) (v : SVal) (hi : s.Inside) (hn : s.nv = false)
    (h : deTy D (f + 1) (.tuple Ts) s = .ok v s') :
    ∃ ts w vs, v = .tuple vs ∧ vs.length = Ts.length ∧ s.rest = w ++ s'.rest ∧ Delim '(' ')' ts w ∧
      All2 (fun t (e : Ty × SVal) => Item s.exts (deTy D f e.1) t e.2) ts (Ts.zip vs) := by
  simp only [deTy] at h
  replace h := bind_ok h; obtain ⟨vs, s1, h1, h⟩ := h
  cases h
  obtain ⟨ts, w, h2, h3, hl, h4⟩ := deTuple_sound (by
    intro g hg
    obtain ⟨T, -, rfl⟩ := List.mem_map.1 hg
    exact deTy_Fd D f T) hi hn h1
  refine ⟨ts, w, vs, rfl, by simpa using hl, h2, h3, ?_⟩
  rw [List.zip_map_left] at h4
  clear h1 h2 h3 hl
  revert h4
  generalize Ts.zip vs = es
  intro h4
  induction ts generalizing es with
  | nil => cases es with
    | nil => trivial
    | cons _ _ => exact h4.elim
  | cons t ts ih => cases es with
    | nil => exact h4.elim
    | cons e es => exact ⟨Took.item (Sep.ty D f e.1) h4.1, ih _ h4.2⟩

/-- The text of a field: the name of a field of the struct, or an ignored name, and a value. -/
def FieldItem (x : Exts) (rec : Ty → P SVal) (deny : Bool) (fields : List (Text × Ty)) (t : Text) : Prop :=
  ∃ tk tv, Entry tk tv t ∧ (∃ k, Item x (fieldKey deny (fields.map Prod.fst)) tk k) ∧
    ((∃ u, Item x deIgnored tv u) ∨ ∃ T v, T ∈ fields.map Prod.snd ∧ Item x (rec T) tv v)

theorem Sep.fieldKey {deny : Bool} {fs : List Text} (s : St) (h : Sep s) : Bad (fieldKey deny fs s) := by
  unfold Ron.fieldKey deIdentifier
  exact .bind (.bind h.identifier)

theorem TookF.item {x : Exts} {D : Nat → Ty} {f : Nat} {deny : Bool} {fields : List (Text × Ty)} {t : Text} {k : Option Text}
    (h : TookF x (deTy D f) deny fields t k) : FieldItem x (deTy D f) deny fields t := by
  obtain ⟨tk, tv, he, hk, h1, h2⟩ := h
  refine ⟨tk, tv, he, ⟨k, hk.item Sep.fieldKey⟩, ?_⟩
  cases k with
  | none =>
    obtain ⟨u, hu⟩ := h1 rfl
    exact .inl ⟨u, hu.item fun s hs => .bind hs.value⟩
  | some key =>
    obtain ⟨T, v, hm, hv⟩ := h2 key rfl
    exact .inr ⟨T, v, List.mem_map.2 ⟨_, hm, rfl⟩, hv.item (Sep.ty D f T)⟩

/-- Structs that are not ranges, likewise, outside of an unwrapped newtype variant; `p` holds an optional name. -/
theorem C38_struct_only (D : Nat → Ty) (f : Nat) (name : Text) (deny : Bool) (fields : List (Text × Ty)) (s s' : St) (v : SVal)
    (hr : ∀ s, rangeStruct name (fields.map Prod.fst) s = .ok none s) (hi : s.Inside) (hn : s.nv = false)
    (h : deTy D (f + 1) (.struct name deny fields) s = .ok v s') :
    ∃ ts p w, s.rest = p ++ (w ++ s'.rest) ∧ Delim '(' ')' ts w ∧ ∀ t ∈ ts, FieldItem s.exts (deTy D f) deny fields t := by
  simp only [deTy] at h
  unfold deStruct at h
  rw [bind_apply, hr] at h
  simp only [getSt_bind, hn, Bool.not_false, ↓reduceIte] at h
  replace h := bind_ok h; obtain ⟨_, s1, h1, h⟩ := h
  have a1 := (Safe.consumeStructName name).after hi hn h1
  replace h := bind_ok h; obtain ⟨_, s2, h2, h⟩ := h
  have a2 := Safe.skipWs.after a1.inside a1.nv h2
  replace h := bind_ok h; obtain ⟨fs, s3, h3, h⟩ := h
  cases h
  obtain ⟨ks, ts, w, e1, e2, e3⟩ := structAfterName_sound (deTy_Fd D f) a2.inside a2.nv h3
  obtain ⟨p, hp⟩ := (a1.trans a2).rest
  refine ⟨ts, p, w, by rw [← e1, hp], e2, fun t ht => ?_⟩
  rw [(a1.trans a2).exts] at e3
  obtain ⟨k, -, hk⟩ := e3.mem_left t ht
  exact hk.item

/-! ### Spelled out: two commas -/

theorem seqLoop_double {α : Type} {x : Exts} {k : Nat} {seed : P α} (hs : ∀ s, Sep s → Bad (seed s)) {ts : List Text} {u : Text} (hu : Body ts u) :
    ∀ (f : Nat) (vs : List α) (d : St) (l b c r : Text), All2 (Reads x k seed) ts vs → Pre x (k + 1) d →
      d.rest = l ++ (u ++ (b ++ ',' :: (c ++ ',' :: r))) → Layout l → Layout b → Layout c → Bad (seqLoop ']' seed f true d) := by
  have hcomma : ∀ r, NoLayoutStart (',' :: r) := fun r c r' e => by cases e; decide
  have twice : ∀ (f : Nat) (d : St) (r : Text), d.nv = false → d.rest = ',' :: r → Bad (seqLoop ']' seed f true d) := by
    intro f d r hn hd
    cases f with
    | zero => exact .fail
    | succ f =>
      obtain ⟨s1, h1, h2, h3⟩ := hasElement_more (term := ']') (l := []) hd .nil (hcomma r) rfl
      unfold seqLoop
      refine .bind ?_
      unfold nextElement
      exact .next h1 (.bind (.guardQ (hs s1.down ⟨h3.nv hn, ',', r, h2, by simp⟩)))
  induction hu with
  | @one t =>
    intro f vs d l b c r h2 hp hd hl hb hc
    cases f with
    | zero => exact .fail
    | succ f =>
      match vs, h2 with
      | [v], h2 =>
        obtain ⟨s1, h1, h3, h4⟩ := nextElement_more (term := ']') hp (by simp) h2.1 hd hl hb hc (hcomma r)
        unfold seqLoop
        exact .next h1 (.bind (twice f s1 r (h4.nv hp.nv) h3))
      | [], h2 => exact h2.elim
      | _ :: _ :: _, h2 => exact h2.2.elim
  | @cons t b' a u ts hb' ha hu ih =>
    intro f vs d l b c r h2 hp hd hl hb hc
    cases f with
    | zero => exact .fail
    | succ f =>
      match vs, h2 with
      | v :: vs, h2 =>
        obtain ⟨s1, h1, h3, h4⟩ := nextElement_more (term := ']') (r := u ++ (b ++ ',' :: (c ++ ',' :: r))) hp (by simp) h2.1 (by simpa using hd) hl hb' ha
          ((hu.tokStart (All2.tokStart h2.2)).noLayout _)
        unfold seqLoop
        exact .next h1 (.bind (ih f vs s1 [] b c r h2.2 (hp.keep h4) (by simpa using h3) .nil hb hc))
      | [], h2 => exact h2.elim

/-- After any number of items, two commas with nothing but layout between them are an error, whatever follows. -/
theorem C38_double_comma (D : Nat → Ty) (f : Nat) (T : Ty) (x : Exts) (k : Nat) (ts : List Text) (vs : List SVal) (u : Text) (s : St)
    (a b c r : Text) (hts : All2 (Reads x k (deTy D f T)) ts vs) (hu : Body ts u) (hx : s.exts = x) (hk : Budget s (k + 2))
    (ha : Layout a) (hb : Layout b) (hc : Layout c) (hr : s.rest = '[' :: (a ++ (u ++ (b ++ ',' :: (c ++ ',' :: r))))) :
    ∃ e s', deTy D (f + 1) (.seq T) s = .err e s' := by
  simp only [deTy]
  refine Bad.bind ?_
  unfold deSeq
  refine .next (setNv_apply _ _) (.next (consumeChar_true hr) (.bind (.guardQ ?_)))
  unfold readSeq
  rw [getSt_bind]
  refine seqLoop_double (Sep.ty D f T) hu _ vs _ a b c r hts (Pre.lower (d := { s with nv := false, prev := s.rest, rest := _ }) ⟨rfl, hx, ?_⟩) rfl ha hb hc
  exact hk

end

/-! ### Where the claim fails -/

/-- Inside a newtype variant under `unwrap_variant_newtypes` a tuple leaves its trailing comma to the reader of the tuple and the
reader of the variant both, so that two trailing commas are accepted there. -/
theorem C38_double_comma_fails : ∃ (_ : Env) (o : Options) (T : Ty) (v : SVal),
    fromStr o (deTy (fun _ => .unit) 5 T) c!"A(true,false,,)" = .ok v := by
  refine ⟨asciiEnv true true, { defaultExtensions := ⟨false, false, true, false⟩ },
    .enum c!"E" [(c!"A", .newtype (.tuple [.bool, .bool]))], .newtypeVariant c!"E" c!"A" (.tuple [.bool true, .bool false]), ?_⟩
  let _ : Env := asciiEnv true true
  decide +kernel

/-! ### Non-vacuity -/

section
local instance : Env := asciiEnv true true

/-- The hypotheses of `C38_seq` are met by `[true , false]`; its two texts read the same. -/
example : HasTy (fun _ => .unit) 3 (.seq .bool) (.seq (some 2) [.bool true, .bool false]) ∧
    RendAll {} false [.bool true, .bool false] [c!"true", c!"false"] ∧ Body [c!"true", c!"false"] c!"true , false" :=
  ⟨⟨[.bool true, .bool false], rfl, by rintro u hu; simp only [List.mem_cons, List.not_mem_nil, or_false] at hu; rcases hu with rfl | rfl <;> exact ⟨_, rfl⟩⟩,
    ⟨rfl, rfl, trivial⟩, .cons (b := c!" ") (a := c!" ") (.ws (by decide) .nil) (.ws (by decide) .nil) .one⟩

example : fromStr {} (deTy (fun _ => .unit) 3 (.seq .bool)) c!"[true , false]" = .ok (.seq (some 2) [.bool true, .bool false]) ∧
    fromStr {} (deTy (fun _ => .unit) 3 (.seq .bool)) c!"[true , false , ]" = .ok (.seq (some 2) [.bool true, .bool false]) := by
  decide +kernel

/-- The errors. -/
example : (fromStr {} (deTy (fun _ => .unit) 3 (.seq .bool)) c!"[true,,false]").isOk = false ∧
    (fromStr {} (deTy (fun _ => .unit) 3 (.seq .bool)) c!"[true,,]").isOk = false ∧
    (fromStr {} (deTy (fun _ => .unit) 3 (.seq .bool)) c!"[,]").isOk = false ∧
    (fromStr {} (deTy (fun _ => .unit) 3 (.seq .bool)) c!"[true false]").isOk = false ∧
    (fromStr {} (deTy (fun _ => .unit) 3 (.tuple [.bool])) c!"(true,,)").isOk = false ∧
    (fromStr {} (deTy (fun _ => .unit) 3 (.map .bool .unit)) c!"{true:(),,}").isOk = false ∧
    (fromStr {} (deTy (fun _ => .unit) 3 (.struct c!"S" false [(c!"a", .bool)])) c!"(a:true,,)").isOk = false ∧
    (fromStr {} (deTy (fun _ => .unit) 3 (.option .bool)) c!"Some(true,,)").isOk = false := by decide +kernel

/-- A state to which `C38_seq_only` applies. -/
example : (St.init c!"[true,false,] rest").Inside := ⟨List.suffix_refl _, List.suffix_refl _, List.suffix_refl _⟩

end

end Ron
