import Verif.Model.Ser
/-! What a writer makes of a sequence of writes. -/

namespace Ron

/-- The writer receives the texts one after the other; the first one that fails is the last one it sees, and what the
writer took of it stays written. -/
def feed (w : Writer) : List Text → Writer
  | [] => w
  | t :: ts =>
    match w.fault w.out t with
    | none => feed { w with out := w.out ++ t } ts
    | some n => { w with out := w.out ++ t.take n, failed := true }

/-- A writer that has not failed so far. -/
def Writer.Fresh (w : Writer) : Prop := w.failed = false

end Ron
