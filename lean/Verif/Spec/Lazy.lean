import Verif.Spec.Progress
import Verif.Spec.Positions

/-! How much of the stream is read. -/

namespace Verif.Spec

/-- Successive calls of `next()` with their results. -/
inductive Calls {σ L : Type} [Src σ] : Reader σ L → List (Option (Except Err PoUnit)) → Reader σ L → Prop
  | nil {r} : Calls r [] r
  | cons {r x r' xs r''} : r.next = (.ok x, r') → Calls r' xs r'' → Calls r (x :: xs) r''

/-- What a reader has not yet asked for from its stream (`none`: it has given up the stream). -/
def unread {L : Type} (r : Reader Peekable L) : Option (List Event) := r.lines.iter.inner.map BufSt.events

/-- The complete lines in the beginning of a stream. -/
noncomputable def completeLines (pre : List Event) : List (Except IoErr Str) := (byteLines (flatten pre).1).1.map lineText

end Verif.Spec
