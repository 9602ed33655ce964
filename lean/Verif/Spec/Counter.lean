import Verif.Model.Counter

/-! What the line counter goes through. -/

namespace Verif.Spec

/-- The bytes that a stream delivers before it reports the end of input. -/
def byteCount : List Event → Nat
  | [] => 0
  | .data _ bs :: es => bs.length + 1 + byteCount es
  | .interrupted :: es => byteCount es
  | .fail _ :: es => byteCount es

/-- The states that the line source can be brought to by its two operations, in whatever order they are called. -/
inductive Reached {σ : Type} [Src σ] (start : σ) : σ → Prop
  | start : Reached start start
  | peek {s} : Reached start s → Reached start (Src.peek s).2
  | next {s} : Reached start s → Reached start (Src.next s).2

/-- The readers that come about by calls of `next()`. -/
inductive Called {σ L : Type} [Src σ] (start : Reader σ L) : Reader σ L → Prop
  | start : Called start start
  | next {r} : Called start r → Called start r.next.2

end Verif.Spec
