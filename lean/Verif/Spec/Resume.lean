import Verif.Spec.Input
import Verif.Spec.Entry

/-! Streams that go on after having reported the end of input. -/

namespace Verif.Spec

/-- A keyword line or a continuation line. -/
def TextLine : PoLine → Prop
  | .message .. => True
  | .continuation .. => True
  | _ => False

/-- A keyword line or a comment line. -/
def OpenLine : PoLine → Prop
  | .message .. => True
  | .comment .. => True
  | _ => False

/-- The stream which delivers `s`, reports the end of input, delivers the first of `later`, reports the end of input and so on, is read as the stream `t`:
* The last report is the end.
* What comes after an error is not read.
* A report between a comment line and the next line is taken as the end.
* A report between a keyword or continuation line and a keyword or comment line is not noticed.
* A report between a keyword or continuation line and a continuation line has the effect that the latter continues nothing.  It is then read like a
  continuation line with another marker; what comes after it does not matter.
* A report inside a line cuts the line in two.

Blank lines do not count here. -/
inductive ReadAs : List Event → List (List Event) → List Event → Prop
  | last {s} : ReadAs s [] s
  | error {s e later} : .error e ∈ streamItems s → ReadAs s later s
  | stop {s bs n c x later} : Delivers s (bs ++ [10]) → (streamItems s).getLast? = some (.ok (.comment n c x)) → ReadAs s later s
  | between {s bs s' later t p q} : Delivers s (bs ++ [10]) → (streamItems s).getLast? = some (.ok p) → TextLine p →
      (streamItems s').head? = some (.ok q) → OpenLine q → ReadAs s' later t → ReadAs s (s' :: later) (s ++ t)
  | refused {s bs s' later t p n q x q' x'} : Delivers s (bs ++ [10]) → (streamItems s).getLast? = some (.ok p) → TextLine p →
      (streamItems s').head? = some (.ok (.continuation n q x)) → (streamItems t).head? = some (.ok (.continuation n q' x')) →
      lastMarker [p] ≠ some q' → ReadAs s (s' :: later) (s ++ t)
  | inside {s bs b s' later t} : Delivers s (bs ++ [b]) → b ≠ 10 → b ≠ 13 → ReadAs s' later t → ReadAs s (s' :: later) (s ++ .data 10 [] :: t)

/-- A piece of a catalogue: complete lines, the first of which (apart from blank ones) is a keyword or comment line and the last a keyword or continuation line. -/
def Piece (s : List Event) : Prop :=
  (∃ bs, Delivers s (bs ++ [10])) ∧ (∃ q, (streamItems s).head? = some (.ok q) ∧ OpenLine q) ∧ ∃ p, (streamItems s).getLast? = some (.ok p) ∧ TextLine p

end Verif.Spec
