import Verif.Spec.Lazy
import Verif.Spec.Counting

/-! Streams that never end. -/

namespace Verif.Spec

/-- The first `n` events of an endless stream. -/
def beginning (f : Nat → Event) (n : Nat) : List Event := (List.range n).map f

/-- A beginning of the endless stream decides that `parse()` fails with the error `e`. -/
def FailsOn (env : Env) (f : Nat → Event) (e : Err) : Prop := ∃ n, ∀ post, Fails (parse env (beginning f n ++ post)) e

/-- A beginning of the endless stream decides that there are the header data `hdr`, the units `us` and the error `e`. -/
def StopsOn (env : Env) (f : Nat → Event) (hdr : Header env.Lang) (us : List PoUnit) (e : Err) : Prop :=
  ∃ n, ∀ post, ∃ hdr', SameHeader hdr' hdr ∧ Yields (parse env (beginning f n ++ post)) hdr' (results us (some e))

/-- The header data are `hdr`, and the calls of `next()` give the units `u 0`, `u 1` and so on for ever: for `parse()` and the first `k` calls a beginning
of the stream is enough, and nothing after it is read. -/
def GoesOn (env : Env) (f : Nat → Event) (hdr : Header env.Lang) (u : Nat → PoUnit) : Prop :=
  ∀ k, ∃ n, ∀ post, ∃ r r' es, parse env (beginning f n ++ post) = .ok r ∧ SameHeader (headerOf r) hdr ∧
    Calls r ((List.range k).map fun i => some (.ok (u i))) r' ∧ unread r' = some es ∧ post <:+ es

/-- The endless stream never fails, its complete lines can be read, and from some point on no complete line has a keyword. -/
structure Quiet (f : Nat → Event) : Prop where
  noFailure : ∀ n c, f n ≠ .fail c
  readable : ∀ n b, LineItems 1 (completeLines (beginning f n)) b → ∀ e, .error e ∉ b
  noKeyword : ∃ n, ∀ m more, completeLines (beginning f (n + m)) = completeLines (beginning f n) ++ more → ∀ x ∈ more, ¬ KeywordLine (fun _ => True) x

end Verif.Spec
