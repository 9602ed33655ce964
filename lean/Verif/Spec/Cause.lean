import Verif.Spec.Positions
import Verif.Spec.Catalogue

/-! The line that an error belongs to. -/

namespace Verif.Spec

/-- An error that an unreadable line gives: it cannot be read, or it is not recognised. -/
inductive Unreadable : Err → Prop
  | io {k x} : Unreadable (.io k x)
  | unrecognised {k s} : Unreadable (.parse k s [])

/-- The error belongs to line `k` (from 1).  For a line that is not recognised the number in the error is one too large. -/
inductive AtLine : Err → Nat → Prop
  | io {k x} : 1 ≤ k → AtLine (.io k x) k
  | unrecognised {k s} : 1 ≤ k → AtLine (.parse (k + 1) s []) k
  | missing {k s exp} : 1 ≤ k → exp ≠ [] → AtLine (.parse k s exp) k
  | noSource {k t} : 1 ≤ k → AtLine (.unexpected k t) k

end Verif.Spec
