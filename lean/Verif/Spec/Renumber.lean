import Verif.Spec.Input

/-! Errors with other line numbers. -/

namespace Verif.Spec

/-- The same error with the line number changed by `f`. -/
def renumbered (f : Nat → Nat) : Err → Err
  | .io n e => .io (f n) e
  | .parse n got exp => .parse (f n) got exp
  | .unexpected n msg => .unexpected (f n) msg
  | .pluralForms msg => .pluralForms msg

end Verif.Spec
