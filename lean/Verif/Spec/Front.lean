import Verif.Spec.Change

/-! What `parse()` looks at. -/

namespace Verif.Spec

/-- The first line that is not blank, if there is one, can be read and is recognised. -/
def ReadableStart (rs : List (Except IoErr Str)) : Prop := ∀ n l e tl, LineItems n rs l → l ≠ .error e :: tl

end Verif.Spec
