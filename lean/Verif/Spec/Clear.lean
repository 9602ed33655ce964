import Verif.Spec.Adjacent
import Verif.Spec.Fields

/-! Removing the previous texts from an input. -/

namespace Verif.Spec

/-- The second input is the first without the lines whose marker has a bar: `#|` and `#~|`. -/
inductive Cleared : List (Except IoErr Str) → List (Except IoErr Str) → Prop
  | nil : Cleared [] []
  | previous {s m k raw rs rs'} : QuotedLine s m k raw → '|' ∈ m.getD [] → Cleared rs rs' → Cleared (.ok s :: rs) rs'
  | other {s rs rs'} : (∀ m k raw, QuotedLine s m k raw → '|' ∉ m.getD []) → Cleared rs rs' → Cleared (.ok s :: rs) (.ok s :: rs')
  | failed {e rs rs'} : Cleared rs rs' → Cleared (.error e :: rs) (.error e :: rs')

end Verif.Spec
