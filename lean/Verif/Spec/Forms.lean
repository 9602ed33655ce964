import Verif.Spec.Change

/-! Units with other plural forms. -/

namespace Verif.Spec

/-- The message with other plural forms. -/
def reformMessage (forms : Option PluralForms) : Message → Message
  | .simple id t => .simple id t
  | .plural p => .plural { p with forms := forms }

/-- The unit with other plural forms in its message and its previous message; everything else is the same. -/
def reform (forms : Option PluralForms) (u : PoUnit) : PoUnit :=
  { u with message := reformMessage forms u.message, prevMessage := reformMessage forms u.prevMessage }

/-- All indices of `msgstr[i]` lines are below `k`. -/
def IndicesBelow (k : Nat) (rs : List (Except IoErr Str)) : Prop :=
  ∀ s m i raw, .ok s ∈ rs → QuotedLine s m (some (valueKeyword i)) raw → i < k

end Verif.Spec
