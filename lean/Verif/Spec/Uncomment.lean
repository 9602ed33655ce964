import Verif.Spec.Adjacent
import Verif.Spec.Change

/-! Removing comment lines from an input. -/

namespace Verif.Spec

/-- The second input is the first without some of its comment lines. -/
inductive FewerComments : List (Except IoErr Str) → List (Except IoErr Str) → Prop
  | nil : FewerComments [] []
  | keep {r rs rs'} : FewerComments rs rs' → FewerComments (r :: rs) (r :: rs')
  | drop {s rs rs'} : CommentLine s → FewerComments rs rs' → FewerComments (.ok s :: rs) rs'

/-- The second unit has the data of the first, but fewer of those that come from comments; the state is that of the remaining flags. -/
structure FewerRemarks (u u' : PoUnit) : Prop where
  fields : SameFields u u'
  notes : u'.notes.Sublist u.notes
  locations : u'.locations.Sublist u.locations
  comments : u'.comments.Sublist u.comments
  flags : ∀ f ∈ u'.flags, f ∈ u.flags
  state : StateRule u'

/-- The unit has no data that come from comments. -/
structure NoRemarks (u : PoUnit) : Prop where
  notes : u.notes = []
  locations : u.locations = []
  comments : u.comments = []
  flags : u.flags = []

/-- A comment line may stand before these lines: there are none, or the first is a comment line or a keyword line other than `msgstr[j]`. -/
def BeginsFresh (b : List PoLine) : Prop :=
  ∀ x tl, b = x :: tl → (∃ n c s, x = .comment n c s) ∨ ∃ n p k s, x = .message n p k s ∧ ∀ j, k ≠ valueKeyword j

end Verif.Spec
