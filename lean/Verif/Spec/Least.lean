import Verif.Spec.Layout
import Verif.Spec.Catalogue

/-! The least number of lines for given data. -/

namespace Verif.Spec

/-- One line if there is such a text. -/
def optLeast : Option Str → Nat
  | none => 0
  | some _ => 1

/-- One line for all the elements together, if there are any. -/
def someLeast : List Str → Nat
  | [] => 0
  | _ :: _ => 1

/-- Lines for the ids and texts of a message. -/
def messageLeast : Message → Nat
  | .simple _ _ => 2
  | .plural p => 2 + p.values.length

/-- Lines for the ids of a previous message. -/
def previousLeast : Message → Nat
  | .simple [] _ => 0
  | .simple (_ :: _) _ => 1
  | .plural _ => 2

/-- Lines for a unit: one for each note, each other comment, each id, each text and each context, one for all places, one for all flags. -/
def unitLeast (u : PoUnit) : Nat :=
  u.notes.length + u.comments.length + someLeast u.locations + someLeast u.flags + optLeast u.prevContext + previousLeast u.prevMessage +
    optLeast u.context + messageLeast u.message

/-- Lines for header data: one for each note and each comment, two for the properties.  If there are notes or comments but no properties, one more is
needed. -/
def headerLeast {L : Type} (h : Header L) : Nat :=
  h.notes.length + h.comments.length + (if h.properties ≠ [] then 2 else if h.notes = [] ∧ h.comments = [] then 0 else 1)

/-- The number of lines of an input that are not blank. -/
noncomputable def solidLines (stream : List Event) : Nat := ((rawLines (flatten stream)).filter notBlank).length

end Verif.Spec
