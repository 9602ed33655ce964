import Verif.Spec.Uncomment

/-! Removing all keyword and continuation lines with obsolete marker, or all without. -/

namespace Verif.Spec

/-- A keyword or continuation line that has an obsolete marker (`o = true`) or has none (`o = false`). -/
def KindLine (o : Bool) (s : Str) : Prop :=
  ∃ p, (o = true ↔ Tilde p) ∧ ((∃ k t, Classified s 0 (some (.message 0 p k t))) ∨ ∃ t, Classified s 0 (some (.continuation 0 p t)))

/-- The second input is the first without its quoted lines of kind `o`. -/
inductive WithoutKind (o : Bool) : List (Except IoErr Str) → List (Except IoErr Str) → Prop
  | nil : WithoutKind o [] []
  | keep {r rs rs'} : (∀ s, r = .ok s → ¬ KindLine o s) → WithoutKind o rs rs' → WithoutKind o (r :: rs) (r :: rs')
  | drop {s rs rs'} : KindLine o s → WithoutKind o rs rs' → WithoutKind o (.ok s :: rs) rs'

/-- The second unit is the first with the data of the comments of the units `ps` put before its own. -/
structure Inherits (ps : List PoUnit) (u u' : PoUnit) : Prop where
  fields : SameFields u u'
  notes : u'.notes = ps.flatMap PoUnit.notes ++ u.notes
  locations : u'.locations = ps.flatMap PoUnit.locations ++ u.locations
  comments : u'.comments = ps.flatMap PoUnit.comments ++ u.comments
  flags : u'.flags = distinct (ps.flatMap PoUnit.flags ++ u.flags)
  state : StateRule u'

/-- The second units are the first without those of kind `o`; each takes over the data of the comments of the units removed immediately before it (before the
first unit also those of `ps`). -/
inductive Selection (o : Bool) : List PoUnit → List PoUnit → List PoUnit → Prop
  | nil {ps} : Selection o ps [] []
  | drop {ps u us us'} : u.obsolete = o → Selection o (ps ++ [u]) us us' → Selection o ps (u :: us) us'
  | keep {ps u u' us us'} : u.obsolete ≠ o → Inherits ps u u' → Selection o [] us us' → Selection o ps (u :: us) (u' :: us')

end Verif.Spec
