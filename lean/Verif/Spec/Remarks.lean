import Verif.Spec.Counting

/-! The comment lines of an input, in order. -/

namespace Verif.Spec

/-- `cs` are kind and content of the comment lines of `rs`. -/
inductive Remarks : List (Except IoErr Str) → List (Char × Str) → Prop
  | nil : Remarks [] []
  | comment {s c t rs cs} : Classified s 0 (some (.comment 0 c t)) → Remarks rs cs → Remarks (.ok s :: rs) ((c, t) :: cs)
  | other {s rs cs} : (∀ c t, ¬ Classified s 0 (some (.comment 0 c t))) → Remarks rs cs → Remarks (.ok s :: rs) cs

/-- The data from the comment lines `cs` are those of the units `us`, in order; the flags as sets. -/
structure RemarkData (cs : List (Char × Str)) (us : List PoUnit) : Prop where
  notes : us.flatMap (fun u => u.notes) = cs.filterMap noteItem
  comments : us.flatMap (fun u => u.comments) = cs.filterMap otherItem
  locations : us.flatMap (fun u => u.locations) = cs.flatMap locationItems
  flags : ∀ f, (∃ u ∈ us, f ∈ u.flags) ↔ ∃ c ∈ cs, f ∈ flagItems c

end Verif.Spec
