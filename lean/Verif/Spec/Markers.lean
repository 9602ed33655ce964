import Verif.Spec.Select

/-! Inputs that differ in their obsolete markers. -/

namespace Verif.Spec

/-- Two inputs, given by their lines, that agree except that keyword and continuation lines may have an obsolete marker in one and none in the other. -/
inductive OtherMarkers : List (Except IoErr Str) → List (Except IoErr Str) → Prop
  | nil : OtherMarkers [] []
  | same {r rs rs'} : OtherMarkers rs rs' → OtherMarkers (r :: rs) (r :: rs')
  | quoted {s s' m m' k raw raw' rs rs'} : QuotedLine s m k raw → QuotedLine s' m' k raw' → ('|' ∈ m.getD [] ↔ '|' ∈ m'.getD []) → unesc raw = unesc raw' →
      OtherMarkers rs rs' → OtherMarkers (.ok s :: rs) (.ok s' :: rs')

/-- Units with the same data, except that one may be obsolete and the other not. -/
def OnlyObsolete (u u' : PoUnit) : Prop := { u with obsolete := u'.obsolete } = u'

end Verif.Spec
