import Verif.Spec.Entry

/-! Texts of fields, read off a block of lines directly. -/

namespace Verif.Spec

/-- The concatenated texts of the continuation lines at the beginning. -/
def contText : List PoLine → Str
  | .continuation _ _ s :: rest => s ++ contText rest
  | _ => []

/-- The text of the first field with keyword `kw`: that of the keyword line and of the continuation lines after it. -/
def fieldText (kw : Str) : List PoLine → Option Str
  | [] => none
  | .message _ _ t s :: rest => if t = kw then some (s ++ contText rest) else fieldText kw rest
  | _ :: rest => fieldText kw rest

/-- The lines without the previous fields (those whose keyword starts with `|`, written `#|`) and their continuation lines. -/
def withoutPrevious : Bool → List PoLine → List PoLine
  | _, [] => []
  | skip, .continuation n p s :: rest => if skip then withoutPrevious skip rest else .continuation n p s :: withoutPrevious skip rest
  | _, .message n p t s :: rest =>
    if t.head? = some '|' then withoutPrevious true rest else .message n p t s :: withoutPrevious false rest
  | _, ln :: rest => ln :: withoutPrevious false rest

/-- The unit without its previous fields. -/
def clearPrevious (u : PoUnit) : PoUnit := { u with prevContext := none, prevMessage := .simple [] none }

end Verif.Spec
