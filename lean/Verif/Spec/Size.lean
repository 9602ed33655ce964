import Verif.Spec.Catalogue

/-! The texts in the delivered data and the room they take. -/

namespace Verif.Spec

/-- The texts of a message. -/
def messageTexts : Message → List Str
  | .simple id t => id :: t.toList
  | .plural p => p.singular :: p.plural :: p.values

/-- A comment as one text: its kind and its content. -/
def commentText (c : Comment) : Str := c.kind :: c.content

/-- All texts of a unit. -/
def unitTexts (u : PoUnit) : List Str :=
  u.context.toList ++ (u.prevContext.toList ++ (messageTexts u.message ++ (messageTexts u.prevMessage ++ (u.flags ++ (u.notes.map Note.value ++
    (u.locations ++ u.comments.map commentText))))))

/-- All texts of the header data. -/
def headerTexts {L : Type} (hdr : Header L) : List Str :=
  hdr.notes.map Note.value ++ (hdr.comments.map commentText ++ hdr.properties.flatMap fun p => [p.1, p.2])

/-- The room for texts in UTF-8: one byte more than each has. -/
def room (l : List Str) : Nat := (l.map fun s => (utf8 s).length + 1).sum

end Verif.Spec
