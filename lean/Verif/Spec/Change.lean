import Verif.Spec.Layout

/-! Changes of an input and what they change in the results: comments, and the obsolete marking. -/

namespace Verif.Spec

/-- Two lists of the same length whose elements are related one by one. -/
inductive Each {α : Type} (R : α → α → Prop) : List α → List α → Prop
  | nil : Each R [] []
  | cons {a a' l l'} : R a a' → Each R l l' → Each R (a :: l) (a' :: l')

/-- Two optional values that are both absent, or both present and related. -/
inductive Both {α : Type} (R : α → α → Prop) : Option α → Option α → Prop
  | none : Both R none none
  | some {a a'} : R a a' → Both R (some a) (some a')

/-- Results that correspond: both calls of `parse()` fail, with errors related by `E`; or both give readers, with header data related by `H`, with the
same number of units, related one by one by `U`, and then both no error or errors related by `E`. -/
def Correspond {σ σ' L : Type} [Src σ] [Src σ'] (H : Header L → Header L → Prop) (U : PoUnit → PoUnit → Prop) (E : Err → Err → Prop)
    (r : Out (Reader σ L)) (r' : Out (Reader σ' L)) : Prop :=
  (∃ e e', Fails r e ∧ Fails r' e' ∧ E e e') ∨
  ∃ hdr hdr' us us' e e', Yields r hdr (results us e) ∧ Yields r' hdr' (results us' e') ∧ H hdr hdr' ∧ Each U us us' ∧ Both E e e'

/-- A comment line. -/
def CommentLine (s : Str) : Prop := ∃ c t, Classified s 0 (some (.comment 0 c t))

/-- Two inputs, given by their lines, that differ only in their comment lines and blank lines.  Where one has comment lines, the other must have comment
lines too, but any number of any kind; only at the very beginning (`b = true`) one may have comment lines and the other none. -/
inductive Recommented : Bool → List (Except IoErr Str) → List (Except IoErr Str) → Prop
  | nil {b} : Recommented b [] []
  | failed {b e rs rs'} : Recommented b (.error e :: rs) (.error e :: rs')
  | line {b s rs rs'} : ¬ CommentLine s → Recommented false rs rs' → Recommented b (.ok s :: rs) (.ok s :: rs')
  | blankLeft {b s rs rs'} : White s → Recommented b rs rs' → Recommented b (.ok s :: rs) rs'
  | blankRight {b s rs rs'} : White s → Recommented b rs rs' → Recommented b rs (.ok s :: rs')
  /-- a comment line on either side -/
  | comments {b s s' rs rs'} : CommentLine s → CommentLine s' → Recommented true rs rs' → Recommented b (.ok s :: rs) (.ok s' :: rs')
  /-- a further comment line on one side -/
  | moreLeft {s rs rs'} : CommentLine s → Recommented true rs rs' → Recommented true (.ok s :: rs) rs'
  | moreRight {s rs rs'} : CommentLine s → Recommented true rs rs' → Recommented true rs (.ok s :: rs')

/-- Units with the same data, except for what comments give: notes, comments, flags, locations and the state. -/
structure SameFields (u u' : PoUnit) : Prop where
  context : u.context = u'.context
  prevContext : u.prevContext = u'.prevContext
  message : u.message = u'.message
  prevMessage : u.prevMessage = u'.prevMessage
  obsolete : u.obsolete = u'.obsolete

/-- Header data that agree except for notes and comments. -/
structure SameProperties {L : Type} (h h' : Header L) : Prop where
  properties : h.properties = h'.properties
  language : h.language = h'.language

/-- The same error, up to the line number and up to the comment kind if the error shows a comment line. -/
inductive SameButComment : Err → Err → Prop
  | same {e e'} : SameErr e e' → SameButComment e e'
  | comment {n n' c c' exp} : SameButComment (.parse n ['#', c] exp) (.parse n' ['#', c'] exp)

/-- Two inputs, given by their lines: in the first no keyword or continuation line has an obsolete marker (`#~`), in the second all have; otherwise they
agree. -/
inductive Obsoleted : List (Except IoErr Str) → List (Except IoErr Str) → Prop
  | nil : Obsoleted [] []
  | failed {e rs rs'} : Obsoleted (.error e :: rs) (.error e :: rs')
  /-- comment lines, blank lines, unrecognised lines -/
  | line {s rs rs'} : (∀ m k raw, ¬ QuotedLine s m k raw) → Obsoleted rs rs' → Obsoleted (.ok s :: rs) (.ok s :: rs')
  | quoted {s s' m k raw raw' rs rs'} : QuotedLine s m k raw → ¬ Tilde (m.getD []) → QuotedLine s' (some ('~' :: m.getD [])) k raw' →
      unesc raw = unesc raw' → Obsoleted rs rs' → Obsoleted (.ok s :: rs) (.ok s' :: rs')

/-- The same error, except that the first may show a marker and the second the same marker with `~`. -/
inductive SameButMarker : Err → Err → Prop
  | same {e} : SameButMarker e e
  | marker {n p exp} : SameButMarker (.parse n p exp) (.parse n ('~' :: p) exp)

end Verif.Spec

namespace Verif.Spec

/-- The lines are a header: an entry with an empty id and without plural id. -/
def HeaderLines (hd : List (Except IoErr Str)) : Prop :=
  ∃ block u t, LineItems 1 hd (block.map .ok) ∧ Entry none block u ∧ u.message = .simple [] t

/-- The first line that is not blank, if there is one, is not a continuation line. -/
def NoContinuation (rs : List (Except IoErr Str)) : Prop :=
  ∀ n l m p s tl, LineItems n rs l → l ≠ .ok (.continuation m p s) :: tl

end Verif.Spec
