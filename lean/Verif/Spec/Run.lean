import Verif.Spec.Entry
import Verif.Spec.Input

/-!
A whole run over line items, stated without the reader: entries one after the other, and the ways in which reading stops.
-/

namespace Verif.Spec

/-- The beginning of an entry of kind `o`: comments, previous fields and the context. -/
def EntryHead (o : Bool) (block : List PoLine) : Prop :=
  ∃ (cs : List (Nat × Char × Str)) (b1 b2 b3 b4 : List PoLine) (prevContext prevId prevPl context : Option Str),
    block = cs.map commentLine ++ (b1 ++ (b2 ++ (b3 ++ b4))) ∧
    OptField (c!"|msgctxt") o b1 prevContext ∧
    OptField (c!"|msgid") o b2 prevId ∧
    OptField (c!"|msgid_plural") o b3 prevPl ∧ (prevId = none → prevPl = none) ∧
    OptField (c!"msgctxt") o b4 context

/-- The beginning of an entry of kind `o` up to its ids; `idPl` is the plural id. -/
def EntryIds (o : Bool) (idPl : Option Str) (block : List PoLine) : Prop :=
  ∃ (b b5 b6 : List PoLine) (id : Str),
    block = b ++ (b5 ++ b6) ∧ EntryHead o b ∧ Field (c!"msgid") o b5 id ∧ OptField (c!"msgid_plural") o b6 idPl

/-- The beginning of a first entry with a plural id but without id (which the reader accepts). -/
def StrayPlural (block : List PoLine) : Prop :=
  ∃ (o : Bool) (b b6 : List PoLine) (pl : Str), block = b ++ b6 ∧ EntryHead o b ∧ Field (c!"msgid_plural") o b6 pl

/-- What an error message shows of a line. -/
def shown : PoLine → Str
  | .message _ p _ _ => p
  | .continuation .. => c!"\""
  | .comment _ c _ => ['#', c]
  | .blank => []

/-- The error for a missing field `kw` where the line `ln` comes instead. -/
def missing (kw : Str) (ln : PoLine) : Err := .parse (lineNumber ln) (shown ln) kw

/-- A comment line. -/
def IsComment (ln : PoLine) : Prop := ∃ c, ln = commentLine c

/-- The keyword that an entry needs after its ids. -/
def textKeyword (idPl : Option Str) : Str :=
  match idPl with
  | none => c!"msgstr"
  | some _ => c!"msgstr[0]"

/-- The lines read so far can still become an entry (or are one): the beginning of an entry up to its context, up to its ids, or a
complete entry, which may still grow. -/
def EntryPrefix (forms : Option PluralForms) (block : List PoLine) : Prop :=
  (∃ o, EntryHead o block) ∨ (∃ o idPl, EntryIds o idPl block) ∨ ∃ u, Entry forms block u

/-- The lines `block` cannot be continued as (the beginning of) an entry by what follows; what follows can be read. -/
def EndsHere (forms : Option PluralForms) (block : List PoLine) (rest : List Item) : Prop :=
  rest = [] ∨ ∃ ln tl, rest = .ok ln :: tl ∧ ¬ EntryPrefix forms (block ++ [ln])

/-- The ways in which reading stops at the items `l`: without error, or with an error.  Exactly one of them, or an entry, applies
(`run_iff` in `Verif.Lemmas.Determinism`). -/
inductive Stops (forms : Option PluralForms) : List Item → Option Err → Prop
  /-- the input ends in the comments, previous fields or context of an entry (in particular: the input ends) -/
  | endsInHead {o block} : EntryHead o block → Stops forms (block.map .ok) none
  /-- the input ends after the ids of an entry -/
  | endsAfterIds {o idPl block} : EntryIds o idPl block → Stops forms (block.map .ok) none
  /-- an unreadable line inside or directly after an entry -/
  | unreadable {block e tl} : EntryPrefix forms block → Stops forms (block.map .ok ++ .error e :: tl) (some e)
  /-- no `msgid` where one must come -/
  | noId {o block ln tl} : EntryHead o block → ¬ EntryPrefix forms (block ++ [ln]) →
      Stops forms (block.map .ok ++ .ok ln :: tl) (some (missing (c!"msgid") ln))
  /-- no translation where one must come -/
  | noText {o idPl block ln tl} : EntryIds o idPl block → ¬ EntryPrefix forms (block ++ [ln]) →
      Stops forms (block.map .ok ++ .ok ln :: tl) (some (missing (textKeyword idPl) ln))
  /-- an entry with an empty id and without plural id; the error has the number of the first line after the comments -/
  | noSource {cs ln block u rest t} : Entry forms (cs ++ ln :: block) u → (∀ c ∈ cs, IsComment c) → ¬ IsComment ln → u.message = .simple [] t →
      EndsHere forms (cs ++ ln :: block) rest →
      Stops forms ((cs ++ ln :: block).map .ok ++ rest) (some (.unexpected (lineNumber ln) (c!"Source should not be empty")))

/-- The unit has a source text: a plural message, or a non-empty id. -/
def HasSource (m : Message) : Prop :=
  match m with
  | .simple id _ => id ≠ []
  | .plural _ => True

/-- Reading the items `l` after the header gives the units `us` and then stops, with an error or without. -/
inductive Run (forms : Option PluralForms) : List Item → List PoUnit → Option Err → Prop
  | stop {l e} : Stops forms l e → Run forms l [] e
  | entry {block u rest us e} : Entry forms block u → HasSource u.message → EndsHere forms block rest → Run forms rest us e →
      Run forms (block.map .ok ++ rest) (u :: us) e

end Verif.Spec
