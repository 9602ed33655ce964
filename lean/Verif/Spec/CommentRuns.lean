import Verif.Spec.Change

/-! Runs of comment lines: what each kind of comment lines contributes. -/

namespace Verif.Spec

/-- Two runs of comment lines, given by kinds and contents, that give the same flags, locations, notes or other comments, as far as is asked for. -/
structure Agree (flags locations notes comments : Bool) (cs cs' : List (Char × Str)) : Prop where
  flags : flags = true → distinct (cs.flatMap flagItems) = distinct (cs'.flatMap flagItems)
  locations : locations = true → cs.flatMap locationItems = cs'.flatMap locationItems
  notes : notes = true → cs.filterMap noteItem = cs'.filterMap noteItem
  comments : comments = true → cs.filterMap otherItem = cs'.filterMap otherItem

/-- Comment lines with their kinds and contents. -/
def CommentLines (ss : List (Str × Char × Str)) : Prop := ∀ x ∈ ss, Classified x.1 0 (some (.comment 0 x.2.1 x.2.2))

/-- Two inputs, given by their lines, in which runs of comment lines (at least one line each) are replaced by runs of comment lines that are related by `R`;
blank lines do not matter. -/
inductive Rewritten (R : List (Char × Str) → List (Char × Str) → Prop) : List (Except IoErr Str) → List (Except IoErr Str) → Prop
  | nil : Rewritten R [] []
  | failed {e rs rs'} : Rewritten R (.error e :: rs) (.error e :: rs')
  | line {s rs rs'} : ¬ CommentLine s → Rewritten R rs rs' → Rewritten R (.ok s :: rs) (.ok s :: rs')
  | blankLeft {s rs rs'} : White s → Rewritten R rs rs' → Rewritten R (.ok s :: rs) rs'
  | blankRight {s rs rs'} : White s → Rewritten R rs rs' → Rewritten R rs (.ok s :: rs')
  | run {ss ss' rs rs'} : ss ≠ [] → ss' ≠ [] → CommentLines ss → CommentLines ss' → R (ss.map Prod.snd) (ss'.map Prod.snd) → Rewritten R rs rs' →
      Rewritten R (ss.map (fun x => .ok x.1) ++ rs) (ss'.map (fun x => .ok x.1) ++ rs')

/-- Units that agree in everything that does not come from comments, and in what is asked for. -/
structure AgreeUnits (flags locations notes comments : Bool) (u u' : PoUnit) : Prop where
  fields : SameFields u u'
  flags : flags = true → u.flags = u'.flags ∧ u.state = u'.state
  locations : locations = true → u.locations = u'.locations
  notes : notes = true → u.notes = u'.notes
  comments : comments = true → u.comments = u'.comments

/-- Header data that agree in properties and language, and in what is asked for. -/
structure AgreeHeaders {L : Type} (notes comments : Bool) (h h' : Header L) : Prop where
  properties : SameProperties h h'
  notes : notes = true → h.notes = h'.notes
  comments : comments = true → h.comments = h'.comments

/-- The four classes of comment kinds: flags, locations, notes, others. -/
def commentClass (c : Char) : Fin 4 := if c = ',' then 0 else if c = ':' then 1 else if c = '.' ∨ c = ' ' then 2 else 3

/-- The same comment lines in another order; those of the same class keep their order. -/
def Shuffled (cs cs' : List (Char × Str)) : Prop :=
  ∀ k, cs.filter (fun c => commentClass c.1 = k) = cs'.filter (fun c => commentClass c.1 = k)

end Verif.Spec
