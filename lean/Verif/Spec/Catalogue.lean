import Verif.Spec.Run
import Verif.Spec.Plural

/-!
A whole catalogue, stated without the reader: the first entry, which may be the header, the header data, and the units.
-/

namespace Verif.Spec

/-- The lines read so far can still become a first entry.  The reader also accepts a first entry with plural id but without id. -/
def FirstPrefix (block : List PoLine) : Prop := EntryPrefix none block ∨ StrayPlural block

/-- The lines `block` cannot be continued as (the beginning of) a first entry by what follows; what follows can be read. -/
def FirstEnds (block : List PoLine) (rest : List Item) : Prop :=
  rest = [] ∨ ∃ ln tl, rest = .ok ln :: tl ∧ ¬ FirstPrefix (block ++ [ln])

/-- Kind and content of a comment line. -/
def commentOf : PoLine → Option (Char × Str)
  | .comment _ c s => some (c, s)
  | _ => none

/-- The notes in the comment lines of a block. -/
def notesOf (block : List PoLine) : List Note := (block.filterMap commentOf).filterMap noteItem

/-- The other comments in the comment lines of a block. -/
def commentsOf (block : List PoLine) : List Comment := (block.filterMap commentOf).filterMap otherItem

/-- What the first entry of an input is. -/
inductive FirstOut where
  /-- an entry that is not a header -/
  | unit (u : PoUnit) (rest : List Item)
  /-- a header with these notes, comments and text -/
  | header (notes : List Note) (comments : List Comment) (text : Str) (rest : List Item)
  /-- no entry -/
  | nothing
  /-- an error -/
  | fail (e : Err)

/-- The first entry of the items `l`. -/
inductive First : List Item → FirstOut → Prop
  | unit {block u rest} : Entry none block u → HasSource u.message → EndsHere none block rest →
      First (block.map .ok ++ rest) (.unit u rest)
  /-- an entry with an empty id and without plural id -/
  | header {block u t rest} : Entry none block u → u.message = .simple [] t → EndsHere none block rest →
      First (block.map .ok ++ rest) (.header u.notes u.comments (t.getD []) rest)
  /-- lines that are not a comment and could begin an entry, but no `msgid` comes -/
  | noId {block rest} : (∃ o, EntryHead o block) ∨ StrayPlural block → (rest ≠ [] ∨ ∃ ln ∈ block, ¬ IsComment ln) → FirstEnds block rest →
      First (block.map .ok ++ rest) (.header (notesOf block) (commentsOf block) [] rest)
  /-- only comments -/
  | comments {block : List PoLine} : (∀ ln ∈ block, IsComment ln) → First (block.map .ok) .nothing
  /-- the input ends after the ids -/
  | cut {o idPl block} : EntryIds o idPl block → First (block.map .ok) .nothing
  /-- an unreadable line inside or directly after the first entry -/
  | unreadable {block e tl} : FirstPrefix block → First (block.map .ok ++ .error e :: tl) (.fail e)
  /-- no translation where one must come -/
  | noText {o idPl block ln tl} : EntryIds o idPl block → ¬ EntryPrefix none (block ++ [ln]) →
      First (block.map .ok ++ .ok ln :: tl) (.fail (missing (textKeyword idPl) ln))

/-! ### Header data -/

/-- `ls` are the lines of a text: the pieces between its line feeds. -/
def IsLines (text : Str) (ls : List Str) : Prop := ls ≠ [] ∧ (∀ l ∈ ls, '\n' ∉ l) ∧ text = List.intercalate ['\n'] ls

/-- A header line with key `k` and value `v`: the trimmed texts before and after its first colon. -/
def KeyValue (line k v : Str) : Prop := ∃ a b, line = a ++ ':' :: b ∧ ':' ∉ a ∧ Stripped a k ∧ Stripped b v

/-- `vs` are the values of the key `k` in the lines, in order. -/
inductive Values (k : Str) : List Str → List Str → Prop
  | nil : Values k [] []
  | hit {line v ls vs} : KeyValue line k v → Values k ls vs → Values k (line :: ls) (v :: vs)
  | miss {line ls vs} : (∀ v, ¬ KeyValue line k v) → Values k ls vs → Values k (line :: ls) vs

/-- The language of a catalogue whose `Language` property is `p`. -/
def languageOf (env : Env) (p : Option Str) : env.Lang :=
  match p with
  | none => env.langInvariant
  | some s => ((env.langNew s).or (env.langFromUnix s)).getD env.langInvariant

/-- The header data that come from a header entry with these notes, comments and text. -/
structure HeaderRule (env : Env) (notes : List Note) (comments : List Comment) (text : Str) (hdr : Header env.Lang) : Prop where
  notes : hdr.notes = notes
  comments : hdr.comments = comments
  /-- the association list stands for a map -/
  keys : (hdr.properties.map Prod.fst).Nodup
  /-- a key without a line is absent, otherwise its values are joined by one space -/
  properties : ∀ ls, IsLines text ls → ∀ k vs, Values k ls vs →
    hdr.properties.lookup k = if vs = [] then none else some (List.intercalate [' '] vs)
  language : hdr.language = languageOf env (hdr.properties.lookup (c!"Language"))

/-- The same header data; the order of the association list, which stands for a map, does not matter. -/
structure SameHeader {L : Type} (h h' : Header L) : Prop where
  notes : h.notes = h'.notes
  comments : h.comments = h'.comments
  properties : ∀ k, h.properties.lookup k = h'.properties.lookup k
  language : h.language = h'.language

/-- The plural forms of a catalogue, or an error, from the `Plural-Forms` property. -/
inductive FormsRule (env : Env) : Option Str → Except Err (Option PluralForms) → Prop
  | absent : FormsRule env none (.ok none)
  | empty : FormsRule env (some []) (.ok none)
  | given {s f} : s ≠ [] → FormsOf s f → FormsRule env (some s) (.ok (some f))
  | bad {s e} : s ≠ [] → FormsError env s e → FormsRule env (some s) (.error e)

/-- The header data of a catalogue without header. -/
def plainHeader (env : Env) : Header env.Lang := ⟨[], [], [], env.langInvariant⟩

/-- `parse()` fails. -/
inductive Rejects (env : Env) (l : List Item) : Err → Prop
  | first {e} : First l (.fail e) → Rejects env l e
  | badForms {ns cs t rest hdr e} : First l (.header ns cs t rest) → HeaderRule env ns cs t hdr →
      FormsRule env (hdr.properties.lookup (c!"Plural-Forms")) (.error e) → Rejects env l e

/-- `parse()` gives a reader with header data `hdr` and plural forms `forms`, which yields the units `us` and then stops, with an
error or without. -/
inductive Reads (env : Env) (l : List Item) : Header env.Lang → Option PluralForms → List PoUnit → Option Err → Prop
  | nothing : First l .nothing → Reads env l (plainHeader env) none [] none
  | plain {u rest us e} : First l (.unit u rest) → Run none rest us e → Reads env l (plainHeader env) none (u :: us) e
  | headed {ns cs t rest hdr forms us e} : First l (.header ns cs t rest) → HeaderRule env ns cs t hdr →
      FormsRule env (hdr.properties.lookup (c!"Plural-Forms")) (.ok forms) → Run forms rest us e → Reads env l hdr forms us e

end Verif.Spec
