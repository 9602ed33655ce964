import Verif.Model.Reader
import Verif.Spec.Text

/-!
Byte streams, lines and observations, specified on flat data.
-/

namespace Verif.Spec

/-- The bytes a stream delivers before it ends or fails, and the failure if there is one.  How the bytes are cut into chunks and
where reads are interrupted does not matter. -/
def flatten : List Event → List UInt8 × Option Nat
  | [] => ([], none)
  | .interrupted :: es => flatten es
  | .fail c :: _ => ([], some c)
  | .data b bs :: es => (b :: bs ++ (flatten es).1, (flatten es).2)

/-- Cut a byte string after every `\n` (10): the complete lines, each with its `\n`, and the rest. -/
def byteLines : List UInt8 → List (List UInt8) × List UInt8
  | [] => ([], [])
  | b :: bs =>
    if b = 10 then ([b] :: (byteLines bs).1, (byteLines bs).2)
    else
      match (byteLines bs).1 with
      | [] => ([], b :: (byteLines bs).2)
      | l :: ls => ((b :: l) :: ls, (byteLines bs).2)

open Classical in
/-- `LineText` as a function (`lineText_iff` in `Verif.Lemmas.Decode`). -/
noncomputable def lineText (l : List UInt8) : Except IoErr Str := if h : ∃ x, LineText l x then h.choose else .error .invalidUtf8

/-- The lines of an input: the complete lines, then the failure, or the unterminated last line if it is not empty. -/
noncomputable def rawLines (input : List UInt8 × Option Nat) : List (Except IoErr Str) :=
  (byteLines input.1).1.map lineText ++
    match input.2 with
    | some c => [.error (.os c)]
    | none => if (byteLines input.1).2 = [] then [] else [lineText (byteLines input.1).2]

/-- The line items of an input whose first line has number `n`, by the line grammar: blank lines are skipped, and the first line that cannot be read or
is not recognised is the last item. -/
noncomputable def itemsOf (n : Nat) : List (Except IoErr Str) → List Item
  | [] => []
  | .error e :: _ => [.error (.io n e)]
  | .ok s :: rs =>
    match classify s n with
    | none => [.error (.parse (n + 1) s [])]
    | some .blank => itemsOf (n + 1) rs
    | some p => .ok p :: itemsOf (n + 1) rs

/-- The line items of a stream. -/
noncomputable def streamItems (stream : List Event) : List Item := itemsOf 1 (rawLines (flatten stream))

/-- What the accessors of `CatalogueReader` return. -/
structure Header (L : Type) where
  notes : List Note
  comments : List Comment
  properties : List (Str × Str)
  language : L

/-- The header data of a reader. -/
def headerOf {σ L : Type} (r : Reader σ L) : Header L := ⟨r.headerNotes, r.headerComments, r.headerProperties, r.targetLanguage⟩

/-- The results of `k` successive calls of `next()`, each with the header data visible after the call; or a panic. -/
def trace {σ L : Type} [Src σ] : Nat → Reader σ L → Out (List (Header L × Option (Except Err PoUnit)))
  | 0, _ => .ok []
  | k + 1, r =>
    match r.next with
    | (.ok x, r') => (trace k r').bind fun xs => .ok ((headerOf r', x) :: xs)
    | (.err e, _) => .err e
    | (.panic, _) => .panic

/-- Everything a user sees: the error of `parse()`, or the header data followed by the results of `k` calls of `next()`. -/
def observe {σ L : Type} [Src σ] (k : Nat) (r : Out (Reader σ L)) :
    Out (Header L × List (Header L × Option (Except Err PoUnit))) :=
  r.bind fun r => (trace k r).bind fun xs => .ok (headerOf r, xs)

end Verif.Spec

namespace Verif.Spec
variable {σ L : Type} [Src σ]

/-- A user who calls `parse()` gets this error. -/
def Fails (r : Out (Reader σ L)) (e : Err) : Prop := r = .err e

/-- A user who calls `parse()` gets a reader with header data `hdr`; successive calls of `next()` return the elements of `results`
in order and then `None` for ever, however often `next()` is called; the header data stay the same all the time. -/
def Yields (r : Out (Reader σ L)) (hdr : Header L) (results : List (Except Err PoUnit)) : Prop :=
  ∀ k, observe k r = .ok (hdr, (List.range k).map fun i => (hdr, results[i]?))

/-- Units followed by an optional error, as results of `next()`. -/
def results (us : List PoUnit) (e : Option Err) : List (Except Err PoUnit) := us.map .ok ++ e.toList.map .error

end Verif.Spec

namespace Verif.Spec

/-- A line that can be ended with a line feed: no line feed inside, no carriage return at the end. -/
def CleanLine (l : Str) : Prop := '\n' ∉ l ∧ l.getLast? ≠ some '\r'

instance (l : Str) : Decidable (CleanLine l) := inferInstanceAs (Decidable (_ ∧ _))

/-- `t` is a text with lines `ls`: each line is terminated by LF or CRLF, the last one may be unterminated if it is not empty.  LF only after a line that
does not end in a carriage return, which would be taken as part of the terminator. -/
inductive Rendering : List Str → Str → Prop
  | nil : Rendering [] []
  | last {l} : l ≠ [] → '\n' ∉ l → Rendering [l] l
  | lf {l ls t} : CleanLine l → Rendering ls t → Rendering (l :: ls) (l ++ '\n' :: t)
  | crlf {l ls t} : '\n' ∉ l → Rendering ls t → Rendering (l :: ls) (l ++ '\r' :: '\n' :: t)

/-- A stream that delivers the bytes `bs` and ends. -/
def Delivers (stream : List Event) (bs : List UInt8) : Prop := flatten stream = (bs, none)

end Verif.Spec
