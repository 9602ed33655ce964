import Verif.Spec.Lazy

/-! How much work reading is: the number of calls of `peek()` and `next()` of the line source. -/

namespace Verif.Spec

/-- A line source that counts the calls of its methods. -/
structure Counted (σ : Type) where
  src : σ
  calls : Nat

instance {σ : Type} [Src σ] : Src (Counted σ) where
  peek s := ((Src.peek s.src).1, ⟨(Src.peek s.src).2, s.calls + 1⟩)
  next s := ((Src.next s.src).1, ⟨(Src.next s.src).2, s.calls + 1⟩)
  bound s := Src.bound s.src

/-- `parse()` with a line source that counts. -/
def parseCounted (env : Env) (stream : List Event) : Out (Reader (Counted Peekable) env.Lang) := Reader.new env ⟨⟨.new stream [], none⟩, 0⟩

/-- `Reader.new` with the line source as it is at the end as result, also if `parse()` fails. -/
def linesAfterNew {σ : Type} [Src σ] (env : Env) (lines : σ) : σ :=
  let res : Reader σ env.Lang := ⟨lines, none, [], [], [], env.langInvariant, none⟩
  match nextUnitM true res with
  | (.ok (some (.ok u)), res) =>
    let res := { res with nextUnit := some (.ok u) }
    if u.message.isEmpty then
      match parsePoHeader env res with
      | (.ok _, res) => (nextUnitM false res).2.lines
      | (_, res) => res.lines
    else res.lines
  | (_, res) => res.lines

/-- The calls of the line source that `parse()` makes, whether it fails or not. -/
def callsOfParse (env : Env) (stream : List Event) : Nat := (linesAfterNew env (⟨⟨.new stream [], none⟩, 0⟩ : Counted Peekable)).calls

/-- The number of plural texts that were looked for to read a result: `nplurals` for a plural unit. -/
def lookups (x : Option (Except Err PoUnit)) : Nat :=
  match x with
  | some (.ok u) => match u.message with
    | .plural p => nplurals p.forms
    | .simple .. => 0
  | _ => 0

end Verif.Spec
