import Verif.Model.Formula

/-! `Node::execute` with a count of its calls. -/

namespace Verif

/-- The result of an evaluation, the number of calls of `execute`, and how many of them are active at the same time. -/
structure Steps where
  result : Out Int64
  calls : Nat
  depth : Nat

/-- One evaluation after the other. -/
def Steps.bind (x : Steps) (f : Int64 → Steps) : Steps :=
  match x.result with
  | .ok v => ⟨(f v).result, x.calls + (f v).calls, max x.depth (f v).depth⟩
  | .err e => ⟨.err e, x.calls, x.depth⟩
  | .panic => ⟨.panic, x.calls, x.depth⟩

/-- No call. -/
def Steps.done (r : Out Int64) : Steps := ⟨r, 0, 0⟩

/-- The body of a call. -/
def Steps.call (x : Steps) : Steps := ⟨x.result, x.calls + 1, x.depth + 1⟩

/-- `Node::execute`, src/plural/formula/node.rs:91-146, with its calls counted. -/
def Node.steps (dbg : Bool) (n : Int64) : Node → Steps
  | .var => .call (.done (.ok n))
  | .num v => .call (.done (.ok v))
  | .unop .not rhs => .call ((rhs.steps dbg n).bind fun v => .done (.ok (boolToNum (v == 0))))
  | .unop .neg rhs => .call ((rhs.steps dbg n).bind fun v => .done (negI64 dbg v))
  | .binop op lhs rhs => .call <|
    (lhs.steps dbg n).bind fun l =>
      match op with
      | .and => if l != 0 then (rhs.steps dbg n).bind fun r => .done (.ok (boolToNum (r != 0))) else .done (.ok (boolToNum false))
      | .or => if l != 0 then .done (.ok (boolToNum true)) else (rhs.steps dbg n).bind fun r => .done (.ok (boolToNum (r != 0)))
      | op => (rhs.steps dbg n).bind fun r => .done (.ok (op.apply l r))
  | .cond test t f => .call <|
    (test.steps dbg n).bind fun v => if v != 0 then t.steps dbg n else f.steps dbg n

end Verif
