import Verif.Model.Formula

/-! Model of the equality of formulas, src/plural/formula/node.rs:149-184 and the derived equality of `Formula`, src/plural/formula/mod.rs:8-11. -/

namespace Verif

/-- `PartialEq for Node`, src/plural/formula/node.rs:149-182.  The operators have derived equality. -/
def Node.beq : Node → Node → Bool
  | .var, .var => true
  | .num l, .num r => l == r
  | .unop lo lr, .unop ro rr => decide (lo = ro) && lr.beq rr
  | .binop lo ll lr, .binop ro rl rr => decide (lo = ro) && ll.beq rl && lr.beq rr
  | .cond lc lt lf, .cond rc rt rf => lc.beq rc && lt.beq rt && lf.beq rf
  | _, _ => false

end Verif
