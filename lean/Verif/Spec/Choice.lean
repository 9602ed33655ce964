import Verif.Spec.Formula

/-! Formulas that always choose a form. -/

namespace Verif.Spec

/-- Operators whose value is a truth value. -/
def Compares : BinOp → Prop
  | .eq | .ne | .lt | .lte | .gt | .gte | .and | .or => True
  | .add | .sub | .mul | .div | .mod => False

/-- Formulas that choose among `k` forms: constants below `k`, truth values if `k` is at least 2, and conditionals made of such formulas (with any test). -/
inductive Chooses (k : Nat) : Node → Prop
  | num {v : Int64} : 0 ≤ v.toInt → v.toInt < k → Chooses k (.num v)
  | not {a} : 2 ≤ k → Chooses k (.unop .not a)
  | compare {o a b} : 2 ≤ k → Compares o → Chooses k (.binop o a b)
  | cond {a b c} : Chooses k b → Chooses k c → Chooses k (.cond a b c)

/-- Formulas without negation. -/
def NoNeg : Node → Prop
  | .var | .num _ => True
  | .unop .neg _ => False
  | .unop .not a => NoNeg a
  | .binop _ a b => NoNeg a ∧ NoNeg b
  | .cond a b c => NoNeg a ∧ NoNeg b ∧ NoNeg c

end Verif.Spec
