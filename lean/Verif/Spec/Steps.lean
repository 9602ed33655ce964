import Verif.Model.Formula

/-! The size of formulas. -/

namespace Verif.Spec

/-- The number of operators, literals and variables of a formula. -/
def nodeCount : Node → Nat
  | .var => 1
  | .num _ => 1
  | .unop _ a => 1 + nodeCount a
  | .binop _ a b => 1 + (nodeCount a + nodeCount b)
  | .cond a b c => 1 + (nodeCount a + (nodeCount b + nodeCount c))

/-- How deep a formula is nested. -/
def nesting : Node → Nat
  | .var => 1
  | .num _ => 1
  | .unop _ a => 1 + nesting a
  | .binop _ a b => 1 + max (nesting a) (nesting b)
  | .cond a b c => 1 + max (nesting a) (max (nesting b) (nesting c))

/-- The sum of `k + 1` variables, as it is grouped by the grammar. -/
def longSum : Nat → Node
  | 0 => .var
  | k + 1 => .binop .add (longSum k) .var

/-- Its text: `n+n+…+n`. -/
def longSumText : Nat → Str
  | 0 => c!"n"
  | k + 1 => longSumText k ++ c!"+n"

end Verif.Spec
