import Verif.Spec.Formula

/-! Formulas put into formulas. -/

namespace Verif.Spec

/-- The tokens of a formula with every `n` replaced by other tokens in parentheses. -/
def insertTokens (toks' toks : List Tok) : List Tok := toks.flatMap fun t => if t = .n then .lpar :: (toks' ++ [.rpar]) else [t]

end Verif.Spec
