import Verif.Model.Table
import Verif.Spec.Formula

/-! What the table-driven parser reports, stated with the grammar alone. -/

namespace Verif.Spec

/-- `Scans s toks whole`: the tokens of `s` are `toks` up to the end (`whole = true`), or up to a place where no token begins. -/
inductive Scans : Str → List Tok → Bool → Prop
  | nil {ws} : White ws → Scans ws [] true
  | bad {ws c cs} : White ws → isWhite c = false → (∀ lx tok, Lexeme lx tok → ¬ lx <+: c :: cs) → Scans (ws ++ c :: cs) [] false
  | cons {ws lx rest tok toks whole} : White ws → Lexeme lx tok →
      (∀ lx' tok', Lexeme lx' tok' → lx' <+: lx ++ rest → lx'.length ≤ lx.length) → Scans rest toks whole →
      Scans (ws ++ (lx ++ rest)) (tok :: toks) whole

/-- Some formula begins with these tokens. -/
def Begins (p : List Tok) : Prop := ∃ q t, Derives .expr (p ++ q) t

/-- The token, for a numeral `0`. -/
def plain : Tok → Tok
  | .num _ => .num ['0']
  | a => a

/-- What is reported for the tokens of a text.  At the end of the tokens: a tree, no token here, or more tokens expected.  Before: a numeral that is too
large where a numeral is allowed, a closing sign after a whole formula, or the first token with which no formula goes on. -/
inductive Verdict : List Tok → Bool → LrResult → Prop
  | accept {p t} : Derives .expr p t → Verdict p true (.accept t)
  | noToken {p} : Begins p → Verdict p false .invalidToken
  | noTokenAfter {p ds} : Begins (p ++ [.num ['0']]) → Verdict (p ++ [.num ds]) false .invalidToken
  | early {p} : Begins p → (¬ ∃ t, Derives .expr p t) → Verdict p true (.unrecognized [])
  | large {p ds rest whole} : Begins (p ++ [.num ['0']]) → 2 ^ 63 ≤ Nat.ofDigitChars 10 ds 0 → (rest = [] → whole = true) → Verdict (p ++ .num ds :: rest) whole (.user rest)
  | extra {p t a rest whole} : Derives .expr p t → a = .rpar ∨ a = .colon → Verdict (p ++ a :: rest) whole (.extra (a :: rest))
  | unexpected {p a rest whole} : Begins p → ¬ Begins (p ++ [plain a]) → ¬ ((∃ t, Derives .expr p t) ∧ (a = .rpar ∨ a = .colon)) →
      Verdict (p ++ a :: rest) whole (.unrecognized (a :: rest))

end Verif.Spec
