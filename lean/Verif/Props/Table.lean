import Verif.Lemmas.TableVerdict
import Verif.Props.Formula

/-! The table-driven parser of plural formulas: C76. -/

namespace Verif
open Spec

/-- **C76** The parser made from the tables of the grammar accepts a text with a tree iff its tokens are derivable in the grammar with this tree. -/
theorem C76_table (s : Str) (t : Node) : lrParse s = .accept t ↔ ∃ toks, Tokens s toks ∧ Derives .expr toks t := by
  have hs := lexUntil_scans s
  constructor
  · intro h
    generalize hr : LrResult.accept t = r at h
    have hv := (lrParse_iff hs).mp h
    generalize (lexUntil s).1 = ts at hs hv
    generalize (lexUntil s).2 = b at hs hv
    cases hv <;> cases hr
    exact ⟨ts, scans_tokens.mp hs, by assumption⟩
  · rintro ⟨toks, h1, h2⟩
    exact (lrParse_iff (scans_tokens.mpr h1)).mpr (.accept h2)

/-- **C76** `Formula::parse` with this parser: a blank text is `n`, another text is what the parser makes of it without the white space around it. -/
theorem C76_formula (s : Str) (t : Node) : formulaParse s = some t ↔ (White s ∧ t = .var) ∨ lrParse (trim s) = .accept t := by
  rw [C27_accepts, C76_table]
  simp only [tokens_trim]

/-- **C76** The parser always gives a result: within the bound on its steps, without values of the wrong types and without a state missing. -/
theorem C76_total (s : Str) : lrParse s ≠ .stuck := by
  intro h
  have hv := (lrParse_iff (lexUntil_scans s)).mp h
  generalize (lexUntil s).1 = ts at hv
  generalize (lexUntil s).2 = b at hv
  generalize hr : LrResult.stuck = r at hv
  cases hv <;> cases hr

/-- **C76** Every text is divided into tokens in one way, up to its end or a place where no token begins, and the result of the parser is the one that the
grammar gives for these tokens: at the end of the tokens a tree, `InvalidToken` or an unexpected end; before that `User` for the first numeral out of
range, `ExtraToken` for a closing sign after a formula, `UnrecognizedToken` for the first token with which no formula goes on. -/
theorem C76_verdict (s : Str) : (∃ toks whole, Scans s toks whole) ∧
    ∀ toks whole, Scans s toks whole → ∀ r, lrParse s = r ↔ Verdict toks whole r :=
  ⟨⟨_, _, lexUntil_scans s⟩, fun _ _ hs _ => lrParse_iff hs⟩

/-- **C76** What is reported does not depend on how the text is divided (there is one division) nor on the order of the rules: there is one report. -/
theorem C76_unique (s : Str) (toks toks' : List Tok) (whole whole' : Bool) (r r' : LrResult) (h : Scans s toks whole) (h' : Scans s toks' whole')
    (hv : Verdict toks whole r) (hv' : Verdict toks' whole' r') : toks = toks' ∧ whole = whole' ∧ r = r' := by
  have e := scans_iff.mp h
  rw [scans_iff.mp h'] at e
  cases e
  exact ⟨rfl, rfl, verdict_unique hv hv'⟩

-- a formula with all levels of operators
example : lrParse (c!"n%10==1 && not n%100 or -n*(2+n) >= 3 ? n : 1 ? 0 : 2") = .accept
    (.cond (.binop .or (.binop .and (.binop .eq (.binop .mod .var (.num 10)) (.num 1)) (.unop .not (.binop .mod .var (.num 100))))
      (.binop .gte (.binop .mul (.unop .neg .var) (.binop .add (.num 2) .var)) (.num 3))) .var (.cond (.num 1) (.num 0) (.num 2))) := by rfl

-- the reports
example : lrParse (c!"n)") = .extra [.rpar] := by rfl
example : lrParse (c!"(n n") = .unrecognized [.n] := by rfl
example : lrParse (c!"n +") = .unrecognized [] := by rfl
example : lrParse (c!"n + 9223372036854775808 )") = .user [.rpar] := by rfl
example : lrParse (c!"n + $ )") = .invalidToken := by rfl
-- the next token is read before a numeral is converted
example : lrParse (c!"9223372036854775808 $") = .invalidToken := by rfl
-- a second unary operator, also with a numeral out of range after it
example : lrParse (c!"- - 99999999999999999999") = .unrecognized [.minus, .num (c!"99999999999999999999")] := by rfl

-- so no formula begins with `n n`
example : ¬ Begins [.n, .n] := by
  have hs : Scans (c!"n n") [.n, .n] true := scans_iff.mpr (by rfl)
  have h := ((C76_verdict _).2 _ _ hs _).mp (show lrParse (c!"n n") = .unrecognized [.n] by rfl)
  intro hb
  rcases verdict_cases h with ⟨_, h⟩ | ⟨p, a, rest, he, _, hn, h⟩
  · cases h
  · have : p ++ [a] <+: [.n, .n] := ⟨rest, by simp [he]⟩
    obtain ⟨q, hq⟩ := this
    rw [← hq] at hb
    exact hn (begins_left hb)

end Verif
