import Verif.Lemmas.FormulaLex
import Verif.Lemmas.FormulaEval
import Verif.Lemmas.CGrammar

/-! Plural formulas and C expressions: C36. -/

namespace Verif
open Spec

/-- **C36** A token sequence is read by the crate and by C as the same tree iff it is one of the common formulas. -/
theorem C36_exact (toks : List Tok) (t : Node) : (Derives .expr toks t ∧ CDerives .expr toks t) ↔ Common .expr toks t := common_iff

/-- **C36** The text of a common formula is accepted with the tree that it has in C, and it has no other tree in C; so its value is the same. -/
theorem C36_agree {s : Str} {toks : List Tok} {t : Node} (hs : Tokens s toks) (h : Common .expr toks t) :
    formulaParse s = some t ∧ ∀ t', CDerives .expr toks t' ↔ t' = t :=
  ⟨formulaParse_iff.mpr (.inr ⟨toks, hs, common_d h⟩), fun _ => ⟨fun h' => cderives_unique h' (common_c h), fun e => e ▸ common_c h⟩⟩

/-- **C36** For an accepted text that is not a common formula, C has another tree or none. -/
theorem C36_differ {s : Str} {toks : List Tok} {t : Node} (hs : Tokens s toks) (hne : toks ≠ []) (h : formulaParse s = some t) (hc : ¬ Common .expr toks t) :
    ¬ CDerives .expr toks t := by
  intro h'
  rcases formulaParse_iff.mp h with ⟨hw, _⟩ | ⟨toks', h1, h2⟩
  · exact hne (tokens_unique hs (.nil hw))
  · rw [tokens_unique h1 hs] at h2
    exact hc (common_iff.mp ⟨h2, h'⟩)

/-- C trees of operands, for the examples. -/
theorem cnum_add {ds : Str} {v : Int64} (h : v.toInt = (numeralValue ds : Int)) : CDerives .add [.num ds] (.num v) := .addMul (.mulUnary (.unaryPrim (.primNum h)))

/-- **C36** refuted as first stated: `!n+1` is accepted and is an expression in C, with different values for the number 0; and so for `n==0<2` and the
number 5. -/
theorem C36_refuted :
    (∃ toks t t', Tokens (c!"!n+1") toks ∧ formulaParse (c!"!n+1") = some t ∧ CDerives .expr toks t' ∧ meaning 0 t ≠ meaning 0 t') ∧
    (∃ toks t t', Tokens (c!"n==0<2") toks ∧ formulaParse (c!"n==0<2") = some t ∧ CDerives .expr toks t' ∧ meaning 5 t ≠ meaning 5 t') := by
  refine ⟨⟨[.bang, .n, .plus, .num ['1']], .unop .not (.binop .add .var (.num 1)), .binop .add (.unop .not .var) (.num 1), lex_iff.mp (by decide),
      by decide, ?_, by decide⟩,
    ⟨[.n, .eqeq, .num ['0'], .lt, .num ['2']], .binop .lt (.binop .eq .var (.num 0)) (.num 2), .binop .eq .var (.binop .lt (.num 0) (.num 2)),
      lex_iff.mp (by decide), by decide, ?_, by decide⟩⟩
  · exact .exprOr (.orAnd (.andEq (.eqRel (.relAdd (.addAdd (w₁ := [.bang, .n]) (.addMul (.mulUnary (.unaryNot (.unaryPrim .primVar))))
      (.mulUnary (.unaryPrim (.primNum (by decide)))))))))
  · exact .exprOr (.orAnd (.andEq (.eqEq (w₁ := [.n]) (.eqRel (.relAdd (.addMul (.mulUnary (.unaryPrim .primVar)))))
      (.relLt (w₁ := [.num ['0']]) (.relAdd (cnum_add (by decide))) (cnum_add (by decide))))))

-- the usual formula of a Slavic language is common
example : ∃ toks t, Tokens (c!"n%10==1 && n%100!=11 ? 0 : 1") toks ∧ Common .expr toks t := by
  have num : ∀ {ds} {v : Int64}, v.toInt = (numeralValue ds : Int) → Common .add [.num ds] (.num v) := fun h => .addMul (.mulFactor (.factorTerm (.termNum h)))
  have md : ∀ {ds} {v : Int64}, v.toInt = (numeralValue ds : Int) → Common .eq ([.n] ++ .percent :: [.num ds]) (.binop .mod .var (.num v)) :=
    fun h => .eqRel (.relNot (.notAdd (.addMul (.mulMod (.mulFactor (.factorTerm .termVar)) (.factorTerm (.termNum h))))))
  have ex : ∀ {w t}, Common .add w t → Common .expr w t := fun h => .exprOr (.orAnd (.andEq (.eqRel (.relNot (.notAdd h)))))
  refine ⟨_, .cond (.binop .and (.binop .eq (.binop .mod .var (.num 10)) (.num 1)) (.binop .ne (.binop .mod .var (.num 100)) (.num 11))) (.num 0) (.num 1),
    (lex_iff (toks := (([.n] ++ .percent :: [.num ['1', '0']]) ++ .eqeq :: [.num ['1']]) ++ .andand ::
      (([.n] ++ .percent :: [.num ['1', '0', '0']]) ++ .ne :: [.num ['1', '1']]) ++ .quest :: ([.num ['0']] ++ .colon :: [.num ['1']]))).mp (by decide), ?_⟩
  exact .exprCond (.orAnd (.andAnd (.andEq (.eqEq (md (v := 10) (by decide)) (.notAdd (num (v := 1) (by decide)))))
    (.eqNe (md (v := 100) (by decide)) (.notAdd (num (v := 11) (by decide)))))) (ex (num (v := 0) (by decide))) (ex (num (v := 1) (by decide)))

end Verif
