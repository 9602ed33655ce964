import Verif.Model.Equality
import Verif.Props.Formula

/-! C62: equality of formulas. -/

namespace Verif
open Spec

/-- **C62** Formulas are equal iff they are the same tree. -/
theorem C62_iff (a b : Node) : a.beq b = true ↔ a = b := by
  induction a generalizing b with
  | var => cases b <;> simp [Node.beq]
  | num v => cases b <;> simp [Node.beq]
  | unop o a ih => cases b <;> simp [Node.beq, ih]
  | binop o a b iha ihb => cases b <;> simp [Node.beq, iha, ihb, and_assoc]
  | cond a b c iha ihb ihc => cases b <;> simp [Node.beq, iha, ihb, ihc, and_assoc]

/-- **C62** So equal formulas have the same value for every count. -/
theorem C62_value {a b : Node} (h : a.beq b = true) (dbg : Bool) (count : UInt64) : formulaExecute dbg a count = formulaExecute dbg b count := by
  rw [(C62_iff a b).mp h]

/-- **C62** Texts with the same tokens give equal formulas. -/
theorem C62_text {toks : List Tok} {s s' : Str} {a b : Node} (h : Writes toks s) (h' : Writes toks s') (ha : formulaParse s = some a)
    (hb : formulaParse s' = some b) : a.beq b = true := by
  rw [C29_space h h', hb] at ha
  cases ha
  exact (C62_iff _ _).mpr rfl

-- same value everywhere, but not equal
example : Node.beq (.binop .add .var (.num 0)) .var = false ∧ ∀ n, meaning n (.binop .mul .var (.num 1)) = wrap n :=
  ⟨by decide, fun n => by simp only [meaning, arith]; rw [show (1 : Int64).toInt = 1 by decide, Int.mul_one]⟩
example : Node.beq (.cond .var (.num 1) (.unop .not .var)) (.cond .var (.num 1) (.unop .not .var)) = true := by decide

end Verif
