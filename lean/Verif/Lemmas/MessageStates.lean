import Verif.Lemmas.TableStates
import Verif.Model.Message

/-! What holds in all states of the automaton when it finds an error. -/

namespace Verif

/-- The nonterminals that are made only in front of a terminal that can follow them. -/
def tight : Nonterminal → Bool
  | .num | .term | .factor | .mul => false
  | _ => true

/-- The terminals in front of which the nonterminal is made. -/
def before : Nonterminal → List Terminal
  | .start | .formula => lookahead .expr
  | b => lookahead b

/-- Terminals with which an operand begins and that never follow one. -/
def opening : List Terminal := [.n, .digits, .lpar, .bang, .kwNot]

/-- The last symbol of the production is made only in front of what can follow its left-hand side. -/
def lastTight (j : Nat) (b : Nonterminal) : Bool :=
  match (rhsOf j).getLast? with
  | some (.a c) => tight c && (before c).all fun a => decide (a ∈ before b)
  | _ => false

set_option maxRecDepth 100000 in
theorem tight_check : (states.all fun s => terminals.all fun a => match move s a with
    | .reduce j => match lhsOf j with
      | some b => !tight b || decide (a ∈ before b) || lastTight j b
      | none => false
    | _ => true) = true := by decide +kernel

/-- What is said about a state reached with `x` that has no entry for `a`. -/
def checkError (s : LrState) (x : Symbol) (a : Terminal) : Bool :=
  match x with
  | .t c => decide (c ≠ .n) && decide (c ≠ .digits) && decide (c ≠ .rpar) && (terminals.all fun b => decide (move s b = .error) || decide (move s b = .shift))
  | .a .expr => terminals.all fun b => decide (move s b = .error) || (decide (move s b = .shift) && decide (b = .rpar ∨ b = .colon))
  | .a .mul => decide (a ∈ opening) && (terminals.all fun b => decide (move s b ≠ .error) == decide (b ∉ opening))
  | .a b => tight b && decide (a ∉ before b)

set_option maxRecDepth 100000 in
theorem error_check : (states.all fun s => symbols.all fun x => decide (goto s x = []) || terminals.all fun a =>
    decide (move (goto s x) a ≠ .error) || checkError (goto s x) x a) = true := by decide +kernel

theorem start_check : (terminals.all fun b => decide (move startState b = .error) || decide (move startState b = .shift)) = true := by decide +kernel

set_option maxRecDepth 100000 in
theorem shift_check : (states.all fun s => terminals.all fun a => decide (move s a ≠ .error) ||
    terminals.any fun b => decide (b ≠ .eof) && decide (move s b = .shift)) = true := by decide +kernel

set_option maxRecDepth 100000 in
theorem agree_check : (states.all fun s => terminals.all fun a => match move s a with
    | .reduce j => (decide (a ∉ opening) || terminals.all fun b => decide (move s b = .reduce j)) &&
      (decide (a ∉ lookahead .expr) || (lookahead .expr).all fun b => decide (move s b = .reduce j))
    | _ => true) = true := by decide +kernel

end Verif
