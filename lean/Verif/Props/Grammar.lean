import Verif.Lemmas.GrammarText
import Verif.Props.Table

/-! The text of the grammar file: C77. -/

namespace Verif
open Spec

/-- **C77** The file formula.lalrpop is a grammar, and by what its text means: `Formula` derives a sequence of tokens with a tree iff the grammar of the
model does; the quoted literals in the file are the spellings of the tokens other than numerals; so `Formula::parse` gives a tree for a text iff the
text is blank and the tree is `n`, or its tokens derive the tree by the text of the file, and then the table-driven parser gives it. -/
theorem C77_file : ∃ g, readGrammar grammarText = some g ∧
    (∀ w t, Gen g [.id (c!"Formula")] w [.node t] ↔ Derives .expr w t) ∧
    (∀ s, HasLiteral g s ↔ ∃ tok, Lexeme s tok ∧ ∀ ds, tok ≠ .num ds) ∧
    (∀ s t, formulaParse s = some t ↔ (White s ∧ t = .var) ∨ ∃ toks, Tokens s toks ∧ Gen g [.id (c!"Formula")] toks [.node t]) ∧
    (∀ s t, lrParse s = .accept t ↔ ∃ toks, Tokens s toks ∧ Gen g [.id (c!"Formula")] toks [.node t]) := by
  refine ⟨grammar, grammar_text, fun w t => gen_derives, fun s => grammar_literals, fun s t => ?_, fun s t => ?_⟩
  · rw [C27_accepts]; simp only [gen_derives]
  · rw [C76_table]; simp only [gen_derives]

-- by the text of the file, the difference is grouped to the left
example : ∃ g, readGrammar grammarText = some g ∧ ∃ toks, Tokens (c!"n - 1 - 2") toks ∧
    Gen g [.id (c!"Formula")] toks [.node (.binop .sub (.binop .sub .var (.num 1)) (.num 2))] := by
  obtain ⟨g, h1, _, _, h2, _⟩ := C77_file
  refine ⟨g, h1, ?_⟩
  have h : formulaParse (c!"n - 1 - 2") = some (.binop .sub (.binop .sub .var (.num 1)) (.num 2)) := by decide
  rcases (h2 _ _).mp h with ⟨_, h⟩ | h
  · cases h
  · exact h

-- another grammar file
example : readGrammar (c!"grammar;\npub A: Node = {\n    <B> \"+\",\n    <x:B> => Node::new_num(x),\n};\nB = r\"[0-9]+\" ;") = some
    [⟨c!"A", [⟨[.chosen (.id (c!"B")), .plain (.str (c!"+"))], .none⟩, ⟨[.named (c!"x") (.id (c!"B"))], .plain (nodeCall (c!"new_num") [.id (c!"x")])⟩]⟩,
     ⟨c!"B", [⟨[.plain (.re (c!"[0-9]+"))], .none⟩]⟩] := by decide +kernel

-- the comma after the last alternative is optional
example : readGrammar (c!"grammar;\nA = { \"a\", \"b\" };") = some [⟨c!"A", [⟨[.plain (.str (c!"a"))], .none⟩, ⟨[.plain (.str (c!"b"))], .none⟩]⟩] := by
  decide +kernel

-- a text that is no grammar file
example : readGrammar (c!"grammar;\nA = { \"a\" <x: ") = none := by decide +kernel

end Verif
