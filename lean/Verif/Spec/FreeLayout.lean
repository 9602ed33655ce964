import Verif.Spec.Layout

/-! Entries as sequences of words, which GNU gettext takes in any arrangement on lines. -/

namespace Verif.Spec

/-- A word: a keyword, or a string. -/
inductive Word where
  | kw (k : Str)
  | str (t : Str)

/-- The text of a word. -/
def Word.text : Word → Str
  | .kw k => k
  | .str t => '"' :: (esc t ++ ['"'])

/-- A line with these words, one space between them. -/
def wordsLine : List Word → Str
  | [] => []
  | w :: l => w.text ++ l.flatMap fun w => ' ' :: w.text

/-- The words of an entry: `msgid` and strings, `msgstr` and strings.  The id and the translation are the concatenations of the strings. -/
def entryWords (ss ts : List Str) : List Word := .kw (c!"msgid") :: (ss.map .str ++ .kw (c!"msgstr") :: ts.map .str)

/-- The words of a line with one string and nothing after it. -/
def OneString : List Word → Prop
  | [.str _] | [.kw _, .str _] => True
  | _ => False

/-- The unit with this id and this translation, and nothing else. -/
def plainUnit (id text : Str) : PoUnit :=
  { PoUnit.default with
    message := .simple id (if text = [] then none else some text)
    state := if text = [] then .empty else .final }

end Verif.Spec
