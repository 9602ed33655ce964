import Verif.Model.Regex

/-! Model of src/po/unescape.rs. -/

namespace Verif

/-- The pattern of src/po/unescape.rs:12, verbatim: `\\([rtn"\\])`. -/
def unescapePat : Str := c!"\\\\([rtn\"\\\\])"

/-- The compiled pattern of src/po/unescape.rs:12. -/
def unescapeRe : Re :=
  .seq (.cls (.lit '\\')) (.cap 1 (.cls (.set [('r', 'r'), ('t', 't'), ('n', 'n'), ('"', '"'), ('\\', '\\')])))

/-- The replacement table of src/po/unescape.rs:13-20 (42 entries, six rows of seven). -/
def unescapeTable : List (Option Str) :=
  [some (c!"\""), none,           none, none,           none, none,           none,
   none,          none,           none, none,           none, none,           none,
   none,          none,           none, none,           none, none,           none,
   none,          none,           none, none,           none, none,           none,
   none,          some (c!"\\"),  none, none,           none, none,           none,
   none,          none,           none, some (c!"\n"),  none, some (c!"\r"),  some (c!"\t")]

/-- `Unescaper::replace_char`, src/po/unescape.rs:24-34.  The array access carries a proof that the index is in range, so the
model itself shows that the Rust indexing does not panic. -/
def replaceChar (ch : Char) : Option Str :=
  let idx := ch.toNat
  if h : idx % 2 = 0 ∧ 34 ≤ idx ∧ idx ≤ 116 then
    unescapeTable[(idx - 34) / 2]'(by
      have : unescapeTable.length = 42 := by decide
      omega)
  else none

/-- The replacement closure, src/po/unescape.rs:38-44: group 1, its first character looked up in the table, or group 1 itself. -/
def unescapeGroup (d : St) : Str :=
  ((d.get 1).map fun key => ((key.head?.bind replaceChar).getD key)).getD []

/-- `Unescaper::unescape`, src/po/unescape.rs:36-46. -/
def unescape (text : Str) : Str := unescapeRe.replaceAll text unescapeGroup

end Verif
