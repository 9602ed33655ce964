import Verif.Spec.Regex
import Verif.Spec.Line

/-!
What the texts of the patterns in src/po/parser.rs and src/po/unescape.rs mean, by the documented syntax of the `regex` crate (the part of it that they use) and by
leftmost-first matching; and what `parse_line`, `parse_map` and `unescape` have to give by this.
-/

namespace Verif.Spec

/-- Characters with a meaning of their own. -/
def metas : Str := c!"\\.+*?()|[]{}^$"

/-- What stands between `[` and `]`: characters, escaped characters, ranges. -/
inductive SetText : Str → List (Char × Char) → Prop
  | nil : SetText [] []
  | escaped {c s rs} : c ∈ metas → SetText s rs → SetText ('\\' :: c :: s) ((c, c) :: rs)
  | range {a b s rs} : a ∉ c!"\\[]-^&~" → b ∉ c!"\\[]-^&~" → SetText s rs → SetText (a :: '-' :: b :: s) ((a, b) :: rs)
  | one {a s rs} : a ∉ c!"\\[]-^&~" → SetText s rs → SetText (a :: s) ((a, a) :: rs)

mutual
/-- `AtomText n s r n'`: the text is an atom with the meaning `r`; the next group has number `n` before it and `n'` after it. -/
inductive AtomText : Nat → Str → Re → Nat → Prop
  | start {n} : AtomText n ['^'] .bol n
  | stop {n} : AtomText n ['$'] .eol n
  | any {n} : AtomText n ['.'] (.cls .any) n
  | space {n} : AtomText n ['\\', 's'] (.cls .space) n
  | nonSpace {n} : AtomText n ['\\', 'S'] (.cls .nonSpace) n
  | digit {n} : AtomText n ['\\', 'd'] (.cls .digit) n
  | escaped {n c} : c ∈ metas → AtomText n ['\\', c] (.cls (.lit c)) n
  | lit {n c} : c ∉ metas → AtomText n [c] (.cls (.lit c)) n
  | set {n s rs} : SetText s rs → AtomText n ('[' :: (s ++ [']'])) (.cls (.set rs)) n
  | group {n s r n'} : ChoiceText n s r n' → r ≠ .eps → AtomText n ('(' :: '?' :: ':' :: (s ++ [')'])) r n'
  | capture {n s r n'} : ChoiceText (n + 1) s r n' → AtomText n ('(' :: (s ++ [')'])) (.cap n r) n'
/-- An atom, perhaps repeated: `*`, `+` and `?` take as much as possible, with another `?` as little as possible. -/
inductive PartText : Nat → Str → Re → Nat → Prop
  | once {n s r n'} : AtomText n s r n' → PartText n s r n'
  | star {n s r n'} : AtomText n s r n' → PartText n (s ++ ['*']) (.star true r) n'
  | starLazy {n s r n'} : AtomText n s r n' → PartText n (s ++ ['*', '?']) (.star false r) n'
  | plus {n s r n'} : AtomText n s r n' → PartText n (s ++ ['+']) (.seq r (.star true r)) n'
  | plusLazy {n s r n'} : AtomText n s r n' → PartText n (s ++ ['+', '?']) (.seq r (.star false r)) n'
  | opt {n s r n'} : AtomText n s r n' → PartText n (s ++ ['?']) (.alt r .eps) n'
  | optLazy {n s r n'} : AtomText n s r n' → PartText n (s ++ ['?', '?']) (.alt .eps r) n'
/-- Parts one after the other. -/
inductive CatText : Nat → Str → Re → Nat → Prop
  | nil {n} : CatText n [] .eps n
  | one {n s r n'} : PartText n s r n' → CatText n s r n'
  | cons {n s r m s' r' n'} : PartText n s r m → CatText m s' r' n' → s' ≠ [] → CatText n (s ++ s') (.seq r r') n'
/-- Alternatives, the first one preferred. -/
inductive ChoiceText : Nat → Str → Re → Nat → Prop
  | one {n s r n'} : CatText n s r n' → ChoiceText n s r n'
  | more {n s r m s' r' n'} : CatText n s r m → ChoiceText m s' r' n' → ChoiceText n (s ++ '|' :: s') (.alt r r') n'
end

/-- The text of a pattern and its meaning; groups are numbered from 1. -/
def PatternText (s : Str) (r : Re) : Prop := ∃ n, ChoiceText 1 s r n

/-- `Regex::captures`: a leftmost-first search for the pattern in the text finds a match with these groups. -/
def Finds (pattern s : Str) (groups : List (Nat × Str)) : Prop :=
  ∃ r pre t, PatternText pattern r ∧ FirstMatch r true s pre t ∧ t.caps = groups

/-- The successive matches of the pattern: the texts before them with their groups, and the text after the last one. -/
def FindsAll (pattern s : Str) (ms : List (Str × List (Nat × Str))) (tail : Str) : Prop :=
  ∃ r ms', PatternText pattern r ∧ AllMatches r true s ms' tail ∧ ms = ms'.map fun m => (m.1, m.2.caps)

/-! ### The patterns, verbatim -/

/-- src/po/parser.rs:22 -/
def pairPattern : Str := c!"(\\S+?)\\s*=\\s*(.*?)\\s*;"
/-- src/po/parser.rs:23 -/
def listPattern : Str := c!"^\\s*(\\S+?\\s*=\\s*.*?\\s*;\\s*)*$"
/-- src/po/parser.rs:25 -/
def quotedPattern : Str := c!"^\\s*(?:#(~?\\|?))?\\s*(msgctxt|msgid|msgid_plural|msgstr(?:\\[(?:0|[1-9]\\d*)\\])?)?\\s*\"(.*)\"\\s*$"
/-- src/po/parser.rs:28 -/
def hashPattern : Str := c!"^\\s*#(.)?\\s*(.*)$"
/-- src/po/unescape.rs:12 -/
def escapePattern : Str := c!"\\\\([rtn\"\\\\])"

/-! ### What the functions give -/

/-- The character for an escape. -/
def escapeFor : Char → Char
  | 'n' => '\n'
  | 'r' => '\r'
  | 't' => '\t'
  | c => c

/-- `Unescaper::unescape`: each match is replaced. -/
def Unescapes (s out : Str) : Prop :=
  ∃ ms tail, FindsAll escapePattern s ms tail ∧ out = (ms.flatMap fun m => m.1 ++ ((m.2.lookup 1).getD []).map escapeFor) ++ tail

/-- `PoParser::parse_line`. -/
inductive LineByPattern (line : Str) (n : Nat) : Option PoLine → Prop
  | blank : White line → LineByPattern line n (some .blank)
  | keyword {g k raw text} : ¬ White line → Finds quotedPattern line g → g.lookup 2 = some k → g.lookup 3 = some raw → Unescapes raw text →
      LineByPattern line n (some (.message n ((g.lookup 1).getD []) (if ((g.lookup 1).getD []).getLast? = some '|' then '|' :: k else k) text))
  | continuation {g raw text} : ¬ White line → Finds quotedPattern line g → g.lookup 2 = none → g.lookup 3 = some raw → Unescapes raw text →
      LineByPattern line n (some (.continuation n ((g.lookup 1).getD []) text))
  | comment {g text} : ¬ White line → (∀ g, ¬ Finds quotedPattern line g) → Finds hashPattern line g → g.lookup 2 = some text →
      LineByPattern line n (some (.comment n (((g.lookup 1).getD []).headD ' ') text))
  | unrecognised : ¬ White line → (∀ g, ¬ Finds quotedPattern line g) → (∀ g, ¬ Finds hashPattern line g) → LineByPattern line n none

/-- The pairs that `PoParser::parse_map` collects; `none`: it refuses the text. -/
inductive PairsByPattern (s : Str) : Option (List (Str × Str)) → Prop
  | refused : (∀ g, ¬ Finds listPattern s g) → PairsByPattern s none
  | pairs {g ms tail ps} : Finds listPattern s g → FindsAll pairPattern s ms tail →
      ms.map (fun m => (m.2.lookup 1, m.2.lookup 2)) = ps.map (fun p => (some p.1, some p.2)) → PairsByPattern s (some ps)

end Verif.Spec
