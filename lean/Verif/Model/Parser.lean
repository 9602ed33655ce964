import Verif.Model.Unescape
import Verif.Model.Error

/-! Model of src/po/parser.rs: the compiled patterns, `parse_map` and `parse_line`. -/

namespace Verif

/-! ### Patterns, verbatim -/

/-- src/po/parser.rs:22: `(\S+?)\s*=\s*(.*?)\s*;` -/
def mapPat : Str := c!"(\\S+?)\\s*=\\s*(.*?)\\s*;"
/-- src/po/parser.rs:23: `^\s*(\S+?\s*=\s*.*?\s*;\s*)*$` -/
def mapCheckPat : Str := c!"^\\s*(\\S+?\\s*=\\s*.*?\\s*;\\s*)*$"
/-- src/po/parser.rs:25:
`^\s*(?:#(~?\|?))?\s*(msgctxt|msgid|msgid_plural|msgstr(?:\[(?:0|[1-9]\d*)\])?)?\s*"(.*)"\s*$` -/
def messagePat : Str :=
  c!"^\\s*(?:#(~?\\|?))?\\s*(msgctxt|msgid|msgid_plural|msgstr(?:\\[(?:0|[1-9]\\d*)\\])?)?\\s*\"(.*)\"\\s*$"
/-- src/po/parser.rs:28: `^\s*#(.)?\s*(.*)$` -/
def commentPat : Str := c!"^\\s*#(.)?\\s*(.*)$"

/-! ### Compiled patterns -/

/-- `\s*` -/
def reWs : Re := .star true (.cls .space)
/-- A literal character. -/
def reChr (c : Char) : Re := .cls (.lit c)
/-- A literal string (right-nested). -/
def reLit : Str → Re
  | [] => .eps
  | [c] => reChr c
  | c :: cs => .seq (reChr c) (reLit cs)

/-- A literal string followed by a pattern (right-nested). -/
def reLitSeq (s : Str) (r : Re) : Re := s.foldr (fun c k => .seq (reChr c) k) r

/-- `map_re`, src/po/parser.rs:22. -/
def mapRe : Re :=
  .seq (.cap 1 (.plus false (.cls .nonSpace))) <| .seq reWs <| .seq (reChr '=') <| .seq reWs <|
  .seq (.cap 2 (.star false (.cls .any))) <| .seq reWs (reChr ';')

/-- One entry of `map_check_re`: `\S+?\s*=\s*.*?\s*;\s*`. -/
def mapEntryRe : Re :=
  .seq (.plus false (.cls .nonSpace)) <| .seq reWs <| .seq (reChr '=') <| .seq reWs <|
  .seq (.star false (.cls .any)) <| .seq reWs <| .seq (reChr ';') reWs

/-- `map_check_re`, src/po/parser.rs:23. -/
def mapCheckRe : Re := .seq .bol <| .seq reWs <| .seq (.star true (.cap 1 mapEntryRe)) .eol

/-- `(?:0|[1-9]\d*)` -/
def reIndex : Re := .alt (reChr '0') (.seq (.cls (.set [('1', '9')])) (.star true (.cls .digit)))
/-- `msgstr(?:\[(?:0|[1-9]\d*)\])?` -/
def reMsgstr : Re := reLitSeq (c!"msgstr") (.opt true (.seq (reChr '[') (.seq reIndex (reChr ']'))))
/-- `msgctxt|msgid|msgid_plural|msgstr(?:\[(?:0|[1-9]\d*)\])?` -/
def reTag : Re := .alt (reLit (c!"msgctxt")) <| .alt (reLit (c!"msgid")) <| .alt (reLit (c!"msgid_plural")) reMsgstr
/-- `(?:#(~?\|?))?` -/
def reMark : Re := .opt true (.seq (reChr '#') (.cap 1 (.seq (.opt true (reChr '~')) (.opt true (reChr '|')))))
/-- `"(.*)"\s*$` -/
def reQuoted : Re := .seq (reChr '"') <| .seq (.cap 3 (.star true (.cls .any))) <| .seq (reChr '"') <| .seq reWs .eol

/-- `message_re`, src/po/parser.rs:24-27. -/
def messageRe : Re :=
  .seq .bol <| .seq reWs <| .seq reMark <| .seq reWs <| .seq (.opt true (.cap 2 reTag)) <| .seq reWs reQuoted

/-- `comment_re`, src/po/parser.rs:28. -/
def commentRe : Re :=
  .seq .bol <| .seq reWs <| .seq (reChr '#') <| .seq (.opt true (.cap 1 (.cls .any))) <| .seq reWs <|
  .seq (.cap 2 (.star true (.cls .any))) .eol

/-! The compiled patterns are the parses of the verbatim pattern strings. -/

theorem unescapeRe_pattern : Re.ofPattern unescapePat = some unescapeRe := by decide
theorem mapRe_pattern : Re.ofPattern mapPat = some mapRe := by decide
theorem mapCheckRe_pattern : Re.ofPattern mapCheckPat = some mapCheckRe := by decide
theorem messageRe_pattern : Re.ofPattern messagePat = some messageRe := by decide
theorem commentRe_pattern : Re.ofPattern commentPat = some commentRe := by decide

/-- `HashMap::insert` on an association list with unique keys: replaces the value of an existing key. -/
def insertKV (m : List (Str × Str)) (k v : Str) : List (Str × Str) :=
  match m with
  | [] => [(k, v)]
  | (k', v') :: m => if k' = k then (k, v) :: m else (k', v') :: insertKV m k v

/-- `PoParser::parse_map`, src/po/parser.rs:39-49.  The `HashMap` is an association list with unique keys; `collect` inserts the
pairs in order, so a later pair replaces an earlier one with the same key. -/
def parseMap (text : Str) : Except Err (List (Str × Str)) :=
  if mapCheckRe.isMatch text then
    .ok <| ((mapRe.capturesIter text).filterMap fun c => (c.get 1).bind fun v1 => (c.get 2).map fun v2 => (v1, v2)).foldl
      (fun m kv => insertKV m kv.1 kv.2) []
  else
    .error (.unexpected 0 (c!"Bad value list definition: `" ++ text ++ c!"`"))

/-- `PoParser::parse_line`, src/po/parser.rs:51-81; `none` is `Err(())`. -/
def parseLine (line : Str) (n : Nat) : Option PoLine :=
  if !(line.any fun c => !isWhite c) then some .blank
  else
    match messageRe.captures line with
    | some c =>
      let string := unescape ((c.get 3).getD [])
      let flags := (c.get 1).getD []
      match c.get 2 with
      | none => some (.continuation n flags string)
      | some m =>
        let tag := if flags.getLast? = some '|' then '|' :: m else m
        some (.message n flags tag string)
    | none =>
      match commentRe.captures line with
      | none => none
      | some c => some (.comment n (((c.get 1).bind List.head?).getD ' ') ((c.get 2).getD []))

end Verif
