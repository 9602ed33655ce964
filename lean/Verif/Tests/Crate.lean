import Verif.Lemmas.Texts
import Verif.Lemmas.Decode

/-!
The crate's own tests, run on the model.

These are checks of the model, not of the crate: each `example` is an assertion of a test of the crate, evaluated on the definition
that models the tested function.  They say that the model agrees with the crate wherever the authors of the crate wrote down what
they expect.  Not repeated here: tests of the derived `Clone`, tests of the derived `Debug` (they are in `Props/Debug`), tests that use the mock decoder of
src/po/decoder.rs (they are in `Tests/Extractor`), and the text of lalrpop's message (see C78).
-/

namespace Verif.Tests
open Verif

/-- The items of a text given by its lines. -/
def linesOf (ls : List Str) : List Item := items 1 (ls.map .ok)

/-- `format!("{:?}", err)`, for errors that are not I/O errors. -/
def shown (e : Err) : Str := e.debug fun _ => []

/-! ### src/po/unescape.rs:50-82 -/

example : ['A', 'B', 'C', 'D', 'E'].map replaceChar = [none, none, none, none, none] := by decide
example : ['"', '\\', 'n', 'r', 't'].map replaceChar = [c!"\"", c!"\\", c!"\n", c!"\r", c!"\t"].map some := by decide
example : unescape (c!"Hello\\nworld\\r\\n\\t!") = c!"Hello\nworld\r\n\t!" := by rfl
example : unescape (c!"Sub\\\"\\tstring") = c!"Sub\"\tstring" := by rfl
example : unescape (c!"My\\\\Path: \\tValue") = c!"My\\Path: \tValue" := by rfl

/-! ### src/po/parser.rs:85-210 -/

example : parseMap (c!"key=value") = .error (.unexpected 0 (c!"Bad value list definition: `key=value`")) := by rfl
example : (Err.unexpected 0 (c!"Bad value list definition: `key=value`")).debug (fun _ => []) =
    c!"Unexpected error: Bad value list definition: `key=value`" := by rfl
example : parseMap (c!"     xyz=abc \t ; a=b;c=  d;   e  \t = f;") =
    .ok [(c!"xyz", c!"abc"), (c!"a", c!"b"), (c!"c", c!"d"), (c!"e", c!"f")] := by rfl

example : [c!"---", c!"\"--", c!"msgid \"--", c!"msgxx \"--\"", c!"-# Something"].map (parseLine · 123) =
    [none, none, none, none, none] := by rfl
example : [c!"", c!"      ", c!"   \t\r\n   "].map (parseLine · 123) = [some .blank, some .blank, some .blank] := by rfl
example : parseLine (c!"msgid \"hello\\n\\tworld\"") 123 = some (.message 123 [] (c!"msgid") (c!"hello\n\tworld")) := by rfl
example : parseLine (c!"#| msgstr[3] \"hello\\n\\tworld\"") 123 =
    some (.message 123 (c!"|") (c!"|msgstr[3]") (c!"hello\n\tworld")) := by rfl
example : parseLine (c!"\"hello\\n\\tworld\"") 123 = some (.continuation 123 [] (c!"hello\n\tworld")) := by rfl
example : parseLine (c!"#| \"path: xx\\\\yy\"") 123 = some (.continuation 123 (c!"|") (c!"path: xx\\yy")) := by rfl
example : parseLine (c!"#, My comment") 123 = some (.comment 123 ',' (c!"My comment")) := by rfl
example : parseLine (c!"# Another comment") 123 = some (.comment 123 ' ' (c!"Another comment")) := by rfl
example : parseLine (c!"#$ Special comment") 123 = some (.comment 123 '$' (c!"Special comment")) := by rfl

/-! ### src/po/line_iter.rs:59-213 -/

example : linesOf [] = [] := by rfl
-- the `\r` of the last line is removed with its `\n`
example : linesOf [c!"          ", c!"\t\t   ", c!"", c!"", c!"   \t"] = [] := by rfl
example : linesOf [c!"msgid \"Line 1\"", c!"msgstr \"Line 2\""] =
    [.ok (.message 1 [] (c!"msgid") (c!"Line 1")), .ok (.message 2 [] (c!"msgstr") (c!"Line 2"))] := by rfl
example : linesOf [c!"", c!"            #~ msgid \"Line 1\"", c!"            #~ msgstr \"Line 2\"", c!"        "] =
    [.ok (.message 2 (c!"~") (c!"msgid") (c!"Line 1")), .ok (.message 3 (c!"~") (c!"msgstr") (c!"Line 2"))] := by rfl
example : linesOf [c!"", c!"            #: File:1", c!"            msgid \"Line 1\"", c!"            msgstr \"Line 2", c!"",
      c!"            # End", c!"        "] =
    [.ok (.comment 2 ':' (c!"File:1")), .ok (.message 3 [] (c!"msgid") (c!"Line 1")),
      .error (.parse 5 (c!"            msgstr \"Line 2") [])] := by rfl
example : shown (.parse 5 (c!"            msgstr \"Line 2") []) =
    c!"Parse error at line 5, got ‘            msgstr \"Line 2’" := by rfl
-- `with_io_error`
example : Spec.rawLines (Spec.flatten [.data 65 [66, 67, 0x32, 0x80, 0x32]]) = [.error .invalidUtf8] := by
  simp only [Spec.rawLines, funext lineText_code]
  rfl
example : items 1 [.error .invalidUtf8] = [.error (.io 1 .invalidUtf8)] := by rfl

/-! ### src/po/decoder.rs:74-366 -/

example : (fetchNext (linesOf [c!"msgid \"line 1\"", c!"msgstr \"line 2\""])).1 =
    .ok (some (.message 1 [] (c!"msgid") (c!"line 1"))) := by rfl
example : (fetchNext (linesOf [c!"msgid \"line 1\"", c!"msgstr \"line 2\""]).tail).1 =
    .ok (some (.message 2 [] (c!"msgstr") (c!"line 2"))) := by rfl
example : (fetchNext (linesOf [c!"msgid \"line 1\"", c!"msgstr \"line 2\""]).tail.tail).1 = .ok none := by rfl
example : (fetchNext (linesOf [c!"msgid \"line 1"])).1 = .err (.parse 2 (c!"msgid \"line 1") []) := by rfl
example : shown (.parse 2 (c!"msgid \"line 1") []) = c!"Parse error at line 2, got ‘msgid \"line 1’" := by rfl

section
private def two := linesOf [c!"#~ msgid \"this\"", c!"msgid \"that\""]

example : parseMsg (c!"---") false two = (.ok none, two) := by rfl
example : parseMsg (c!"msgid") false two = (.ok none, two) := by rfl
example : parseMsg (c!"msgid") true two = (.ok (some (c!"this")), two.tail) := by rfl
example : parseMsg (c!"---") true two.tail = (.ok none, two.tail) := by rfl
example : parseMsg (c!"msgid") true two.tail = (.ok none, two.tail) := by rfl
end

example : (parseMsg (c!"msgid") false (linesOf [c!"msgid \"this\"", c!"\" is\"", c!"\" good\""])).1 =
    .ok (some (c!"this is good")) := by rfl
example : (parseMsg (c!"msgid") false (linesOf [c!"msgid \"this"])).1 = .err (.parse 2 (c!"msgid \"this") []) := by rfl
example : shown (.parse 2 (c!"msgid \"this") []) = c!"Parse error at line 2, got ‘msgid \"this’" := by rfl
example : (parseMsg (c!"msgid") false (linesOf [c!"msgid \"this\"", c!"\" is bad"])).1 = .err (.parse 3 (c!"\" is bad") []) := by rfl
example : shown (.parse 3 (c!"\" is bad") []) = c!"Parse error at line 3, got ‘\" is bad’" := by rfl

example : (expected [] (linesOf [c!"   "])).1 = .ok () := by rfl
example : (expected [] (linesOf [c!"   "]).tail).1 = .ok () := by rfl
example : (expected [] (linesOf [c!"---"])).1 = .err (.parse 2 (c!"---") []) := by rfl

section
private def three := linesOf [c!"# this is a test", c!"msgid \"hello,\"", c!"\"it's me\""]

example : ∃ e, (expected (c!"here-1") three).1 = .err e ∧
    shown e = c!"Parse error at line 1 expected ‘here-1’, got ‘# ’" := ⟨_, rfl, rfl⟩
example : ∃ e, (expected (c!"here-2") three.tail).1 = .err e ∧ shown e = c!"Parse error at line 2 expected ‘here-2’" := ⟨_, rfl, rfl⟩
example : ∃ e, (expected (c!"here-3") three.tail.tail).1 = .err e ∧
    shown e = c!"Parse error at line 3 expected ‘here-3’, got ‘\"’" := ⟨_, rfl, rfl⟩
end

/-! ### src/plural/formula/node.rs:187-469 -/

/-- The values of a tree at some counts, with and without overflow checks. -/
def runs (t : Node) (cases : List (Int64 × Int64)) : Bool :=
  cases.all fun c => t.execute true c.1 == .ok c.2 && t.execute false c.1 == .ok c.2

instance [DecidableEq α] : BEq (Out α) := ⟨fun a b => decide (a = b)⟩

/-- "Big expression" -/
def big : Node :=
  .cond (.binop .gt .var (.num 10))
    (.cond (.binop .eq (.binop .mod .var (.num 10)) (.num 3)) (.num 10)
      (.cond (.binop .lt .var (.num 100)) (.num 20)
        (.cond (.unop .not (.binop .gt .var (.num 200))) (.binop .add (.unop .neg .var) (.num 1000)) (.num 1234))))
    (.binop .sub .var (.num 10))

example : runs .var [(-100, -100), (-10, -10), (100, 100)] = true := by decide
example : runs (.num 100) [(-100, 100), (-10, 100), (0, 100), (5, 100), (100, 100)] = true := by decide
example : runs (.binop .add .var (.num 10)) [(-100, -90), (-10, 0), (100, 110)] = true := by decide
example : runs (.binop .sub .var (.num 10)) [(-100, -110), (5, -5), (10, 0), (100, 90)] = true := by decide
example : runs (.binop .mul .var (.num 10)) [(-2, -20), (0, 0), (5, 50)] = true := by decide
example : runs (.binop .div .var (.num 10)) [(-2, 0), (-20, -2), (0, 0), (20, 2), (35, 3)] = true := by decide
example : runs (.binop .div (.num 1000) .var) [(0, Int64.maxValue), (-10, -100), (100, 10)] = true := by decide
example : runs (.binop .mod .var (.num 10)) [(-12, -2), (-10, 0), (0, 0), (23, 3), (35, 5)] = true := by decide
example : runs (.binop .mod .var (.num 0)) [(-12, -12), (-10, -10), (0, 0), (23, 23), (35, 35)] = true := by decide
example : runs (.binop .eq .var (.num 10)) [(-12, 0), (2, 0), (100, 0), (10, 1)] = true := by decide
example : runs (.binop .ne .var (.num 10)) [(-12, 1), (2, 1), (100, 1), (10, 0)] = true := by decide
example : runs (.binop .lt .var (.num 10)) [(-12, 1), (2, 1), (100, 0), (10, 0)] = true := by decide
example : runs (.binop .lte .var (.num 10)) [(-12, 1), (2, 1), (100, 0), (10, 1)] = true := by decide
example : runs (.binop .gt .var (.num 10)) [(-12, 0), (2, 0), (100, 1), (10, 0)] = true := by decide
example : runs (.binop .gte .var (.num 10)) [(-12, 0), (2, 0), (100, 1), (10, 1)] = true := by decide
example : runs (.unop .not .var) [(-12, 0), (100, 0), (0, 1)] = true := by decide
example : runs (.unop .neg .var) [(-12, 12), (100, -100), (0, 0)] = true := by decide
example : runs (.binop .and (.binop .lt (.num (-5)) .var) (.binop .lte .var (.num 25)))
    [(-12, 0), (100, 0), (0, 1), (-3, 1), (10, 1), (-5, 0), (25, 1)] = true := by decide
example : runs (.binop .or (.binop .gte (.num (-5)) .var) (.binop .gt .var (.num 25)))
    [(-12, 1), (100, 1), (0, 0), (-3, 0), (10, 0), (-5, 1), (25, 0)] = true := by decide
example : runs (.cond (.binop .lt .var (.num 10)) (.num 1) (.num 2)) [(-12, 1), (100, 2), (0, 1), (-3, 1), (10, 2)] = true := by decide
example : runs big [(-12, -22), (0, -10), (10, 0), (43, 10), (53, 10), (55, 20), (44, 20), (441, 1234), (404, 1234), (150, 850),
    (156, 844), (200, 800)] = true := by decide

example : getInfinity 10 = Int64.maxValue ∧ getInfinity (-10) = Int64.minValue := by decide
example : boolToNum false = 0 ∧ boolToNum true = 1 := by decide

/-! ### src/plural/formula/mod.rs:42-358 -/

/-- The tree of a formula and its values at some counts. -/
def formula (source : Str) (t : Node) (cases : List (UInt64 × Option Nat)) : Bool :=
  formulaParse source == some t &&
    cases.all fun c => formulaExecute true t c.1 == .ok c.2 && formulaExecute false t c.1 == .ok c.2

example : formula (c!"") .var [(100, some 100)] = true := by decide
example : formula (c!"n") .var [(100, some 100)] = true := by decide
example : formula (c!"100") (.num 100) [(0, some 100), (5, some 100), (100, some 100)] = true := by decide
example : formula (c!"0") (.num 0) [(0, some 0), (5, some 0), (100, some 0)] = true := by decide
example : formulaParse (c!"azerty") = none := by decide
example : formula (c!"n + 10") (.binop .add .var (.num 10)) [(100, some 110)] = true := by decide
example : formulaParse (c!"n + ") = none := by decide
example : formula (c!"n - 10") (.binop .sub .var (.num 10)) [(5, none), (10, some 0), (100, some 90)] = true := by decide
example : formula (c!"n * 10") (.binop .mul .var (.num 10)) [(0, some 0), (5, some 50)] = true := by decide
example : formula (c!"n / 10") (.binop .div .var (.num 10)) [(0, some 0), (20, some 2), (35, some 3)] = true := by decide
example : formula (c!"n % 10") (.binop .mod .var (.num 10)) [(0, some 0), (23, some 3), (35, some 5)] = true := by decide
example : formula (c!"n == 10") (.binop .eq .var (.num 10)) [(100, some 0), (10, some 1)] = true := by decide
example : formula (c!"n != 10") (.binop .ne .var (.num 10)) [(2, some 1), (100, some 1), (10, some 0)] = true := by decide
example : formula (c!"n < 10") (.binop .lt .var (.num 10)) [(2, some 1), (100, some 0), (10, some 0)] = true := by decide
example : formula (c!"n <= 10") (.binop .lte .var (.num 10)) [(2, some 1), (100, some 0), (10, some 1)] = true := by decide
example : formula (c!"n > 10") (.binop .gt .var (.num 10)) [(2, some 0), (100, some 1), (10, some 0)] = true := by decide
example : formula (c!"n >= 10") (.binop .gte .var (.num 10)) [(2, some 0), (100, some 1), (10, some 1)] = true := by decide
example : formula (c!"!n") (.unop .not .var) [(100, some 0), (0, some 1)] = true := by decide
example : formula (c!"-n") (.unop .neg .var) [(100, none), (0, some 0)] = true := by decide
example : formula (c!"(5 < n) && n <= 25") (.binop .and (.binop .lt (.num 5) .var) (.binop .lte .var (.num 25)))
    [(100, some 0), (0, some 0), (5, some 0), (10, some 1), (25, some 1)] = true := by decide
example : formula (c!"(5 >= n) || n > 25") (.binop .or (.binop .gte (.num 5) .var) (.binop .gt .var (.num 25)))
    [(100, some 1), (0, some 1), (5, some 1), (10, some 0), (25, some 0)] = true := by decide
example : formula (c!"n < 10 ? 1 : 2") (.cond (.binop .lt .var (.num 10)) (.num 1) (.num 2))
    [(100, some 2), (0, some 1), (10, some 2)] = true := by decide

set_option maxRecDepth 100000 in
example : formula (c!"n > 10 ? (n % 10) == 3 ? 10 : n < 100 ? 20 : (!(n > 200) ? -n + 1000 : 1234) : n - 10") big
    [(0, none), (10, some 0), (43, some 10), (53, some 10), (55, some 20), (44, some 20), (441, some 1234), (404, some 1234),
     (150, some 850), (156, some 844), (200, some 800)] = true := by decide

set_option maxRecDepth 100000 in
example : formulaParse (c!"n > 10 ? (n % 10) == 3 ? 10 : (n < 100 ? 20 : (!(n > 200) ? -n + 1000 : 1234) : n - 10") = none := by
  decide

/-! ### src/plural/forms.rs:56-230 -/

/-- `FORMULA_CASE1` -/
def case1 : Str := c!"(n%10==1 && n%100!=11 ? 0 : n%10>=2 && (n%100<10 or n%100>=20) ? 1 : 2)"

/-- Its tree. -/
def tree1 : Node :=
  let m (k : Int64) : Node := .binop .mod .var (.num k)
  .cond (.binop .and (.binop .eq (m 10) (.num 1)) (.binop .ne (m 100) (.num 11))) (.num 0)
    (.cond (.binop .and (.binop .gte (m 10) (.num 2)) (.binop .or (.binop .lt (m 100) (.num 10)) (.binop .gte (m 100) (.num 20))))
      (.num 1) (.num 2))

/-- `make_forms(COUNT_CASE1, FORMULA_CASE1)` -/
def forms1 : PluralForms := ⟨tree1, 3, c!"nplurals=3; plural=" ++ case1 ++ c!";", case1⟩

set_option maxRecDepth 100000 in
theorem forms1_parse : PluralForms.parse demoEnv (c!"nplurals=3; plural=" ++ case1 ++ c!";") = .ok forms1 := by rfl

example : [(1, 0), (21, 0), (31, 0), (41, 0), (121, 0), (131, 0), (10, 2), (20, 2), (110, 2), (120, 2), (210, 2), (11, 2), (111, 2),
      (211, 2), (14, 2), (114, 2), (2, 1), (5, 1), (24, 1), (102, 1), (105, 1), (124, 1)].all
    (fun c => forms1.getValue true c.1 == .ok (some c.2)) = true := by decide
example : forms1.getCount = 3 := by rfl
example : forms1.getDefinition = c!"nplurals=3; plural=" ++ case1 ++ c!";" := by rfl
example : forms1.getFormula = case1 := by rfl
example : PluralForms.parse demoEnv (c!"plural=n>1 ? 0 : 1;") =
    .ok ⟨.cond (.binop .gt .var (.num 1)) (.num 0) (.num 1), 2, c!"plural=n>1 ? 0 : 1;", c!"n>1 ? 0 : 1"⟩ := by rfl
example : PluralForms.parse demoEnv (c!"nplurals=abc; plural=n>1 ? 0 : 1;") =
    .error (.pluralForms (c!"invalid digit found in string")) := by rfl
example : PluralForms.parse demoEnv (c!"nplurals=wrong; plural=0") =
    .error (.unexpected 0 (c!"Bad value list definition: `nplurals=wrong; plural=0`")) := by rfl

/-! ### src/po/message_extractor.rs: `plural_forms` -/

/-- `PluralForms::for_tests_shift` -/
def shift : PluralForms := ⟨.binop .sub .var (.num 100), 200, c!"nplurals=200; plural=n-100", c!"n-100"⟩

example : [0, 100].map (PluralForms.getValue true ⟨.num 0, 0, [], []⟩) = [.ok none, .ok none] := by decide
example : [50, 500, 150].map (shift.getValue true) = [.ok none, .ok none, .ok (some 50)] := by decide
example : [1, 24, 10].map (forms1.getValue true) = [.ok (some 0), .ok (some 1), .ok (some 2)] := by decide

/-! ### src/po/message_extractor.rs: `new_previous` -/

example : newPrevious none none none = .default ∧ newPrevious none none (some (c!"Something")) = .default := ⟨rfl, rfl⟩
example : let p := newPrevious none (some (c!"my-msg")) none
    p.isEmpty = false ∧ p.isBlank = true ∧ p.isSimple = true ∧ p.isPlural = false ∧ p.getId = c!"my-msg" ∧ p.getText = [] ∧
    p.getPluralId = none ∧ p.getPluralText true 0 = .ok none ∧ p.getPluralText true 2 = .ok none := by decide
example : let p := newPrevious none (some (c!"my-msg")) (some (c!"my-plural"))
    p.isEmpty = false ∧ p.isBlank = true ∧ p.isSimple = false ∧ p.isPlural = true ∧ p.getId = c!"my-msg" ∧ p.getText = [] ∧
    p.getPluralId = some (c!"my-plural") ∧ p.getPluralText true 0 = .ok none ∧ p.getPluralText true 2 = .ok none := by decide

/-! ### src/plural/plural.rs:58-198 -/

/-- `make_plural()` -/
def plural1 : Plural :=
  ⟨c!"My car is wonderful", c!"My cars are wonderful", [c!"Ma voiture est merveilleuse", c!"Mes voitures sont merveilleuses"],
    some ⟨.binop .gt .var (.num 1), 2, c!"nplurals=2; plural=n>1;", c!"n>1"⟩⟩

example : PluralForms.parse demoEnv (c!"nplurals=2; plural=n>1;") = .ok ⟨.binop .gt .var (.num 1), 2, c!"nplurals=2; plural=n>1;", c!"n>1"⟩ :=
  by rfl
example : plural1.first = c!"Ma voiture est merveilleuse" ∧ Plural.first ⟨[], [], [], none⟩ = [] := by decide
example : plural1.isBlank = false ∧ Plural.isBlank ⟨[], [], [], none⟩ = true ∧ Plural.isBlank ⟨[], [], [[], []], none⟩ = true ∧
    Plural.isBlank ⟨[], [], [[], c!"Something", []], none⟩ = false := by decide
example : [0, 1].map (plural1.get true) = [.ok (some (c!"Ma voiture est merveilleuse")), .ok (some (c!"Ma voiture est merveilleuse"))] := by
  decide
example : [2, 10, 100].map (plural1.get true) = List.replicate 3 (.ok (some (c!"Mes voitures sont merveilleuses"))) := by decide

/-! ### src/enums/message.rs:111-386 -/

section
private def idNone : Message := .simple (c!"id") none

example : idNone.beq idNone = true := by decide
example : (Message.plural ⟨c!"id", c!"val", [], none⟩).beq (.plural ⟨c!"id", c!"val", [], none⟩) = true := by decide
example : idNone.beq (.plural ⟨c!"id", c!"val", [], none⟩) = false := by decide
example : idNone.beq (.simple (c!"id") (some [])) = true ∧ (Message.simple (c!"id") (some [])).beq idNone = true := by decide
example : (Message.simple (c!"id") (some (c!"txt"))).beq idNone = false := by decide
end

example : Message.default.isEmpty = true ∧ (Message.simple [] (some (c!"Something"))).isEmpty = true ∧
    (Message.simple (c!"Something") none).isEmpty = false ∧ (Message.plural ⟨[], [], [], none⟩).isEmpty = false := by decide
example : (Message.simple [] (some (c!"Something"))).isSimple = false ∧
    (Message.simple (c!"Something") (some (c!"Something"))).isSimple = true ∧
    (Message.simple (c!"Something") none).isSimple = true ∧ (Message.plural ⟨[], [], [], none⟩).isSimple = false := by decide
example : Message.default.isPlural = false ∧ (Message.plural ⟨[], [], [], none⟩).isPlural = true := by decide
example : Message.default.isBlank = true ∧ (Message.simple (c!"Something") none).isBlank = true ∧
    (Message.simple (c!"Something") (some [])).isBlank = true ∧ (Message.simple (c!"Something") (some (c!"Here"))).isBlank = false ∧
    (Message.plural ⟨[], [], [], none⟩).isBlank = true ∧ (Message.plural ⟨c!"Something", [], [], none⟩).isBlank = true := by decide
example : Message.default.getId = [] ∧ (Message.simple (c!"Something") none).getId = c!"Something" ∧
    (Message.plural ⟨[], [], [], none⟩).getId = [] ∧ (Message.plural ⟨c!"Something", [], [], none⟩).getId = c!"Something" := by decide
example : Message.default.getText = [] ∧ (Message.simple [] (some (c!"Something"))).getText = c!"Something" ∧
    (Message.plural ⟨[], [], [], none⟩).getText = [] ∧ (Message.plural ⟨[], [], [c!"Something"], none⟩).getText = c!"Something" := by decide
example : Message.default.getPluralId = none ∧ (Message.simple (c!"Something") (some (c!"Here"))).getPluralId = none ∧
    (Message.plural ⟨[], c!"Something", [], none⟩).getPluralId = some (c!"Something") := by decide
example : Message.default.getPluralText true 100 = .ok none ∧ (Message.simple (c!"Something") none).getPluralText true 100 = .ok none ∧
    (Message.simple (c!"Something") (some (c!"Here"))).getPluralText true 100 = .ok (some (c!"Here")) := by decide
example : [50, 100, 101].map ((Message.plural ⟨[], [], [c!"Something-1", c!"Something-2"], some shift⟩).getPluralText true) =
    [.ok none, .ok (some (c!"Something-1")), .ok (some (c!"Something-2"))] := by decide

/-! ### src/error.rs:108-237 -/

section
private def io (_ : IoErr) : Str := c!"Error in plurals forms: message"

example : (Err.io 0 (.os 0)).display io = c!"Error in plurals forms: message" := by rfl
example : (Err.io 10 (.os 0)).display io = c!"Error in plurals forms: message at line 10" := by rfl
example : (Err.unexpected 0 (c!"message")).display io = c!"Unexpected error: message" := by rfl
example : (Err.unexpected 10 (c!"message")).display io = c!"Unexpected error at line 10: message" := by rfl
example : (Err.parse 10 (c!"token1") (c!"token2")).display io = c!"Parse error at line 10 expected ‘token2’, got ‘token1’" := by rfl
example : (Err.pluralForms (c!"message")).display io = c!"Error in plurals forms: message" := by rfl
example : (Err.unexpected 15 (c!"weird")).source = none ∧ (Err.io 10 (.os 0)).source = some (.os 0) := by decide

private def ioDebug (_ : IoErr) : Str := c!"Custom { kind: Other, error: Error in plurals forms: message }"

example : (Err.io 0 (.os 0)).debug ioDebug = c!"Custom { kind: Other, error: Error in plurals forms: message }" := by rfl
example : (Err.io 10 (.os 0)).debug ioDebug = c!"Custom { kind: Other, error: Error in plurals forms: message } at line 10" := by rfl
example : (Err.unexpected 0 (c!"message")).debug ioDebug = c!"Unexpected error: message" := by rfl
example : (Err.unexpected 10 (c!"message")).debug ioDebug = c!"Unexpected error at line 10: message" := by rfl
example : (Err.parse 10 (c!"token1") (c!"token2")).debug ioDebug = c!"Parse error at line 10 expected ‘token2’, got ‘token1’" := by rfl
example : (Err.pluralForms (c!"message")).debug ioDebug = c!"Error in plurals forms: message" := by rfl
end

/-! ### src/po/reader.rs:252-899 -/

/-- `make_source()` -/
def source : List Str := [
  c!"#, flag1, flag2, fuzzy", c!"#$ Any comment 1", c!"#& Any comment 2", c!"# Any note", c!"#: File1:1 File1:2",
  c!"#: File2:1 File2:2", c!"msgctxt \"Any context\"", c!"msgid \"\"", c!"msgstr \"\"", c!"\"Any-Header: Value\\n\"",
  c!"\"Language: fr\\n\"", c!"", c!"msgid \"Hello, world !\"", c!"msgstr \"Salut, tout le monde !\""]

/-- The unit that `make_reader` puts into `next_unit`. -/
def nextOf (text : Str) : Option (Except Err PoUnit) := some (.ok { PoUnit.default with message := .simple [] (some text) })

/-- `make_reader()` -/
def reader (ls : List Str) : Reader (List Item) demoEnv.Lang where
  lines := linesOf ls
  nextUnit := nextOf (c!"Header-1: Value1\nLanguage: en\nPlural-Forms: nplurals=2; plural=(n > 1);\nHeader-2: ValueA\nHeader-1: Value2")
  headerNotes := [⟨.translator, c!"You"⟩, ⟨.developer, c!"Me"⟩]
  headerComments := [⟨'+', c!"Comment 1"⟩, ⟨'=', c!"Comment 2"⟩]
  headerProperties := []
  targetLanguage := demoEnv.langInvariant
  pluralForms := none

-- `test_empty`
example : readAll demoEnv (linesOf []) = .ok ⟨noHeader demoEnv, none, [], none⟩ := by rfl

-- `test_func_parse_po_header_with_error`: the message is lalrpop's (its text is in Props/Message)
example : (parsePoHeader demoEnv { reader [] with nextUnit := nextOf (c!"Plural-Forms: plural=1+;") }).1 =
    .err (.pluralForms (demoEnv.formulaMsg (c!"1+"))) := by rfl

-- `test_func_parse_po_header_with_bad_language`: a library that rejects the text
example : let env : Env := ⟨Str, fun _ => none, fun _ => none, c!"invariant", id⟩
    (parsePoHeader (σ := List Item) env ⟨[], nextOf (c!"Language: fx42"), [], [], [], c!"old", none⟩).2.targetLanguage =
      c!"invariant" := by rfl

-- `test_func_parse_po_header_normal`
set_option maxRecDepth 100000 in
example : parsePoHeader demoEnv (reader []) = (.ok (), { reader [] with
    headerProperties := [(c!"Header-1", c!"Value1 Value2"), (c!"Language", c!"en"), (c!"Plural-Forms", c!"nplurals=2; plural=(n > 1);"),
      (c!"Header-2", c!"ValueA")]
    targetLanguage := c!"en"
    pluralForms := some ⟨.binop .gt .var (.num 1), 2, c!"nplurals=2; plural=(n > 1);", c!"(n > 1)"⟩ }) := by rfl

-- `test_func_read_line`
section
private def ids := reader [c!"#~ msgid \"my-id-1\"", c!"msgid \"my-id-2\""]

example : (readLine ids).1 = .ok (some (1, true)) := by rfl
example : (readLine { ids with lines := ids.lines.tail }).1 = .ok (some (2, false)) := by rfl
example : (readLine { ids with lines := ids.lines.tail.tail }).1 = .ok none := by rfl
example : (readLine (reader [c!"msgid \"my-error"])).1 = .err (.parse 2 (c!"msgid \"my-error") []) := by rfl
example : shown (.parse 2 (c!"msgid \"my-error") []) = c!"Parse error at line 2, got ‘msgid \"my-error’" := by rfl
example : (readLine { reader [c!"msgid \"my-error"] with nextUnit := some (.error (.unexpected 123 (c!"An error"))) }).1 =
    .err (.unexpected 123 (c!"An error")) := by rfl
end

-- `test_func_parse_comments`
example : parseComments .default (linesOf [c!"msgid \"my-error"]) = (.err (.parse 2 (c!"msgid \"my-error") []), []) := by rfl
example : parseComments .default ([] : List Item) = (.ok .default, []) := by rfl
example : (parseComments .default (linesOf [c!"msgid \"my-id\""])).1 = .ok .default := by rfl
example : parseComments .default (linesOf [c!"# simple comment", c!"msgid \"my-error"]) =
    (.err (.parse 3 (c!"msgid \"my-error") []), []) := by rfl
example : (parseComments .default (linesOf [c!"#$ any comment", c!"# simple note"])).1 =
    .ok { PoUnit.default with notes := [⟨.translator, c!"simple note"⟩], comments := [⟨'$', c!"any comment"⟩] } := by rfl
example : (parseComments .default (linesOf [c!"#  translator comment", c!"#. developer comment", c!"#: Location:1 Location:2",
      c!"#: Location:3 Location:4", c!"#, flag1, flag2", c!"#, flag3, fuzzy, flag4"])).1 =
    .ok { PoUnit.default with
      notes := [⟨.translator, c!"translator comment"⟩, ⟨.developer, c!"developer comment"⟩]
      locations := [c!"Location:1", c!"Location:2", c!"Location:3", c!"Location:4"]
      flags := [c!"flag1", c!"flag2", c!"flag3", c!"fuzzy", c!"flag4"]
      state := .needsWork } := by rfl

-- `test_func_parse_unit`
example : (parseUnit .default false (reader [c!"msgid \"\""])).1 = .ok none := by rfl
example : (parseUnit .default false (reader [c!"msgid \""])).1 = .err (.parse 2 (c!"msgid \"") []) := by rfl

-- `test_func_read_unit_normal`
/-- The first unit of `source`. -/
def sourceHeader : PoUnit := { PoUnit.default with
  context := some (c!"Any context")
  message := .simple [] (some (c!"Any-Header: Value\nLanguage: fr\n"))
  comments := [⟨'$', c!"Any comment 1"⟩, ⟨'&', c!"Any comment 2"⟩]
  locations := [c!"File1:1", c!"File1:2", c!"File2:1", c!"File2:2"]
  flags := [c!"flag1", c!"flag2", c!"fuzzy"]
  notes := [⟨.translator, c!"Any note"⟩]
  state := .needsWork }

/-- The second unit of `source`. -/
def sourceUnit : PoUnit := { PoUnit.default with
  message := .simple (c!"Hello, world !") (some (c!"Salut, tout le monde !"))
  state := .final }

set_option maxRecDepth 100000 in
example : (readUnit true (reader source)).1 = .ok (some sourceHeader) := by rfl
set_option maxRecDepth 100000 in
example : (readUnit false (readUnit true (reader source)).2).1 = .ok (some sourceUnit) := by rfl

-- `test_func_read_unit_with_exceptions`
example : (readUnit false (reader [c!"msgid \""])).1 = .err (.parse 2 (c!"msgid \"") []) := by rfl
example : (readUnit false (reader [])).1 = .ok none := by rfl
example : (readUnit false (reader [c!"#~ msgid \"\""])).1 = .ok none := by rfl
example : (readUnit false (reader [c!"msgid \"\"", c!"msgstr \"Something\""])).1 =
    .err (.unexpected 1 (c!"Source should not be empty")) := by rfl
example : shown (.unexpected 1 (c!"Source should not be empty")) = c!"Unexpected error at line 1: Source should not be empty" := by rfl

-- `test_func_next_unit`
section
private def four := reader [c!"msgid \"my-id\"", c!"msgstr \"my-text\"", c!"msgid \"with-error\"", c!"msgstr \""]

example : (nextUnitM false four).1 =
    .ok (some (.ok { PoUnit.default with message := .simple (c!"my-id") (some (c!"my-text")), state := .final })) := by rfl
example : (nextUnitM false (nextUnitM false four).2).1 = .ok (some (.error (.parse 5 (c!"msgstr \"") []))) := by rfl
example : (nextUnitM false (nextUnitM false (nextUnitM false four).2).2).1 = .ok none := by rfl
end

-- `test_func_new_with_error_on_entry`, `test_func_new_with_error_on_plural`
example : Spec.Fails (parse demoEnv (textStream [c!"msgid: \"--"])) (.parse 2 (c!"msgid: \"--") []) := fails_text (by decide) (by rfl)
example : Spec.Fails (parse demoEnv (textStream [c!"msgid \"\"", c!"msgstr \"\"", c!"\"Plural-Forms: plural=1+\""]))
    (.unexpected 0 (c!"Bad value list definition: `plural=1+`")) := fails_text (by decide) (by rfl)

-- `test_func_new_normal` and `test_trait_iterator_normal`
set_option maxRecDepth 100000 in
example : Spec.Yields (parse demoEnv (textStream source))
    ⟨[⟨.translator, c!"Any note"⟩], [⟨'$', c!"Any comment 1"⟩, ⟨'&', c!"Any comment 2"⟩],
      [(c!"Any-Header", c!"Value"), (c!"Language", c!"fr")], c!"fr"⟩ (Spec.results [sourceUnit] none) :=
  yields_text (res := ⟨_, none, [sourceUnit], none⟩) (by decide) (by rfl)

-- `test_trait_iterator_with_error`
example : Spec.Yields (parse demoEnv (textStream [c!"msgid \"msg\"", c!"msgstr \"text\"", c!"", c!"#? xxx", c!"msgid \""]))
    (noHeader demoEnv)
    (Spec.results [{ PoUnit.default with message := .simple (c!"msg") (some (c!"text")), state := .final }]
      (some (.parse 6 (c!"msgid \"") []))) :=
  yields_text (res := ⟨_, none, _, some _⟩) (by decide) (by rfl)

/-! ### tests/integration_test.rs -/

/-- `SAMPLE_PO` -/
def sample : List Str := [
  c!"", c!"msgid \"\"", c!"msgstr \"\"", c!"\"Project-Id-Version: poreader test\\n\"",
  c!"\"PO-Revision-Date: 2017-04-24 21:39+02:00\\n\"",
  c!"\"Last-Translator: Frédéric Meyer <frederic.meyer.77@gmail.com>\\n\"", c!"\"Language-Team: French\\n\"",
  c!"\"Language: fr\\n\"", c!"\"MIME-Version: 1.0\\n\"", c!"\"Header1: Value1\\n\"", c!"\"Header2: ValueX\\n\"",
  c!"\"Header1: Value2\\n\"", c!"\"Content-Type: text/plain; charset=ISO-8859-2\\n\"",
  c!"\"Content-Transfer-Encoding: 8bit\\n\"", c!"\"Plural-Forms: nplurals=3;\\n\"",
  c!"\"Plural-Forms: plural=(n==1) ? 0 : (n>=2 && n<=4) ? 1 : 2;\\n\"",
  c!"", c!"msgid \"Simple message\"", c!"msgstr \"Un simple message\"",
  c!"", c!"#. Extracted comment", c!"#  Translator comment", c!"#: Location:42  Another:69", c!"#, fuzzy",
  c!"#| msgctxt \"ConTeXt\"", c!"#| msgid \"Previous message\"", c!"msgctxt \"ConTeXt\"", c!"msgid \"Changed message\"",
  c!"msgstr \"Message\\n\"", c!"\"changé\"",
  c!"", c!"msgid \"Untranslated message\"", c!"msgstr \"\"",
  c!"", c!"msgid \"A message with several translations\"", c!"msgid_plural \"Some messages with several translations\"",
  c!"msgstr[0] \"Un message avec plusieurs traductions\"", c!"msgstr[1] \"Quelques messages avec plusieurs traductions\"",
  c!"msgstr[2] \"Des messages avec plusieurs traductions\"",
  c!"", c!"# Another comment", c!"#~ msgid \"Obsolete message\"", c!"#~ msgstr \"Message obsolète\"", c!""]

/-- The plural forms of the sample. -/
def sampleForms : PluralForms :=
  ⟨.cond (.binop .eq .var (.num 1)) (.num 0)
      (.cond (.binop .and (.binop .gte .var (.num 2)) (.binop .lte .var (.num 4))) (.num 1) (.num 2)),
    3, c!"nplurals=3; plural=(n==1) ? 0 : (n>=2 && n<=4) ? 1 : 2;", c!"(n==1) ? 0 : (n>=2 && n<=4) ? 1 : 2"⟩

/-- The plural message of the sample. -/
def sampleMany : Message := .plural
  ⟨c!"A message with several translations", c!"Some messages with several translations",
    [c!"Un message avec plusieurs traductions", c!"Quelques messages avec plusieurs traductions",
      c!"Des messages avec plusieurs traductions"], some sampleForms⟩

/-- The units of the sample. -/
def sampleUnits : List PoUnit := [
  { PoUnit.default with message := .simple (c!"Simple message") (some (c!"Un simple message")), state := .final },
  { PoUnit.default with
    prevContext := some (c!"ConTeXt")
    prevMessage := .simple (c!"Previous message") none
    context := some (c!"ConTeXt")
    message := .simple (c!"Changed message") (some (c!"Message\nchangé"))
    notes := [⟨.developer, c!"Extracted comment"⟩, ⟨.translator, c!"Translator comment"⟩]
    locations := [c!"Location:42", c!"Another:69"]
    flags := [c!"fuzzy"]
    state := .needsWork },
  { PoUnit.default with message := .simple (c!"Untranslated message") none },
  { PoUnit.default with message := sampleMany, state := .final },
  { PoUnit.default with
    message := .simple (c!"Obsolete message") (some (c!"Message obsolète"))
    notes := [⟨.translator, c!"Another comment"⟩]
    state := .final
    obsolete := true }]

set_option maxRecDepth 1000000 in
example : ∃ hdr, Spec.Yields (parse demoEnv (textStream sample)) hdr (Spec.results sampleUnits none) ∧
    hdr.language = c!"fr" ∧ hdr.properties.lookup (c!"Project-Id-Version") = some (c!"poreader test") ∧
    hdr.properties.lookup (c!"Header0") = none ∧ hdr.properties.lookup (c!"Header1") = some (c!"Value1 Value2") ∧
    hdr.properties.lookup (c!"Header2") = some (c!"ValueX") :=
  ⟨_, yields_text (res := ⟨_, some sampleForms, sampleUnits, none⟩) (by decide) (by rfl), by rfl, by rfl, by rfl, by rfl, by rfl⟩

example : [1, 10, 3].map (sampleMany.getPluralText true) =
    [.ok (some (c!"Un message avec plusieurs traductions")), .ok (some (c!"Des messages avec plusieurs traductions")),
      .ok (some (c!"Quelques messages avec plusieurs traductions"))] := by decide

end Verif.Tests
