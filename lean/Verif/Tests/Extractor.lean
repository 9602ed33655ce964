import Verif.Tests.Crate
import Verif.Model.Extractor

/-! The crate's tests of the message extractor with the mock decoder of its tests, run on the model. -/

namespace Verif.Tests
open Verif

/-! ### The mock decoder, src/po/decoder.rs:80-199 -/

/-- `TestAction` -/
inductive Action where
  | ok (v : Str)
  | err (e : Err)
  | delayed (e : Err)

/-- `TestDecoder`; of the values the first one of a key counts. -/
structure Mock where
  cnt : Nat := 0
  command : Str := []
  message : Str := c!"message-0"
  log : List Str := []
  error : Option Err := none
  values : Option (List (Str × Action)) := none

namespace Mock

/-- `push_values` -/
def push (m : Mock) (vs : List (Str × Action)) : Mock := { m with values := some (vs ++ m.values.getD []) }

/-- `with_values` -/
def withValues (vs : List (Str × Action)) : Mock := push {} vs

/-- `inc` -/
def inc (m : Mock) : Mock := { m with cnt := m.cnt + 1, message := c!"message-" ++ dec (m.cnt + 1) }

/-- `impl Decoder for TestDecoder` -/
def decoder : Decoder Mock where
  parseMsg tag _ m :=
    match m.error with
    | some e => (.err e, { m with error := none })
    | none =>
      let m := { m with log := m.log ++ [c!"Message: " ++ m.message ++ c!"/" ++ tag] }
      let m := if m.command = c!"@DoError" then { m with error := some (.unexpected 210 (c!"From command `@DoError`")) }
        else if m.command = c!"@DoInc" then m.inc else m
      match m.values with
      | none => (.ok (some m.message), m)
      | some vs =>
        match vs.lookup tag with
        | none => (.ok none, m)
        | some (.ok v) => (.ok (some v), m)
        | some (.err e) => (.err e, { m with values := some (vs.filter fun p => p.1 != tag) })
        | some (.delayed e) => (.ok none, { m with values := some (vs.filter fun p => p.1 != tag), error := some e })
  expected exp m :=
    if exp = m.message then
      let m := { m with log := m.log ++ [c!"Expected: " ++ m.message] }
      match m.error with
      | some e => (.err e, { m with error := none })
      | none => (.ok (), m)
    else (.ok (), m)

end Mock

open Mock

/-- `Unit::for_tests_normal`, as far as the extractor does not replace it. -/
def normal : PoUnit := { PoUnit.default with flags := [c!"flag1", c!"flag2"] }

private def anError : Err := .unexpected 123 (c!"Error")

/-- The result is this error. -/
private def refuses {α : Type} (r : Out α × Mock) (e : Err) : Bool := match r.1 with
  | .err e' => decide (e' = e)
  | _ => false

/-! ### src/po/message_extractor.rs:180-713 -/

-- test_func_parse_message_fields_with_errors_on_new_message
example : refuses (decoder.parseMessageFields (some forms1) normal false (withValues [(c!"msgid", .ok (c!"Something")), (c!"msgid_plural", .err anError)])) anError = true := by decide +kernel

-- test_func_parse_message_fields_with_errors_on_expected
example : refuses (decoder.parseMessageFields (some forms1) normal false { withValues [(c!"msgid", .delayed anError)] with message := c!"msgid" }) anError = true := by decide +kernel

-- test_func_parse_message_fields_with_errors_on_parse_msg: the same decoder six times
section
private def run (m : Mock) (vs : List (Str × Action)) : Out (Option PoUnit) × Mock := decoder.parseMessageFields (some forms1) normal false (m.push vs)
private def r1 := run {} [(c!"|msgctxt", .err anError)]
private def r2 := run r1.2 [(c!"|msgid", .err anError)]
private def r3 := run r2.2 [(c!"|msgid", .ok (c!"Something")), (c!"|msgid_plural", .err anError)]
private def r4 := run r3.2 [(c!"msgctxt", .err anError)]
private def r5 := run r4.2 [(c!"msgid", .err anError)]
private def r6 := run r5.2 [(c!"msgid", .ok (c!"Something")), (c!"msgid_plural", .err anError)]

example : [r1, r2, r3, r4, r5, r6].all (refuses · anError) = true := by decide +kernel
end

-- test_func_parse_message_fields_singular
section
private def singular : Mock := withValues [(c!"|msgctxt", .ok (c!"prev-ctx")), (c!"|msgid", .ok (c!"prev-id")), (c!"msgctxt", .ok (c!"my-ctx")), (c!"msgid", .ok (c!"my-id")), (c!"msgstr", .ok (c!"my-text"))]

example : (decoder.parseMessageFields none normal true singular).1 =
    .ok (some { normal with prevContext := some (c!"prev-ctx"), context := some (c!"my-ctx"), prevMessage := .simple (c!"prev-id") none, message := .simple (c!"my-id") (some (c!"my-text")) }) := by decide +kernel
example : (Message.simple (c!"my-id") (some (c!"my-text"))).getPluralText true 24 = .ok (some (c!"my-text")) := by decide +kernel
end

-- test_func_parse_message_fields_plural
section
private def plural3 : Mock := withValues [(c!"|msgctxt", .ok (c!"prev-ctx")), (c!"|msgid", .ok (c!"prev-id")), (c!"|msgid_plural", .ok (c!"prev-plural")), (c!"msgctxt", .ok (c!"my-ctx")),
  (c!"msgid", .ok (c!"my-id")), (c!"msgid_plural", .ok (c!"my-plural")), (c!"msgstr[0]", .ok (c!"my-text-1")), (c!"msgstr[1]", .ok (c!"my-text-2")), (c!"msgstr[2]", .ok (c!"my-text-3"))]

private def plural3Message : Message := .plural ⟨c!"my-id", c!"my-plural", [c!"my-text-1", c!"my-text-2", c!"my-text-3"], some forms1⟩

example : (decoder.parseMessageFields (some forms1) normal true plural3).1 =
    .ok (some { normal with prevContext := some (c!"prev-ctx"), context := some (c!"my-ctx"), prevMessage := .plural ⟨c!"prev-id", c!"prev-plural", [], some forms1⟩, message := plural3Message }) := by decide +kernel
example : [1, 24].map ((Message.plural ⟨c!"prev-id", c!"prev-plural", [], some forms1⟩).getPluralText true) = [.ok none, .ok none] := by decide +kernel
example : [1, 24, 114].map (plural3Message.getPluralText true) = [.ok (some (c!"my-text-1")), .ok (some (c!"my-text-2")), .ok (some (c!"my-text-3"))] := by decide +kernel
end

-- test_func_parse_message_fields_for_empty_messages
section
private def e1 := decoder.parseMessageFields (some forms1) normal true (withValues [(c!"msgstr", .ok (c!"some text"))])
private def e2 := decoder.parseMessageFields (some forms1) normal true (e1.2.push [(c!"msgid", .ok [])])

example : e1.1 = .ok (some { normal with message := .simple [] none }) := by decide +kernel
example : e2.1 = .ok (some { normal with message := .simple [] (some (c!"some text")) }) := by decide +kernel
example : (Message.simple [] none).isEmpty = true ∧ (Message.simple [] (some (c!"some text"))).isEmpty = true := by decide +kernel
end

-- test_func_parse_message_fields_returns_none
example : (decoder.parseMessageFields (some forms1) normal false (withValues [])).1 = .ok none := by decide +kernel

-- test_func_parse_msg and test_func_expected, of the mock decoder itself
section
private def p1 := decoder.parseMsg (c!"tag1") .default {}
private def p2 := decoder.parseMsg (c!"tag2") .default p1.2.inc
private def p3 := decoder.parseMsg (c!"tag3") .default (p2.2.inc.push [])
private def p4 := decoder.parseMsg (c!"tag4") .default { p3.2 with error := some (.unexpected 123 (c!"An error")) }

example : p1.1 = .ok (some (c!"message-0")) ∧ p1.2.log = [c!"Message: message-0/tag1"] := by decide +kernel
example : p2.1 = .ok (some (c!"message-1")) ∧ p2.2.log = [c!"Message: message-0/tag1", c!"Message: message-1/tag2"] := by decide +kernel
example : p3.1 = .ok none ∧ p3.2.log = [c!"Message: message-0/tag1", c!"Message: message-1/tag2", c!"Message: message-2/tag3"] := by decide +kernel
example : p4.1 = .err (.unexpected 123 (c!"An error")) ∧ shown (.unexpected 123 (c!"An error")) = c!"Unexpected error at line 123: An error" := by decide +kernel

private def q1 := decoder.expected (c!"---") {}
private def q2 := decoder.expected (c!"message-1") q1.2.inc
private def q3 := decoder.expected (c!"message-2") { q2.2.inc with error := some (.unexpected 123 (c!"An error")) }

example : q1.1 = .ok () ∧ q1.2.log = [] ∧ q2.1 = .ok () ∧ q2.2.log = [c!"Expected: message-1"] := by decide +kernel
example : q3.1 = .err (.unexpected 123 (c!"An error")) ∧ q3.2.log = [c!"Expected: message-1", c!"Expected: message-2"] := by decide +kernel
end

-- test_func_new_message_for_error_from_none, …_from_singular, …_from_plural_on_parse, …_from_plural_on_expected
section
private def commanded : Err := .unexpected 210 (c!"From command `@DoError`")
private def butExpected : Err := .unexpected 123 (c!"But this is expected")

example : shown commanded = c!"Unexpected error at line 210: From command `@DoError`" := by decide +kernel
example : refuses (decoder.newMessage none .default (some (c!"MyMsg0")) none { withValues [] with message := c!"msgstr", command := c!"@DoError" }) commanded = true := by decide +kernel
example : refuses (decoder.newMessage none .default (some (c!"MyMsg1")) none { error := some butExpected }) butExpected = true := by decide +kernel
example : refuses (decoder.newMessage (some forms1) normal (some (c!"MyMsg2")) (some (c!"MyText1")) { error := some butExpected }) butExpected = true := by decide +kernel
example : refuses (decoder.newMessage none .default (some (c!"MyMsg3")) (some (c!"MyText2")) { message := c!"msgstr[0]", command := c!"@DoError" }) commanded = true := by decide +kernel
end

-- test_func_new_message_for_singular, …_for_no_plural_forms, …_for_plural
example : (decoder.newMessage none .default (some (c!"my-msg")) none {}).1 = .ok (some (.simple (c!"my-msg") (some (c!"message-0")))) := by decide +kernel
example : (decoder.newMessage none normal (some (c!"my-id")) (some (c!"my-plural")) (withValues [])).1 = .ok none := by decide +kernel
example : (decoder.newMessage (some forms1) normal (some (c!"my-id")) (some (c!"my-plural")) { command := c!"@DoInc" }).1 =
    .ok (some (.plural ⟨c!"my-id", c!"my-plural", [c!"message-1", c!"message-2", c!"message-3"], some forms1⟩)) := by decide +kernel

end Verif.Tests
