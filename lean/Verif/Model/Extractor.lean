import Verif.Model.Decoder

/-! Model of src/po/message_extractor.rs with any implementation of the trait `Decoder`.  (`Model/Decoder` has the same functions with the implementation for the
lines of a stream only.) -/

namespace Verif

/-- The trait `Decoder`, src/po/decoder.rs:17-20, on states `δ`. -/
structure Decoder (δ : Type) where
  parseMsg : Str → PoUnit → Eff δ (Option Str)
  expected : Str → Eff δ Unit

/-- `impl Decoder for Peekable<LineIter>`, src/po/decoder.rs:22-71. -/
def lineDecoder {σ : Type} [Src σ] : Decoder σ := ⟨fun tag unit => parseMsg tag unit.obsolete, expected⟩

namespace Decoder
variable {δ : Type} (D : Decoder δ)

/-- The loop over the plural texts, src/po/message_extractor.rs:82-86. -/
def valuesLoop (unit : PoUnit) : Nat → Nat → List Str → Eff δ (List Str)
  | 0, _, values => Eff.pure values
  | k + 1, i, values => do
    match ← D.parseMsg (msgstrTag i) unit with
    | some v => valuesLoop unit k (i + 1) (values ++ [v])
    | none => valuesLoop unit k (i + 1) values

/-- `MessageExtractor::new_message`, src/po/message_extractor.rs:70-110. -/
def newMessage (forms : Option PluralForms) (unit : PoUnit) (msgid msgidPl : Option Str) : Eff δ (Option Message) := do
  match msgid with
  | none => Eff.pure (some .default)
  | some singular =>
    match msgidPl with
    | some plural =>
      let count := (forms.map PluralForms.getCount).getD 2
      let values ← D.valuesLoop unit count 0 []
      if values.isEmpty then do
        D.expected (c!"msgstr[0]")
        Eff.pure none
      else Eff.pure (some (.plural ⟨singular, plural, values, forms⟩))
    | none =>
      match ← D.parseMsg (c!"msgstr") unit with
      | some text => Eff.pure (some (.simple singular (if text.isEmpty then none else some text)))
      | none => do
        D.expected (c!"msgstr")
        Eff.pure none

/-- `MessageExtractor::parse_message_fields`, src/po/message_extractor.rs:25-68. -/
def parseMessageFields (forms : Option PluralForms) (unit : PoUnit) (first : Bool) : Eff δ (Option PoUnit) := do
  let prevContext ← D.parseMsg (c!"|msgctxt") unit
  let prevMsgid ← D.parseMsg (c!"|msgid") unit
  let prevMsgidPl ← (match prevMsgid with
    | some _ => D.parseMsg (c!"|msgid_plural") unit
    | none => Eff.pure none)
  let prevMessage := newPrevious forms prevMsgid prevMsgidPl
  let context ← D.parseMsg (c!"msgctxt") unit
  let msgid ← D.parseMsg (c!"msgid") unit
  if !first && msgid.isNone then do
    D.expected (c!"msgid")
    Eff.pure none
  else do
    let msgidPl ← D.parseMsg (c!"msgid_plural") unit
    match ← D.newMessage forms unit msgid msgidPl with
    | none => Eff.pure none
    | some message =>
      Eff.pure (some { unit with prevContext := prevContext, prevMessage := prevMessage, context := context, message := message })

end Decoder

end Verif
