import Verif.Model.Input
import Verif.Model.Data

/-! Model of src/po/decoder.rs and src/po/message_extractor.rs. -/

namespace Verif

/-- A Rust method with `&mut self` on a state `σ`, returning `Result<α, Error>` (or panicking). -/
abbrev Eff (σ α : Type) := σ → Out α × σ

namespace Eff
variable {σ α β : Type}

/-- `Ok(a)` -/
def pure (a : α) : Eff σ α := fun s => (.ok a, s)
/-- `Err(e)` -/
def err (e : Err) : Eff σ α := fun s => (.err e, s)
/-- `panic!` (`unreachable!()`, a failing `unwrap()`, or a model loop out of fuel) -/
def panic : Eff σ α := fun s => (.panic, s)
/-- `?` and sequencing -/
def bind (x : Eff σ α) (f : α → Eff σ β) : Eff σ β := fun s =>
  match x s with
  | (.ok a, s') => f a s'
  | (.err e, s') => (.err e, s')
  | (.panic, s') => (.panic, s')

instance : Monad (Eff σ) where
  pure := Eff.pure
  bind := Eff.bind

end Eff

section
variable {σ : Type} [Src σ]

/-- `self.peek()` -/
def peekE : Eff σ (Option Item) := fun s => (.ok (Src.peek s).1, (Src.peek s).2)
/-- `self.next()` -/
def nextE : Eff σ (Option Item) := fun s => (.ok (Src.next s).1, (Src.next s).2)

/-- `fetch_next`, src/po/decoder.rs:5-15. -/
def fetchNext : Eff σ (Option PoLine) := do
  match ← peekE with
  | some (.ok line) => Eff.pure (some line)
  | _ =>
    match ← nextE with
    | some (.error err) => Eff.err err
    | _ => Eff.pure none

/-- The `while let` loop over continuation lines, src/po/decoder.rs:38-51. -/
def contLoop (pfx : Str) : Nat → Str → Eff σ Str
  | 0, _ => Eff.panic
  | k + 1, string => do
    match ← fetchNext with
    | some (.continuation _ p _) =>
      if p ≠ pfx then Eff.pure string
      else
        match ← nextE with
        | some (.ok (.continuation _ _ s)) => contLoop pfx k (string ++ s)
        | _ => Eff.panic
    | _ => Eff.pure string

/-- `p.starts_with('~')` -/
def startsTilde (p : Str) : Bool := p.head? == some '~'

/-- `Decoder::parse_msg`, src/po/decoder.rs:23-54 (of the unit only `obsolete` is read). -/
def parseMsg (tag : Str) (obsolete : Bool) : Eff σ (Option Str) := do
  match ← fetchNext with
  | some (.message _ p t _) =>
    if t = tag ∧ startsTilde p = obsolete then
      match ← nextE with
      | some (.ok (.message _ p _ s)) => do
        let string ← fun st => contLoop p (Src.bound st + 1) s st
        Eff.pure (some string)
      | _ => Eff.panic
    else Eff.pure none
  | _ => Eff.pure none

/-- `Decoder::expected`, src/po/decoder.rs:56-70. -/
def expected (exp : Str) : Eff σ Unit := do
  match ← peekE with
  | none => Eff.pure ()
  | some (.ok .blank) => Eff.pure ()
  | some (.error _) =>
    match ← nextE with
    | some (.error err) => Eff.err err
    | _ => Eff.panic
  | some (.ok (.message n p _ _)) => Eff.err (.parse n p exp)
  | some (.ok (.continuation n _ _)) => Eff.err (.parse n (c!"\"") exp)
  | some (.ok (.comment n c _)) => Eff.err (.parse n ['#', c] exp)

/-- `format!("msgstr[{}]", i)`, src/po/message_extractor.rs:83. -/
def msgstrTag (i : Nat) : Str := c!"msgstr[" ++ dec i ++ c!"]"

/-- The loop `for i in 0..count` over the plural texts, src/po/message_extractor.rs:82-86: `k` iterations left, next index `i`. -/
def valuesLoop (obsolete : Bool) : Nat → Nat → List Str → Eff σ (List Str)
  | 0, _, values => Eff.pure values
  | k + 1, i, values => do
    match ← parseMsg (msgstrTag i) obsolete with
    | some v => valuesLoop obsolete k (i + 1) (values ++ [v])
    | none => valuesLoop obsolete k (i + 1) values

/-- `MessageExtractor::new_message`, src/po/message_extractor.rs:70-110. -/
def newMessage (forms : Option PluralForms) (obsolete : Bool) (msgid msgidPl : Option Str) : Eff σ (Option Message) := do
  match msgid with
  | none => Eff.pure (some .default)
  | some singular =>
    match msgidPl with
    | some plural =>
      let count := (forms.map PluralForms.getCount).getD 2
      let values ← valuesLoop obsolete count 0 []
      if values.isEmpty then do
        expected (c!"msgstr[0]")
        Eff.pure none
      else Eff.pure (some (.plural ⟨singular, plural, values, forms⟩))
    | none =>
      match ← parseMsg (c!"msgstr") obsolete with
      | some text => Eff.pure (some (.simple singular (if text.isEmpty then none else some text)))
      | none => do
        expected (c!"msgstr")
        Eff.pure none

/-- `MessageExtractor::new_previous`, src/po/message_extractor.rs:112-123. -/
def newPrevious (forms : Option PluralForms) (msgid msgidPl : Option Str) : Message :=
  match msgid with
  | none => .default
  | some singular =>
    match msgidPl with
    | none => .simple singular none
    | some plural => .plural ⟨singular, plural, [], forms⟩

/-- `MessageExtractor::parse_message_fields`, src/po/message_extractor.rs:25-68. -/
def parseMessageFields (forms : Option PluralForms) (unit : PoUnit) (first : Bool) : Eff σ (Option PoUnit) := do
  let prevContext ← parseMsg (c!"|msgctxt") unit.obsolete
  let prevMsgid ← parseMsg (c!"|msgid") unit.obsolete
  let prevMsgidPl ← (match prevMsgid with
    | some _ => parseMsg (c!"|msgid_plural") unit.obsolete
    | none => Eff.pure none)
  let prevMessage := newPrevious forms prevMsgid prevMsgidPl
  let context ← parseMsg (c!"msgctxt") unit.obsolete
  let msgid ← parseMsg (c!"msgid") unit.obsolete
  if !first && msgid.isNone then do
    expected (c!"msgid")
    Eff.pure none
  else do
    let msgidPl ← parseMsg (c!"msgid_plural") unit.obsolete
    match ← newMessage forms unit.obsolete msgid msgidPl with
    | none => Eff.pure none
    | some message =>
      Eff.pure (some { unit with prevContext := prevContext, prevMessage := prevMessage, context := context, message := message })

end

end Verif
