import Verif.Model.Basic

/-! Model of src/error.rs and src/po/line.rs. -/

namespace Verif

/-- `std::io::Error`, reduced to what the crate can observe of it: the error `BufRead::lines` makes for a line that is not valid
UTF-8, or an error of the underlying stream (identified by a number). -/
inductive IoErr where
  | invalidUtf8
  | os (code : Nat)
  deriving DecidableEq

/-- `Error`, src/error.rs:7-30. -/
inductive Err where
  /-- `Io(line, error)` -/
  | io (line : Nat) (e : IoErr)
  /-- `Parse(line, unexpected token, expected token)` -/
  | parse (line : Nat) (got exp : Str)
  /-- `Unexpected(line, message)` -/
  | unexpected (line : Nat) (msg : Str)
  /-- `PluralForms(message)` -/
  | pluralForms (msg : Str)
  deriving DecidableEq

/-- `PoLine`, src/po/line.rs:2-13. -/
inductive PoLine where
  | blank
  /-- line number, kind, content -/
  | comment (n : Nat) (kind : Char) (content : Str)
  /-- line number, flags (obsolete/previous marker), tag, string -/
  | message (n : Nat) (flags tag string : Str)
  /-- line number, flags, string -/
  | continuation (n : Nat) (flags string : Str)
  deriving DecidableEq

/-- `PoLine::line`, src/po/line.rs:16-23. -/
def PoLine.line : PoLine → Nat
  | .blank => 0
  | .comment n .. => n
  | .message n .. => n
  | .continuation n .. => n

/-- Outcome of a Rust call: a value, a returned `Err`, or a panic (`unwrap` on a failure, `unreachable!()`). -/
inductive Out (α : Type) where
  | ok (a : α)
  | err (e : Err)
  | panic
  deriving DecidableEq

end Verif
