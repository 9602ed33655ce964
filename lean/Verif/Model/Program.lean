import Verif.Model.Reader
import Verif.Model.Text

/-! Model of the conversion of errors to `std::io::Error` (src/error.rs:101-105) and of the example program in the documentation (src/lib.rs:19-50). -/

namespace Verif

/-- `std::io::Error` as a user's program sees it: one of the stream, or one made with `Error::new(kind, error)` of kind `Other`. -/
inductive StdIo where
  | stream (e : IoErr)
  | other (e : Err)
  deriving DecidableEq

/-- `From<Error> for std::io::Error`, src/error.rs:101-105. -/
def Err.toIo (e : Err) : StdIo := .other e

/-- `get_ref()`: the error inside (std). -/
def StdIo.getRef : StdIo → Option Err
  | .stream _ => none
  | .other e => some e

/-- `Display` of an error made with `Error::new` is that of the error inside (std). -/
def StdIo.display (io : IoErr → Str) : StdIo → Str
  | .stream e => io e
  | .other e => e.display io

/-- `source()` of an error made with `Error::new` is that of the error inside (std); of errors of the stream there is none. -/
def StdIo.source : StdIo → Option IoErr
  | .stream _ => none
  | .other e => e.source

/-- The loop of the example program, src/lib.rs:40-47: `for unit in reader { let unit = unit?; println!(" - {}", unit.message().get_id()) } Ok(())`.
A `for` loop need not end, so it is given by its runs: what is printed and the result. -/
inductive Prints {σ L : Type} [Src σ] : Reader σ L → Str → Except StdIo Unit → Prop
  | done {r r'} : r.next = (.ok none, r') → Prints r [] (.ok ())
  | unit {r r' u out res} : r.next = (.ok (some (.ok u)), r') → Prints r' out res →
      Prints r (c!" - " ++ u.message.getId ++ ['\n'] ++ out) res
  | error {r r' e} : r.next = (.ok (some (.error e)), r') → Prints r [] (.error e.toIo)

/-- The example program from the opened file on, src/lib.rs:34-49: `let reader = parser.parse(file)?;` and the loop. -/
inductive Program (env : Env) (stream : List Event) : Str → Except StdIo Unit → Prop
  | error {e} : parse env stream = .err e → Program env stream [] (.error e.toIo)
  | loop {r out res} : parse env stream = .ok r → Prints r out res → Program env stream out res

/-- The whole example program, src/lib.rs:22-49.  `args` is what `args()` gives (the name of the program first), `files` what `File::open` gives for a name: an error or the bytes
that can be read.  What is printed on the two outputs and the result of `main`. -/
inductive Main (env : Env) (files : Str → Except IoErr (List Event)) (args : List Str) : Str → Str → Except StdIo Unit → Prop
  | noName : (args.drop 1).head? = none → Main env files args [] (c!"No file specified\n") (.ok ())
  | noFile {name e} : (args.drop 1).head? = some name → files name = .error e → Main env files args [] [] (.error (.stream e))
  | file {name stream out res} : (args.drop 1).head? = some name → files name = .ok stream → Program env stream out res → Main env files args out [] res

end Verif
