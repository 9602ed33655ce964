import Verif.Model.Reader

/-! The map of header properties iterated in any order.

In src/po/reader.rs:177-213 the properties are collected in a `HashMap<String, Vec<String>>`, which is then iterated to fill the map of the reader
(lines 193-194).  The order in which a `HashMap` is iterated is not specified, and differs from run to run; `Model/Reader` uses the order of the
first lines with the keys.  Here the order is the parameter `order`; everything else is as in `Model/Reader`. -/

namespace Verif

section
variable {σ L : Type} [Src σ]

/-- `PoReader::parse_po_header`, src/po/reader.rs:177-213. -/
def parsePoHeaderIn (order : List (Str × Str) → List (Str × Str)) (env : Env) : Eff (Reader σ env.Lang) Unit := fun r =>
  match r.nextUnit with
  | some (.ok u) =>
    let props := (order (headerProps u.message.getText)).foldl (fun m kv => insertKV m kv.1 kv.2) r.headerProperties
    let r := { r with
      headerProperties := props
      headerNotes := r.headerNotes ++ u.notes
      headerComments := r.headerComments ++ u.comments
      targetLanguage := langOf env props r.targetLanguage }
    match props.lookup (c!"Plural-Forms") with
    | none => (.ok (), r)
    | some forms =>
      if forms.isEmpty then (.ok (), r)
      else
        match PluralForms.parse env forms with
        | .error e => (.err e, r)
        | .ok f => (.ok (), { r with pluralForms := some f })
  | _ => (.ok (), r)

/-- `PoReader::new`, src/po/reader.rs:29-61. -/
def Reader.newIn (order : List (Str × Str) → List (Str × Str)) (env : Env) (lines : σ) : Out (Reader σ env.Lang) :=
  let res : Reader σ env.Lang := ⟨lines, none, [], [], [], env.langInvariant, none⟩
  match nextUnitM true res with
  | (.panic, _) => .panic
  | (.err e, _) => .err e
  | (.ok (some (.error err)), _) => .err err
  | (.ok none, res) => .ok { res with nextUnit := none }
  | (.ok (some (.ok u)), res) =>
    let res := { res with nextUnit := some (.ok u) }
    if u.message.isEmpty then
      match parsePoHeaderIn order env res with
      | (.panic, _) => .panic
      | (.err e, _) => .err e
      | (.ok _, res) =>
        match nextUnitM false res with
        | (.panic, _) => .panic
        | (.err e, _) => .err e
        | (.ok nu, res) => .ok { res with nextUnit := nu }
    else .ok res

end

/-- `PoParser::parse`, src/po/parser.rs:35-37. -/
def parseIn (order : List (Str × Str) → List (Str × Str)) (env : Env) (stream : List Event) (later : List (List Event)) : Out (Reader Peekable env.Lang) :=
  Reader.newIn order env ⟨.new stream later, none⟩

end Verif
