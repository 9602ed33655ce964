import Verif.Model.Decoder

/-! Model of src/po/reader.rs and of `PoParser::parse`. -/

namespace Verif

/-- `PoReader`, src/po/reader.rs:18-26.  The `HashMap` of header properties is an association list with unique keys. -/
structure Reader (σ L : Type) where
  lines : σ
  nextUnit : Option (Except Err PoUnit)
  headerNotes : List Note
  headerComments : List Comment
  headerProperties : List (Str × Str)
  targetLanguage : L
  pluralForms : Option PluralForms

section
variable {σ L : Type} [Src σ]

/-- A method of `self.lines`, called from a method of the reader. -/
def onLines {α : Type} (x : Eff σ α) : Eff (Reader σ L) α := fun r =>
  let (o, l) := x r.lines
  (o, { r with lines := l })

/-- `PoReader::read_line`, src/po/reader.rs:63-85. -/
def readLine : Eff (Reader σ L) (Option (Nat × Bool)) := do
  match ← onLines peekE with
  | none => Eff.pure none
  | some (.error _) => fun r =>
    -- `replace(&mut self.next_unit, None)` happens in either case
    let r' := { r with nextUnit := none }
    match r.nextUnit with
    | some (.error err) => (.err err, r')
    | _ =>
      (do match ← onLines nextE with
          | some (.error err) => Eff.err err
          | _ => Eff.panic : Eff (Reader σ L) (Option (Nat × Bool))) r'
  | some (.ok (.message line p t s)) =>
    if startsTilde p then Eff.pure (some (line, true)) else Eff.pure (some ((PoLine.message line p t s).line, false))
  | some (.ok v) => Eff.pure (some (v.line, false))

/-- The flags of a `#,` line, src/po/reader.rs:91-98. -/
def addFlags (unit : PoUnit) (s : Str) : PoUnit :=
  ((splitP (· == ',') s).map trim).foldl (fun u flag =>
    let u := { u with flags := insertFlag u.flags flag }
    if flag = c!"fuzzy" then { u with state := .needsWork } else u) unit

/-- The body of the loop of `parse_comments`, src/po/reader.rs:89-114. -/
def addComment (unit : PoUnit) (kind : Char) (s : Str) : PoUnit :=
  if kind = ',' then addFlags unit s
  else if kind = ':' then
    { unit with locations := unit.locations ++ (splitP isWhite s).filter (fun x => !x.isEmpty) }
  else if kind = '.' then { unit with notes := unit.notes ++ [⟨.developer, s⟩] }
  else if kind = ' ' then { unit with notes := unit.notes ++ [⟨.translator, s⟩] }
  else { unit with comments := unit.comments ++ [⟨kind, s⟩] }

/-- The loop of `parse_comments`, src/po/reader.rs:88-115. -/
def commentLoop : Nat → PoUnit → Eff σ PoUnit
  | 0, _ => Eff.panic
  | k + 1, unit => do
    match ← peekE with
    | some (.ok (.comment ..)) =>
      match ← nextE with
      | some (.ok (.comment _ kind s)) => commentLoop k (addComment unit kind s)
      | _ => Eff.panic
    | _ => Eff.pure unit

/-- `PoReader::parse_comments`, src/po/reader.rs:87-126 (it only touches `self.lines`). -/
def parseComments (unit : PoUnit) : Eff σ PoUnit := do
  let unit ← fun st => commentLoop (Src.bound st + 1) unit st
  match ← peekE with
  | some (.error _) =>
    match ← nextE with
    | some (.error err) => Eff.err err
    | _ => Eff.panic
  | _ => Eff.pure unit

/-- `PoReader::parse_unit`, src/po/reader.rs:128-133. -/
def parseUnit (unit : PoUnit) (first : Bool) : Eff (Reader σ L) (Option PoUnit) := fun r =>
  onLines (parseMessageFields r.pluralForms unit first) r

/-- The end of `PoReader::read_unit`, src/po/reader.rs:157-166. -/
def finishUnit (first : Bool) (line : Nat) (unit : PoUnit) : Except Err PoUnit :=
  if !first && unit.message.isEmpty then .error (.unexpected line (c!"Source should not be empty"))
  else if unit.state = .empty ∧ unit.message.isBlank = false then .ok { unit with state := .final }
  else .ok unit

/-- `PoReader::read_unit`, src/po/reader.rs:135-167. -/
def readUnit (first : Bool) : Eff (Reader σ L) (Option PoUnit) := do
  let unit ← onLines (parseComments .default)
  match ← readLine with
  | none => Eff.pure none
  | some (line, isObsolete) =>
    match ← parseUnit { unit with obsolete := isObsolete } first with
    | none => Eff.pure none
    | some unit =>
      match finishUnit first line unit with
      | .error e => Eff.err e
      | .ok u => Eff.pure (some u)

/-- `PoReader::next_unit`, src/po/reader.rs:169-175: errors become values. -/
def nextUnitM (first : Bool) : Eff (Reader σ L) (Option (Except Err PoUnit)) := fun r =>
  match readUnit first r with
  | (.ok none, r') => (.ok none, r')
  | (.ok (some u), r') => (.ok (some (.ok u)), r')
  | (.err e, r') => (.ok (some (.error e)), r')
  | (.panic, r') => (.panic, r')

/-- `entry(key).or_default().push(val)`, src/po/reader.rs:186-189. -/
def pushKV (m : List (Str × List Str)) (k v : Str) : List (Str × List Str) :=
  match m with
  | [] => [(k, [v])]
  | (k', vs) :: m => if k' = k then (k', vs ++ [v]) :: m else (k', vs) :: pushKV m k v

/-- The header properties of a header text, src/po/reader.rs:179-194. -/
def headerProps (text : Str) : List (Str × Str) :=
  ((splitP (· == '\n') text).foldl (fun m line =>
    match splitColon line with
    | some (k, v) => pushKV m (trim k) (trim v)
    | none => m) []).map fun kl => (kl.1, joinSp kl.2)

/-- The target language, src/po/reader.rs:198-203. -/
def langOf (env : Env) (props : List (Str × Str)) (old : env.Lang) : env.Lang :=
  match props.lookup (c!"Language") with
  | none => old
  | some lang =>
    match env.langNew lang with
    | some l => l
    | none =>
      match env.langFromUnix lang with
      | some l => l
      | none => env.langInvariant

/-- `PoReader::parse_po_header`, src/po/reader.rs:177-213.  `self.header_properties`, `header_notes` and `header_comments` are
extended (they are empty when the method is called). -/
def parsePoHeader (env : Env) : Eff (Reader σ env.Lang) Unit := fun r =>
  match r.nextUnit with
  | some (.ok u) =>
    let props := (headerProps u.message.getText).foldl (fun m kv => insertKV m kv.1 kv.2) r.headerProperties
    let r := { r with
      headerProperties := props
      headerNotes := r.headerNotes ++ u.notes
      headerComments := r.headerComments ++ u.comments
      targetLanguage := langOf env props r.targetLanguage }
    match props.lookup (c!"Plural-Forms") with
    | none => (.ok (), r)
    | some forms =>
      if forms.isEmpty then (.ok (), r)
      else
        match PluralForms.parse env forms with
        | .error e => (.err e, r)
        | .ok f => (.ok (), { r with pluralForms := some f })
  | _ => (.ok (), r)

/-- `PoReader::new`, src/po/reader.rs:29-61, which is `PoParser::parse`, src/po/parser.rs:35-37. -/
def Reader.new (env : Env) (lines : σ) : Out (Reader σ env.Lang) :=
  let res : Reader σ env.Lang := ⟨lines, none, [], [], [], env.langInvariant, none⟩
  match nextUnitM true res with
  | (.panic, _) => .panic
  | (.err e, _) => .err e  -- cannot happen: `next_unit` does not return a `Result`
  | (.ok (some (.error err)), _) => .err err
  | (.ok none, res) => .ok { res with nextUnit := none }
  | (.ok (some (.ok u)), res) =>
    let res := { res with nextUnit := some (.ok u) }
    if u.message.isEmpty then
      match parsePoHeader env res with
      | (.panic, _) => .panic
      | (.err e, _) => .err e
      | (.ok _, res) =>
        match nextUnitM false res with
        | (.panic, _) => .panic
        | (.err e, _) => .err e  -- cannot happen
        | (.ok nu, res) => .ok { res with nextUnit := nu }
    else .ok res

/-- `Iterator::next for PoReader`, src/po/reader.rs:219-230.  The swap returns what is then in the field `next_unit`, which `read_line`
can have replaced. -/
def Reader.next : Eff (Reader σ L) (Option (Except Err PoUnit)) := fun r =>
  match r.nextUnit with
  | none => (.ok none, r)
  | some (.error e) => (.ok (some (.error e)), { r with nextUnit := none })
  | some (.ok _) =>
    match nextUnitM false r with
    | (.ok res, r') => (.ok r'.nextUnit, { r' with nextUnit := res })
    | (.err e, r') => (.err e, r')  -- cannot happen: `next_unit` does not return a `Result`
    | (.panic, r') => (.panic, r')

end

/-- `PoParser::parse` on a byte stream, src/po/parser.rs:35-37 and src/po/reader.rs:31: the lines come from
`LineIter::new(reader, parser).peekable()`. -/
def parse (env : Env) (stream : List Event) : Out (Reader Peekable env.Lang) := Reader.new env ⟨.new stream [], none⟩

/-- The same on a stream that goes on after having reported the end of input: `later` is what it delivers after each report. -/
def parseResuming (env : Env) (stream : List Event) (later : List (List Event)) : Out (Reader Peekable env.Lang) :=
  Reader.new env ⟨.new stream later, none⟩

end Verif
