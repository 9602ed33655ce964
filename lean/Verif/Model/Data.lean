import Verif.Model.Formula
import Verif.Model.Parser
import Verif.Model.Text

/-! Model of the public data types: src/plural/forms.rs, src/plural/plural.rs, src/enums, src/note.rs, src/comment.rs,
src/unit.rs and the formatting of src/error.rs. -/

namespace Verif

/-- What the model leaves open: texts produced by other libraries, and the language library `locale_config`. -/
structure Env where
  /-- `LanguageRange<'static>` -/
  Lang : Type
  /-- `LanguageRange::new(..).map(into_static)`; `none` is `Err` -/
  langNew : Str → Option Lang
  /-- `LanguageRange::from_unix`; `none` is `Err` -/
  langFromUnix : Str → Option Lang
  /-- `LanguageRange::invariant()` -/
  langInvariant : Lang
  /-- lalrpop's message for a text that is not a formula -/
  formulaMsg : Str → Str

/-- `PluralForms`, src/plural/forms.rs:4-11. -/
structure PluralForms where
  formula : Node
  count : Nat
  definition : Str
  formulaSource : Str
  deriving DecidableEq

/-- `usize::from_str` (std, 64-bit): after an optional `+`, digits from left to right; the first problem is the error.  The errors
are the `Display` texts of `ParseIntError`. -/
def parseUsizeAux : Nat → Str → Except Str Nat
  | v, [] => .ok v
  | v, c :: cs =>
    if !isDigit09 c then .error (c!"invalid digit found in string")
    else
      let v' := 10 * v + (c.toNat - '0'.toNat)
      if v' < 2 ^ 64 then parseUsizeAux v' cs else .error (c!"number too large to fit in target type")

/-- `usize::from_str` (std, 64-bit). -/
def parseUsize (s : Str) : Except Str Nat :=
  match s with
  | [] => .error (c!"cannot parse integer from empty string")
  | ['+'] => .error (c!"invalid digit found in string")
  | ['-'] => .error (c!"invalid digit found in string")
  | '+' :: s => parseUsizeAux 0 s
  | s => parseUsizeAux 0 s

/-- `PluralForms::parse`, src/plural/forms.rs:14-36. -/
def PluralForms.parse (env : Env) (input : Str) : Except Err PluralForms :=
  match parseMap input with
  | .error e => .error e
  | .ok values =>
    let formulaSource := (values.lookup (c!"plural")).getD []
    match formulaParse formulaSource with
    | none => .error (.pluralForms (env.formulaMsg formulaSource))
    | some formula =>
      match values.lookup (c!"nplurals") with
      | none => .ok ⟨formula, 2, input, formulaSource⟩
      | some s =>
        match parseUsize s with
        | .ok v => .ok ⟨formula, v, input, formulaSource⟩
        | .error msg => .error (.pluralForms msg)

/-- `PluralForms::get_value`, src/plural/forms.rs:38-40. -/
def PluralForms.getValue (dbg : Bool) (f : PluralForms) (count : UInt64) : Out (Option Nat) :=
  (formulaExecute dbg f.formula count).bind fun v => .ok (v.filter fun v => decide (v < f.count))

/-- `PluralForms::get_count`, src/plural/forms.rs:42-44. -/
def PluralForms.getCount (f : PluralForms) : Nat := f.count
/-- `PluralForms::get_definition`, src/plural/forms.rs:46-48. -/
def PluralForms.getDefinition (f : PluralForms) : Str := f.definition
/-- `PluralForms::get_formula`, src/plural/forms.rs:50-52. -/
def PluralForms.getFormula (f : PluralForms) : Str := f.formulaSource

/-- `Plural`, src/plural/plural.rs:4-21 (`Rc` is sharing only). -/
structure Plural where
  singular : Str
  plural : Str
  values : List Str
  forms : Option PluralForms
  deriving DecidableEq

/-- `Plural::first`, src/plural/plural.rs:31-33. -/
def Plural.first (p : Plural) : Str := p.values.head?.getD []

/-- `Plural::get`, src/plural/plural.rs:35-42. -/
def Plural.get (dbg : Bool) (p : Plural) (count : UInt64) : Out (Option Str) :=
  match p.forms with
  | none => .ok none
  | some forms => (forms.getValue dbg count).bind fun i => .ok (i.bind fun index => p.values[index]?)

/-- `Plural::is_blank`, src/plural/plural.rs:48-50. -/
def Plural.isBlank (p : Plural) : Bool := p.values.all List.isEmpty

/-- `Plural::singular`, src/plural/plural.rs:23-25. -/
def Plural.getSingular (p : Plural) : Str := p.singular
/-- `Plural::plural`, src/plural/plural.rs:27-29. -/
def Plural.getPlural (p : Plural) : Str := p.plural
/-- `Plural::values`, src/plural/plural.rs:44-46. -/
def Plural.getValues (p : Plural) : List Str := p.values
/-- `Plural::get_forms`, src/plural/plural.rs:52-54. -/
def Plural.getForms (p : Plural) : Option PluralForms := p.forms

/-- `Message`, src/enums/message.rs:6-13. -/
inductive Message where
  | simple (id : Str) (text : Option Str)
  | plural (p : Plural)
  deriving DecidableEq

/-- `Message::is_empty` (crate-internal), src/enums/message.rs:16-21. -/
def Message.isEmpty : Message → Bool
  | .simple id _ => id.isEmpty
  | .plural _ => false

/-- `Message::is_simple`, src/enums/message.rs:23-28. -/
def Message.isSimple : Message → Bool
  | .simple id _ => !id.isEmpty
  | .plural _ => false

/-- `Message::is_plural`, src/enums/message.rs:30-35. -/
def Message.isPlural : Message → Bool
  | .plural _ => true
  | .simple .. => false

/-- `Message::is_blank`, src/enums/message.rs:37-42. -/
def Message.isBlank : Message → Bool
  | .simple _ text => (text.map List.isEmpty).getD true
  | .plural m => m.isBlank

/-- `Message::get_id`, src/enums/message.rs:44-49. -/
def Message.getId : Message → Str
  | .simple id _ => id
  | .plural p => p.singular

/-- `Message::get_text`, src/enums/message.rs:51-56. -/
def Message.getText : Message → Str
  | .simple _ text => text.getD []
  | .plural p => p.first

/-- `Message::get_plural_id`, src/enums/message.rs:58-63. -/
def Message.getPluralId : Message → Option Str
  | .plural p => some p.plural
  | .simple .. => none

/-- `Message::get_plural_text`, src/enums/message.rs:65-70. -/
def Message.getPluralText (dbg : Bool) (m : Message) (count : UInt64) : Out (Option Str) :=
  match m with
  | .plural p => p.get dbg count
  | .simple _ text => .ok text

/-- `Message::plural`, src/enums/message.rs:72-77. -/
def Message.getPlural : Message → Option Plural
  | .plural p => some p
  | .simple .. => none

/-- `Message::default`, src/enums/message.rs:80-87. -/
def Message.default : Message := .simple [] none

/-- `PartialEq for Message`, src/enums/message.rs:89-106. -/
def Message.beq : Message → Message → Bool
  | .simple li lt, .simple ri rt =>
    li == ri && match lt, rt with
      | none, none => true
      | none, some s => s.isEmpty
      | some s, none => s.isEmpty
      | some l, some r => r == l
  | .plural l, .plural r => l.singular == r.singular && l.plural == r.plural
  | _, _ => false

/-- `Origin`, src/enums/origin.rs:3-9. -/
inductive Origin where
  | developer | translator
  deriving DecidableEq

/-- `State`, src/enums/state.rs:7-16. -/
inductive State where
  | empty | needsWork | final
  deriving DecidableEq

/-- `Note`, src/note.rs:6-10. -/
structure Note where
  origin : Origin
  value : Str
  deriving DecidableEq

/-- `Comment`, src/comment.rs:1-5. -/
structure Comment where
  kind : Char
  content : Str
  deriving DecidableEq

/-- `Unit`, src/unit.rs:19-31 (renamed: `Unit` is taken in Lean).  The `HashSet` of flags is a list without duplicates. -/
structure PoUnit where
  context : Option Str
  message : Message
  prevContext : Option Str
  prevMessage : Message
  flags : List Str
  notes : List Note
  locations : List Str
  comments : List Comment
  state : State
  obsolete : Bool
  deriving DecidableEq

/-- `Unit::default`, derived at src/unit.rs:19 (`State::default()` is `Empty`, src/enums/state.rs:18-22). -/
def PoUnit.default : PoUnit := ⟨none, .default, none, .default, [], [], [], [], .empty, false⟩

/-- `Unit::is_translated`, src/unit.rs:80-82. -/
def PoUnit.isTranslated (u : PoUnit) : Bool := u.state == .final

/-- `HashSet::insert` on a list without duplicates. -/
def insertFlag (fs : List Str) (f : Str) : List Str := if f ∈ fs then fs else fs ++ [f]

/-! ### Formatting of errors -/

/-- `Display for Error`, src/error.rs:32-60; `io` is the `Display` of `std::io::Error`. -/
def Err.display (io : IoErr → Str) : Err → Str
  | .io line e => if line = 0 then io e else io e ++ c!" at line " ++ dec line
  | .unexpected line msg =>
    if 0 < line then c!"Unexpected error at line " ++ dec line ++ c!": " ++ msg else c!"Unexpected error: " ++ msg
  | .pluralForms msg => c!"Error in plurals forms: " ++ msg
  | .parse line got exp =>
    c!"Parse error at line " ++ dec line ++ (if exp.isEmpty then [] else c!" expected ‘" ++ exp ++ c!"’") ++
      (if got.isEmpty then [] else c!", got ‘" ++ got ++ c!"’")

/-- `Debug for Error`, src/error.rs:62-90; `io` is the `Debug` of `std::io::Error`. -/
def Err.debug (io : IoErr → Str) : Err → Str
  | .io line e => if line = 0 then io e else io e ++ c!" at line " ++ dec line
  | .unexpected line msg =>
    if 0 < line then c!"Unexpected error at line " ++ dec line ++ c!": " ++ msg else c!"Unexpected error: " ++ msg
  | .pluralForms msg => c!"Error in plurals forms: " ++ msg
  | .parse line got exp =>
    c!"Parse error at line " ++ dec line ++ (if exp.isEmpty then [] else c!" expected ‘" ++ exp ++ c!"’") ++
      (if got.isEmpty then [] else c!", got ‘" ++ got ++ c!"’")

/-- `std::error::Error::source`, src/error.rs:92-99. -/
def Err.source : Err → Option IoErr
  | .io _ e => some e
  | _ => none

end Verif
