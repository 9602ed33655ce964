import Verif.Model.Data

/-!
The plural code on platforms with another width of `usize`: `w` is the number of bits (at most 64).  In the rest of the model it is 64.
-/

namespace Verif

/-- `usize::from_str` (std) with `w` bits. -/
def parseUsizeAuxW (w : Nat) : Nat → Str → Except Str Nat
  | v, [] => .ok v
  | v, c :: cs =>
    if !isDigit09 c then .error (c!"invalid digit found in string")
    else
      let v' := 10 * v + (c.toNat - '0'.toNat)
      if v' < 2 ^ w then parseUsizeAuxW w v' cs else .error (c!"number too large to fit in target type")

/-- `usize::from_str` (std) with `w` bits. -/
def parseUsizeW (w : Nat) (s : Str) : Except Str Nat :=
  match s with
  | [] => .error (c!"cannot parse integer from empty string")
  | ['+'] => .error (c!"invalid digit found in string")
  | ['-'] => .error (c!"invalid digit found in string")
  | '+' :: s => parseUsizeAuxW w 0 s
  | s => parseUsizeAuxW w 0 s

/-- `PluralForms::parse`, src/plural/forms.rs:14-36. -/
def PluralForms.parseW (w : Nat) (env : Env) (input : Str) : Except Err PluralForms :=
  match parseMap input with
  | .error e => .error e
  | .ok values =>
    let formulaSource := (values.lookup (c!"plural")).getD []
    match formulaParse formulaSource with
    | none => .error (.pluralForms (env.formulaMsg formulaSource))
    | some formula =>
      match values.lookup (c!"nplurals") with
      | none => .ok ⟨formula, 2, input, formulaSource⟩
      | some s =>
        match parseUsizeW w s with
        | .ok v => .ok ⟨formula, v, input, formulaSource⟩
        | .error msg => .error (.pluralForms msg)

/-- `Formula::execute`, src/plural/formula/mod.rs:30-38: `count as i64` and `res as usize`. -/
def formulaExecuteW (w : Nat) (dbg : Bool) (expr : Node) (count : Nat) : Out (Option Nat) :=
  (expr.execute dbg (UInt64.ofNat count).toInt64).bind fun res => .ok (if res < 0 then none else some (res.toUInt64.toNat % 2 ^ w))

/-- `PluralForms::get_value`, src/plural/forms.rs:38-40. -/
def PluralForms.getValueW (w : Nat) (dbg : Bool) (f : PluralForms) (count : Nat) : Out (Option Nat) :=
  (formulaExecuteW w dbg f.formula count).bind fun v => .ok (v.filter fun v => decide (v < f.count))

/-- `Plural::get`, src/plural/plural.rs:35-42. -/
def Plural.getW (w : Nat) (dbg : Bool) (p : Plural) (count : Nat) : Out (Option Str) :=
  match p.forms with
  | none => .ok none
  | some forms => (forms.getValueW w dbg count).bind fun i => .ok (i.bind fun index => p.values[index]?)

/-- `Message::get_plural_text`, src/enums/message.rs:65-70. -/
def Message.getPluralTextW (w : Nat) (dbg : Bool) (m : Message) (count : Nat) : Out (Option Str) :=
  match m with
  | .plural p => p.getW w dbg count
  | .simple _ text => .ok text

end Verif
