import Verif.Props.Formula
import Verif.Spec.Plural
import Verif.Model.Data

/-! C37, C42: equality of messages, texts of errors. -/

namespace Verif
open Spec

/-! ### C37 -/

/-- What two equal messages share: two simple messages have equal ids and texts (an absent text counts as empty); two plural messages
have equal ids. -/
inductive Spec.SameMessage : Message → Message → Prop
  | simple {id t t'} : (Message.simple id t).getText = (Message.simple id t').getText → SameMessage (.simple id t) (.simple id t')
  | plural {p p' : Plural} : p.singular = p'.singular → p.plural = p'.plural → SameMessage (.plural p) (.plural p')

/-- **C37** When two messages are equal. -/
theorem C37_iff (a b : Message) : a.beq b = true ↔ SameMessage a b := by
  constructor
  · intro h
    cases a with
    | simple i t =>
      cases b with
      | simple i' t' =>
        simp only [Message.beq, Bool.and_eq_true, beq_iff_eq] at h
        obtain ⟨rfl, h⟩ := h
        refine .simple ?_
        cases t <;> cases t' <;> simp_all [Message.getText]
      | plural p => simp [Message.beq] at h
    | plural p =>
      cases b with
      | simple i t => simp [Message.beq] at h
      | plural p' =>
        simp only [Message.beq, Bool.and_eq_true, beq_iff_eq] at h
        exact .plural h.1 h.2
  · intro h
    cases h with
    | @simple id t t' h => cases t <;> cases t' <;> simp_all [Message.beq, Message.getText]
    | plural h1 h2 => simp [Message.beq, h1, h2]

/-- **C37** The same through the accessors only: same kind, and equal ids and texts, or equal ids and plural ids. -/
theorem C37_accessors (a b : Message) :
    a.beq b = true ↔ a.getId = b.getId ∧ a.getPluralId = b.getPluralId ∧ (a.getPluralId = none → a.getText = b.getText) := by
  rw [C37_iff]
  constructor
  · intro h
    cases h with
    | simple h => exact ⟨rfl, rfl, fun _ => h⟩
    | plural h1 h2 => exact ⟨h1, congrArg some h2, fun h => nomatch h⟩
  · rintro ⟨h1, h2, h3⟩
    cases a with
    | simple i t =>
      cases b with
      | simple i' t' =>
        have : i = i' := h1
        subst this
        exact .simple (h3 rfl)
      | plural p => cases h2
    | plural p =>
      cases b with
      | simple i t => cases h2
      | plural p' => exact .plural h1 (Option.some.inj h2)

/-- **C37** Equality is reflexive, symmetric and transitive. -/
theorem C37_equivalence : (∀ a : Message, a.beq a = true) ∧ (∀ a b : Message, a.beq b = true → b.beq a = true) ∧
    (∀ a b c : Message, a.beq b = true → b.beq c = true → a.beq c = true) := by
  refine ⟨fun a => (C37_accessors a a).mpr ⟨rfl, rfl, fun _ => rfl⟩, ?_, ?_⟩ <;> simp only [C37_accessors]
  · rintro a b ⟨h1, h2, h3⟩
    exact ⟨h1.symm, h2.symm, fun h => (h3 (h2.trans h)).symm⟩
  · rintro a b c ⟨h1, h2, h3⟩ ⟨g1, g2, g3⟩
    exact ⟨h1.trans g1, h2.trans g2, fun h => (h3 h).trans (g3 (h2.symm.trans h))⟩

-- equal messages that differ: texts of plural messages do not count, an absent text is an empty text
example : Message.beq (.plural ⟨c!"a", c!"b", [c!"x"], none⟩) (.plural ⟨c!"a", c!"b", [], none⟩) = true ∧
    Message.beq (.simple (c!"a") none) (.simple (c!"a") (some [])) = true ∧
    Message.beq (.simple (c!"a") (some (c!"x"))) (.simple (c!"a") none) = false := by decide

/-! ### C42 -/

/-- Decimal digits of a number: digits with that value, no leading zero. -/
def Spec.Decimal (n : Nat) (ds : Str) : Prop := ds ≠ [] ∧ (∀ c ∈ ds, Digit c) ∧ numeralValue ds = n ∧ (ds.head? = some '0' → n = 0)

theorem numeralValue_eq (ds : Str) : numeralValue ds = digitsVal ds := rfl

theorem dec_decimal (n : Nat) : Decimal n (dec n) := by
  refine ⟨Nat.toDigits_ne_nil, ?_, ?_, ?_⟩
  · intro c hc
    have := Nat.isDigit_of_mem_toDigits (b := 10) (by omega) (by omega) hc
    simp only [Char.isDigit, Bool.and_eq_true, decide_eq_true_eq] at this
    exact this
  · rw [numeralValue_eq]; exact digitsVal_toDigits n
  · induction n using Nat.strongRecOn with
    | ind n ih =>
      intro h
      by_cases hn : n < 10
      · have key : ∀ m, m < 10 → (dec m).head? = some '0' → m = 0 := by decide
        exact key n hn h
      · exfalso
        unfold dec at h ih
        rw [Nat.toDigits_of_base_le (by omega) (by omega)] at h
        rw [List.head?_append] at h
        have hne : (Nat.toDigits 10 (n / 10)) ≠ [] := Nat.toDigits_ne_nil
        cases hh : (Nat.toDigits 10 (n / 10)).head? with
        | none => exact hne (List.head?_eq_none_iff.mp hh)
        | some c =>
          rw [hh] at h
          simp at h
          subst h
          have := ih (n / 10) (by omega) hh
          omega

/-- A number has only one decimal form. -/
theorem decimal_split {n n' : Nat} {ds ds' r r' : Str} (h : Decimal n ds) (h' : Decimal n' ds') (hr : ∀ c, r.head? = some c → ¬ Digit c)
    (hr' : ∀ c, r'.head? = some c → ¬ Digit c) (e : ds ++ r = ds' ++ r') : n = n' ∧ r = r' := by
  have key : ∀ (ds ds' : Str), (∀ c ∈ ds, Digit c) → (∀ c ∈ ds', Digit c) → ds ++ r = ds' ++ r' → ds = ds' ∧ r = r' := by
    intro ds
    induction ds with
    | nil =>
      intro ds' _ hd' e
      cases ds' with
      | nil => exact ⟨rfl, e⟩
      | cons c ds' =>
        rw [List.nil_append] at e
        exact absurd (hd' c (List.mem_cons_self ..)) (hr c (by rw [e]; rfl))
    | cons c ds ih =>
      intro ds' hd hd' e
      cases ds' with
      | nil =>
        rw [List.nil_append] at e
        exact absurd (hd c (List.mem_cons_self ..)) (hr' c (by rw [← e]; rfl))
      | cons c' ds' =>
        rw [List.cons_append, List.cons_append] at e
        injection e with e1 e2
        obtain ⟨h1, h2⟩ := ih ds' (fun x hx => hd x (List.mem_cons_of_mem _ hx)) (fun x hx => hd' x (List.mem_cons_of_mem _ hx)) e2
        exact ⟨by rw [e1, h1], h2⟩
  obtain ⟨rfl, e2⟩ := key ds ds' h.2.1 h'.2.1 e
  exact ⟨h.2.2.1.symm.trans h'.2.2.1, e2⟩

/-- A text in quotes after `label`, or nothing if it is empty. -/
inductive Spec.Quoted (label : Str) : Str → Str → Prop
  | none : Quoted label [] []
  | some {x} : x ≠ [] → Quoted label x (label ++ c!"‘" ++ x ++ c!"’")

/-- The texts of errors; `io` are the texts of I/O errors. -/
inductive Spec.ErrorText (io : IoErr → Str) : Err → Str → Prop
  | io0 {x} : ErrorText io (.io 0 x) (io x)
  | io {n x ds} : n ≠ 0 → Decimal n ds → ErrorText io (.io n x) (io x ++ c!" at line " ++ ds)
  | unexpected0 {msg} : ErrorText io (.unexpected 0 msg) (c!"Unexpected error: " ++ msg)
  | unexpected {n msg ds} : n ≠ 0 → Decimal n ds → ErrorText io (.unexpected n msg) (c!"Unexpected error at line " ++ ds ++ c!": " ++ msg)
  | pluralForms {msg} : ErrorText io (.pluralForms msg) (c!"Error in plurals forms: " ++ msg)
  | parse {n got exp ds e g} : Decimal n ds → Quoted (c!" expected ") exp e → Quoted (c!", got ") got g →
      ErrorText io (.parse n got exp) (c!"Parse error at line " ++ ds ++ e ++ g)

theorem quoted_text (label x : Str) : Quoted label x (if x.isEmpty then [] else label ++ c!"‘" ++ x ++ c!"’") := by
  cases x with
  | nil => exact .none
  | cons c x => exact .some (by simp)

/-- **C42** The texts that `Display` gives. -/
theorem C42_display (io : IoErr → Str) (e : Err) : ErrorText io e (e.display io) := by
  cases e with
  | io n x =>
    rw [Err.display]
    split
    · rename_i h; subst h; exact .io0
    · rename_i h; exact .io h (dec_decimal n)
  | unexpected n msg =>
    rw [Err.display]
    split
    · rename_i h; exact .unexpected (by omega) (dec_decimal n)
    · rename_i h
      have : n = 0 := by omega
      subst this
      exact .unexpected0
  | pluralForms msg => exact .pluralForms
  | parse n got exp =>
    exact .parse (dec_decimal n) (quoted_text (c!" expected ") exp) (quoted_text (c!", got ") got)

/-- **C42** `Debug` gives the same texts as `Display` with the `Debug` texts of I/O errors; so for all other errors the two are equal. -/
theorem C42_debug (io io' : IoErr → Str) (e : Err) : ErrorText io e (e.debug io) ∧ ((∀ n x, e ≠ .io n x) → e.debug io = e.display io') := by
  constructor
  · exact C42_display io e
  · intro h
    cases e with
    | io n x => exact absurd rfl (h n x)
    | _ => rfl

/-- **C42** Only I/O errors have a source, and it is the I/O error. -/
theorem C42_source (e : Err) (x : IoErr) : e.source = some x ↔ ∃ n, e = .io n x := by
  cases e with
  | io n y => simp [Err.source]
  | _ => simp [Err.source]

/-- The line that an error names, if any; for a parse error also line 0. -/
def Spec.namedLine : Err → Option Nat
  | .io n _ => if n = 0 then none else some n
  | .unexpected n _ => if n = 0 then none else some n
  | .parse n _ _ => some n
  | .pluralForms _ => none

theorem quoted_head {label x s : Str} {c : Char} (hl : label.head? = some c) (h : Quoted label x s) : s = [] ∨ s.head? = some c := by
  cases h with
  | none => exact .inl rfl
  | some _ =>
    right
    cases label with
    | nil => cases hl
    | cons d l => simpa using hl

/-- **C42** The text tells the line: two errors, not I/O errors, with the same text name the same line, and are of the same kind. -/
theorem C42_line {io : IoErr → Str} {e e' : Err} (h : e.display io = e'.display io) (he : e.source = none) (he' : e'.source = none) :
    namedLine e = namedLine e' ∧
    ((∃ n m, e = .unexpected n m) ↔ ∃ n m, e' = .unexpected n m) ∧ ((∃ m, e = .pluralForms m) ↔ ∃ m, e' = .pluralForms m) := by
  have h1 := C42_display io e
  have h2 := C42_display io e'
  rw [← h] at h2
  generalize e.display io = s at h1 h2
  have sp : ¬ Digit ' ' := by unfold Digit; decide
  have co : ¬ Digit ',' := by unfold Digit; decide
  have cl : ¬ Digit ':' := by unfold Digit; decide
  cases h1 with
  | io0 => cases he
  | io => cases he
  | unexpected0 =>
    generalize hs : c!"Unexpected error: " ++ _ = s at h2
    cases h2 with
    | io0 => cases he'
    | io => cases he'
    | unexpected0 => exact ⟨rfl, by simp, by simp⟩
    | unexpected _ _ => simp at hs
    | pluralForms => simp at hs
    | parse => simp at hs
  | @unexpected n msg ds hn hd =>
    generalize hs : c!"Unexpected error at line " ++ ds ++ c!": " ++ msg = s at h2
    cases h2 with
    | io0 => cases he'
    | io => cases he'
    | unexpected0 => simp at hs
    | @unexpected n' msg' ds' hn' hd' =>
      simp only [List.append_assoc] at hs
      have := (decimal_split hd hd' (by simpa using cl) (by simpa using cl) (List.append_cancel_left hs)).1
      subst this
      exact ⟨rfl, by simp, by simp⟩
    | pluralForms => simp at hs
    | parse => simp at hs
  | @pluralForms msg =>
    generalize hs : c!"Error in plurals forms: " ++ msg = s at h2
    cases h2 with
    | io0 => cases he'
    | io => cases he'
    | unexpected0 => simp at hs
    | unexpected _ _ => simp at hs
    | pluralForms => exact ⟨rfl, by simp, by simp⟩
    | parse => simp at hs
  | @parse n got exp ds a b hd ha hb =>
    generalize hs : c!"Parse error at line " ++ ds ++ a ++ b = s at h2
    cases h2 with
    | io0 => cases he'
    | io => cases he'
    | unexpected0 => simp at hs
    | unexpected _ _ => simp at hs
    | pluralForms => simp at hs
    | @parse n' got' exp' ds' a' b' hd' ha' hb' =>
      have hr : ∀ {exp got a b : Str}, Quoted (c!" expected ") exp a → Quoted (c!", got ") got b → ∀ c, (a ++ b).head? = some c → ¬ Digit c := by
        intro exp got a b ha hb c hc
        rcases quoted_head (c := ' ') rfl ha with rfl | ha
        · rw [List.nil_append] at hc
          rcases quoted_head (c := ',') rfl hb with rfl | hb
          · cases hc
          · rw [hb] at hc; cases hc; exact co
        · rw [List.head?_append, ha] at hc; cases hc; exact sp
      simp only [List.append_assoc] at hs
      have := (decimal_split hd hd' (hr ha hb) (hr ha' hb') (List.append_cancel_left hs)).1
      subst this
      exact ⟨rfl, by simp, by simp⟩

example (io : IoErr → Str) : Err.display io (.parse 12 (c!"msgstr") (c!"msgid")) = c!"Parse error at line 12 expected ‘msgid’, got ‘msgstr’" ∧
    Err.display io (.unexpected 0 (c!"x")) = c!"Unexpected error: x" ∧ Err.source (.io 3 .invalidUtf8) = some .invalidUtf8 := ⟨by rfl, rfl, rfl⟩

end Verif
