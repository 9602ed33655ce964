import Verif.Spec.Choice
import Verif.Props.Gettext

/-! C60: formulas that always choose a form. -/

namespace Verif
open Spec

theorem truth_bounds (p : Prop) [Decidable p] : 0 ≤ truth p ∧ truth p < 2 := by
  unfold truth
  split <;> decide

theorem chooses_meaning {k : Nat} {t : Node} (h : Chooses k t) (n : Int) : 0 ≤ meaning n t ∧ meaning n t < k := by
  induction h with
  | num h1 h2 => exact ⟨h1, h2⟩
  | not hk => simp only [meaning]; have := truth_bounds (meaning n ‹Node› = 0); omega
  | @compare o a b hk ho =>
    have key : ∀ (p : Prop) [Decidable p], 0 ≤ wrap (truth p) ∧ wrap (truth p) < k := by
      intro p _
      rw [wrap_truth]
      have := truth_bounds p
      omega
    cases o <;> first | exact ho.elim | exact key _
  | cond h1 h2 ih1 ih2 => simp only [meaning]; split <;> assumption

theorem noNeg_safe {t : Node} (h : NoNeg t) (n : Int) : ¬ NegatesMin n t := by
  induction t with
  | var => exact id
  | num => exact id
  | unop o a ih => cases o with
    | neg => exact h.elim
    | not => exact ih h
  | binop o a b iha ihb =>
    have h1 := iha h.1
    have h2 := ihb h.2
    cases o <;> simp only [NegatesMin] <;> simp [h1, h2]
  | cond a b c iha ihb ihc => simp only [NegatesMin]; simp [iha h.1, ihb h.2.1, ihc h.2.2]

/-- **C60** A formula that chooses among `get_count()` forms gives an index for every count: the value of the formula. -/
theorem C60_total {f : PluralForms} (h : Chooses f.getCount f.formula) (dbg : Bool) (hd : dbg = false ∨ NoNeg f.formula) (count : UInt64) :
    ∃ i, i < f.getCount ∧ meaning (signed count) f.formula = i ∧ f.getValue dbg count = .ok (some i) := by
  obtain ⟨h1, h2⟩ := chooses_meaning h (signed count)
  rcases C32_value dbg f count with ⟨e1, e2, _⟩ | ⟨_, e⟩
  · rcases hd with hd | hd
    · rw [hd] at e1; cases e1
    · exact absurd e2 (noNeg_safe hd _)
  · rw [if_pos ⟨h1, h2⟩] at e
    exact ⟨_, by omega, by omega, e⟩

/-- **C60** A plural message with these plural forms and all its texts has a text for every count. -/
theorem C60_text {p : Plural} {f : PluralForms} (hf : p.forms = some f) (hc : Chooses f.getCount f.formula) (hv : p.values.length = f.getCount)
    (dbg : Bool) (hd : dbg = false ∨ NoNeg f.formula) (count : UInt64) :
    ∃ i v, meaning (signed count) f.formula = (i : Nat) ∧ p.values[i]? = some v ∧ (Message.plural p).getPluralText dbg count = .ok (some v) := by
  obtain ⟨i, h1, h2, h3⟩ := C60_total hc dbg hd count
  refine ⟨i, p.values[i]'(by omega), h2, List.getElem?_eq_getElem _, ?_⟩
  rw [Message.getPluralText, Plural.get, hf]
  simp only [h3, Out.bind]
  rw [Option.bind_some, List.getElem?_eq_getElem]

variable {env : Env} {stream : List Event} {hdr : Header env.Lang} {xs : List (Except Err PoUnit)}

/-- **C60** In a catalogue with such a `Plural-Forms` property, every plural unit with `nplurals` texts has a text for every count. -/
theorem C60_unit (h : Yields (parse env stream) hdr xs) {u : PoUnit} (hu : .ok u ∈ xs) {p : Plural} (hp : u.message = .plural p) {s : Str} {f : PluralForms}
    (hs : hdr.properties.lookup (c!"Plural-Forms") = some s) (hne : s ≠ []) (hf : FormsOf s f) (hc : Chooses f.getCount f.formula)
    (hv : p.values.length = f.getCount) (dbg : Bool) (hd : dbg = false ∨ NoNeg f.formula) (count : UInt64) :
    ∃ i v, meaning (signed count) f.formula = (i : Nat) ∧ p.values[i]? = some v ∧ u.message.getPluralText dbg count = .ok (some v) := by
  obtain ⟨forms, block, _, h2, _, h4⟩ := unit_entry h hu
  have hpf := entry_forms h2 (.inl hp)
  rw [hs] at h4
  have h5 : FormsRule env (some s) (.ok (some f)) := .given hne hf
  rw [formsRule_iff] at h4 h5
  rw [h4] at h5
  cases h5
  rw [hp]
  exact C60_text hpf hc hv dbg hd count

example : Chooses 2 richForms.formula := .compare (by decide) trivial
example (dbg : Bool) (count : UInt64) := C60_unit rich_yields rich_mem rfl (s := c!"nplurals=2; plural=(n > 1);") (f := richForms) rfl (by decide)
  ((formsParse_iff (env := demoEnv)).mp (by rfl)) (.compare (by decide) trivial) rfl dbg (.inr ⟨trivial, trivial⟩) count

-- without the condition there is a count without text
example : ¬ Chooses 2 .var ∧ PluralForms.getValue true ⟨.var, 2, [], []⟩ 2 = .ok none := ⟨(by intro h; cases h), rfl⟩

set_option maxRecDepth 100000 in
/-- **C60** The known rules (C49) are of this kind: they give an index for every count of 64 bits. -/
theorem C60_rules (env : Env) : ∀ r ∈ gettextRules, ∃ f, PluralForms.parse env r.definition = .ok f ∧ f.getCount = r.count ∧
    Chooses f.getCount f.formula ∧ NoNeg f.formula := by
  have num : ∀ {k : Nat} {v : Int64}, (0 ≤ v.toInt ∧ v.toInt < k) → Chooses k (.num v) := fun h => .num h.1 h.2
  simp only [gettextRules, List.forall_mem_cons, List.not_mem_nil, false_implies, implies_true, and_true]
  refine ⟨?_, ?_, ?_, ?_, ?_, ?_, ?_, ?_, ?_, ?_, ?_, ?_, ?_, ?_, ?_, ?_, ?_, ?_, ?_, ?_, ?_⟩
  all_goals
    refine ⟨_, by rfl, rfl, ?_, ?_⟩
    · repeat' first | exact num (by decide) | exact .compare (by decide) trivial | apply Chooses.cond
    · simp [NoNeg]

set_option maxRecDepth 100000 in
/-- **C60** But from 2^63 on it can be the wrong one: the Russian rule at 18446744073709551601, which ends in 01. -/
theorem C60_large (env : Env) : ∃ r ∈ gettextRules, r.rule 18446744073709551601 = 0 ∧
    ∃ f, PluralForms.parse env r.definition = .ok f ∧ ∀ dbg, f.getValue dbg 18446744073709551601 = .ok (some 2) :=
  ⟨gettextRules[9], List.getElem_mem _, by decide, russianForms, by rfl, by decide⟩

end Verif
