import Verif.Spec.Periodic
import Verif.Props.Choice

/-! C73: plural rules repeat, so a table of finitely many counts decides them. -/

namespace Verif
open Spec

theorem meaning_divMod {n : Nat} (hn : n < 2 ^ 63) {d k : Int64} (hd : 0 < d.toInt) (hk : 0 < k.toInt) :
    meaning (n : Int) (.binop .mod (.binop .div .var (.num d)) (.num k)) = (n : Int) / d.toInt % k.toInt := by
  have e : meaning (n : Int) (.num k) = k.toInt := rfl
  have e' : meaning (n : Int) (.num d) = d.toInt := rfl
  rw [meaning, e, if_neg (by omega), meaning, e', if_neg (by omega), meaning, Int.tdiv_eq_ediv_of_nonneg (by omega)]
  have h1 : 0 ≤ (n : Int) / d.toInt := Int.ediv_nonneg (by omega) (by omega)
  have h2 : (n : Int) / d.toInt ≤ n := Int.ediv_le_self _ (by omega)
  rw [show wrap ((n : Int) / d.toInt) = (n : Int) / d.toInt from wrap_self ⟨by omega, by omega⟩, Int.tmod_eq_emod_of_nonneg h1]

theorem truth_congr {p q : Prop} [Decidable p] [Decidable q] (h : p ↔ q) : truth p = truth q := by
  unfold truth
  simp only [h]

theorem emod_dvd {a b L k : Int} (h : a % L = b % L) (hk : k ∣ L) : a % k = b % k := by
  have h1 := Int.emod_emod_of_dvd a hk
  have h2 := Int.emod_emod_of_dvd b hk
  rw [← h1, ← h2, h]

theorem ediv_emod {a b d k : Int} (hd : 0 < d) (h : a % (d * k) = b % (d * k)) : a / d % k = b / d % k := by
  have key : ∀ x : Int, x / d % k = x % (d * k) / d := by
    intro x
    rw [Int.emod_def x (d * k), Int.mul_assoc, Int.sub_eq_add_neg, ← Int.mul_neg, Int.add_mul_ediv_left _ _ (by omega), Int.emod_def,
      Int.ediv_ediv_of_nonneg (by omega), Int.sub_eq_add_neg]
  rw [key, key, h]

theorem repeats_same {B L : Nat} {x : Bool} {t : Node} (h : Repeats B L x t) {n m : Nat} (hn : B ≤ n) (hm : B ≤ m) (hn' : n < 2 ^ 63) (hm' : m < 2 ^ 63)
    (hc : n % L = m % L) :
    (x = false → meaning (n : Int) t = meaning (m : Int) t) ∧ (meaning (n : Int) t = 0 ↔ meaning (m : Int) t = 0) ∧
    (NegatesMin (n : Int) t ↔ NegatesMin (m : Int) t) := by
  have hc' : (n : Int) % L = (m : Int) % L := by omega
  have eqs : ∀ {t : Node}, meaning (n : Int) t = meaning (m : Int) t → (meaning (n : Int) t = 0 ↔ meaning (m : Int) t = 0) := fun h => by rw [h]
  induction h with
  | num => exact ⟨fun _ => rfl, Iff.rfl, Iff.rfl⟩
  | @mod k h1 h2 =>
    have e : meaning (n : Int) (.binop .mod .var (.num k)) = meaning (m : Int) (.binop .mod .var (.num k)) := by
      rw [meaning_mod n k h1, meaning_mod m k h1]
      exact emod_dvd hc' h2
    exact ⟨fun _ => e, eqs e, by simp [NegatesMin]⟩
  | @divMod d k h1 h2 h3 =>
    have e : meaning (n : Int) (.binop .mod (.binop .div .var (.num d)) (.num k)) = meaning (m : Int) (.binop .mod (.binop .div .var (.num d)) (.num k)) := by
      rw [meaning_divMod hn' h1 h2, meaning_divMod hm' h1 h2]
      exact ediv_emod h1 (emod_dvd hc' h3)
    exact ⟨fun _ => e, eqs e, by simp [NegatesMin]⟩
  | @left o k ho hk =>
    have e : meaning (n : Int) (.binop o .var (.num k)) = meaning (m : Int) (.binop o .var (.num k)) := by
      cases o <;> first
        | exact ho.elim
        | (simp only [meaning_eq, meaning_ne, meaning_lt, meaning_le, meaning_gt, meaning_ge, meaning_num, meaning_var]
           exact truth_congr (by omega))
    refine ⟨fun _ => e, eqs e, ?_⟩
    cases o <;> first | exact ho.elim | simp [NegatesMin]
  | @right o k ho hk =>
    have e : meaning (n : Int) (.binop o (.num k) .var) = meaning (m : Int) (.binop o (.num k) .var) := by
      cases o <;> first
        | exact ho.elim
        | (simp only [meaning_eq, meaning_ne, meaning_lt, meaning_le, meaning_gt, meaning_ge, meaning_num, meaning_var]
           exact truth_congr (by omega))
    refine ⟨fun _ => e, eqs e, ?_⟩
    cases o <;> first | exact ho.elim | simp [NegatesMin]
  | isZero hB =>
    refine ⟨nofun, ?_, Iff.rfl⟩
    simp only [meaning_var]
    omega
  | used _ ih => exact ⟨nofun, ih.2⟩
  | @neg a _ ih =>
    have e : meaning (n : Int) (.unop .neg a) = meaning (m : Int) (.unop .neg a) := by simp only [meaning, ih.1 rfl]
    exact ⟨fun _ => e, eqs e, by simp only [NegatesMin, ih.2.2, ih.1 rfl]⟩
  | @not a _ ih =>
    have e : meaning (n : Int) (.unop .not a) = meaning (m : Int) (.unop .not a) := by simp only [meaning, ih.2.1]
    exact ⟨fun _ => e, eqs e, ih.2.2⟩
  | @and a b _ _ iha ihb =>
    have e : meaning (n : Int) (.binop .and a b) = meaning (m : Int) (.binop .and a b) := by simp only [meaning_and, Ne, iha.2.1, ihb.2.1]
    exact ⟨fun _ => e, eqs e, by simp only [NegatesMin, Ne, iha.2.1, iha.2.2, ihb.2.2]⟩
  | @or a b _ _ iha ihb =>
    have e : meaning (n : Int) (.binop .or a b) = meaning (m : Int) (.binop .or a b) := by simp only [meaning_or, Ne, iha.2.1, ihb.2.1]
    exact ⟨fun _ => e, eqs e, by simp only [NegatesMin, iha.2.1, iha.2.2, ihb.2.2]⟩
  | @binop o a b _ _ iha ihb =>
    have e : meaning (n : Int) (.binop o a b) = meaning (m : Int) (.binop o a b) := by
      cases o <;> simp only [meaning, iha.1 rfl, ihb.1 rfl]
    refine ⟨fun _ => e, eqs e, ?_⟩
    cases o <;> simp only [NegatesMin, Ne, iha.2.1, iha.2.2, ihb.2.2]
  | @cond x a b c _ _ _ iha ihb ihc =>
    refine ⟨fun hx => ?_, ?_, ?_⟩
    · simp only [meaning_cond, Ne, iha.2.1, ihb.1 hx, ihc.1 hx]
    · simp only [meaning_cond, Ne, iha.2.1]
      split
      · exact ihb.2.1
      · exact ihc.2.1
    · simp only [NegatesMin, Ne, iha.2.1, iha.2.2, ihb.2.2, ihc.2.2]

/-- **C73** A formula of this kind has the same value for counts from `B` on that leave the same remainder by `L`. -/
theorem C73_repeats {f : PluralForms} {B L : Nat} (h : Repeats B L false f.formula) (dbg : Bool) {n m : UInt64} (hn : B ≤ n.toNat) (hm : B ≤ m.toNat)
    (hn' : n.toNat < 2 ^ 63) (hm' : m.toNat < 2 ^ 63) (hc : n.toNat % L = m.toNat % L) : f.getValue dbg n = f.getValue dbg m := by
  obtain ⟨h1, _, h3⟩ := repeats_same h hn hm hn' hm' hc
  have hs : signed n = (n.toNat : Int) := by rw [signed, if_pos hn']
  have hs' : signed m = (m.toNat : Int) := by rw [signed, if_pos hm']
  have e1 := C32_value dbg f n
  have e2 := C32_value dbg f m
  rw [hs, h1 rfl, h3] at e1
  rw [hs'] at e2
  rcases e1 with ⟨a1, a2, a3⟩ | ⟨a1, a2⟩ <;> rcases e2 with ⟨b1, b2, b3⟩ | ⟨b1, b2⟩
  · rw [a3, b3]
  · exact absurd ⟨a1, a2⟩ b1
  · exact absurd ⟨b1, b2⟩ a1
  · rw [a2, b2]

/-- **C73** So two formulas of this kind that agree for the counts below `B + L` agree for all counts below 2^63. -/
theorem C73_table {f g : PluralForms} {B L : Nat} (hL : 0 < L) (hf : Repeats B L false f.formula) (hg : Repeats B L false g.formula) (dbg : Bool)
    (h : ∀ n : UInt64, n.toNat < B + L → f.getValue dbg n = g.getValue dbg n) (n : UInt64) (hn : n.toNat < 2 ^ 63) : f.getValue dbg n = g.getValue dbg n := by
  by_cases hl : n.toNat < B + L
  · exact h n hl
  · have h1 := Nat.mod_lt (n.toNat - B) hL
    have h2 : B + (n.toNat - B) % L ≤ n.toNat := by have := Nat.mod_le (n.toNat - B) L; omega
    have hm : (UInt64.ofNat (B + (n.toNat - B) % L)).toNat = B + (n.toNat - B) % L := by
      rw [UInt64.toNat_ofNat']
      exact Nat.mod_eq_of_lt (by omega)
    have hc : n.toNat % L = (UInt64.ofNat (B + (n.toNat - B) % L)).toNat % L := by
      rw [hm, Nat.add_mod, Nat.mod_mod, ← Nat.add_mod]
      congr 1
      omega
    rw [C73_repeats hf dbg (by omega) (by omega) hn (by omega) hc, C73_repeats hg dbg (by omega) (by omega) hn (by omega) hc]
    exact h _ (by omega)

/-- **C73** And a plural message with such a formula has the same text for counts from `B` on that leave the same remainder by `L`. -/
theorem C73_text {p : Plural} {f : PluralForms} (hf : p.forms = some f) {B L : Nat} (h : Repeats B L false f.formula) (dbg : Bool) {n m : UInt64}
    (hn : B ≤ n.toNat) (hm : B ≤ m.toNat) (hn' : n.toNat < 2 ^ 63) (hm' : m.toNat < 2 ^ 63) (hc : n.toNat % L = m.toNat % L) :
    (Message.plural p).getPluralText dbg n = (Message.plural p).getPluralText dbg m := by
  rw [Message.getPluralText, Message.getPluralText, Plural.get, Plural.get, hf]
  simp only [C73_repeats h dbg hn hm hn' hm' hc]

set_option maxRecDepth 100000 in
/-- **C73** The known rules (C49) are of this kind, with `B` 21 and `L` 100. -/
theorem C73_rules (env : Env) : ∀ r ∈ gettextRules, ∃ f, PluralForms.parse env r.definition = .ok f ∧ Repeats 21 100 false f.formula := by
  simp only [gettextRules, List.forall_mem_cons, List.not_mem_nil, false_implies, implies_true, and_true]
  refine ⟨?_, ?_, ?_, ?_, ?_, ?_, ?_, ?_, ?_, ?_, ?_, ?_, ?_, ?_, ?_, ?_, ?_, ?_, ?_, ?_, ?_⟩
  all_goals
    refine ⟨_, by rfl, ?_⟩
    repeat' first
      | exact .num
      | exact .left trivial (by decide)
      | exact .mod (by decide) (by decide)
      | exact .used .num
      | apply Repeats.and
      | apply Repeats.or
      | apply Repeats.cond
      | apply Repeats.binop
      | apply Repeats.used

-- the tens digit, with period 100; `n` itself does not repeat
example (dbg : Bool) : PluralForms.getValue dbg ⟨.binop .mod (.binop .div .var (.num 10)) (.num 10), 10, [], []⟩ 1000000000000000042 = .ok (some 4) :=
  (C73_repeats (B := 0) (L := 100) (.divMod (by decide) (by decide) (by decide)) dbg (m := 42) (by decide) (by decide) (by decide) (by decide) (by decide)).trans
    (by cases dbg <;> decide)
example (B L : Nat) : ¬ Repeats B L false .var := by intro h; cases h

-- `n != 1` and `!(n == 1)` agree for 0, 1 and 2, so they agree for all counts
example (dbg : Bool) (n : UInt64) (hn : n.toNat < 2 ^ 63) : PluralForms.getValue dbg ⟨.binop .ne .var (.num 1), 2, [], []⟩ n =
    PluralForms.getValue dbg ⟨.unop .not (.binop .eq .var (.num 1)), 2, [], []⟩ n := by
  refine C73_table (B := 2) (L := 1) (by decide) (.left (o := .ne) trivial (by decide)) (.not (.used (.left (o := .eq) trivial (by decide)))) dbg ?_ n hn
  intro n h
  have : n = 0 ∨ n = 1 ∨ n = 2 := by
    have h0 : n.toNat = 0 ∨ n.toNat = 1 ∨ n.toNat = 2 := by omega
    rcases h0 with h | h | h
    · exact .inl (UInt64.toNat_inj.mp h)
    · exact .inr (.inl (UInt64.toNat_inj.mp h))
    · exact .inr (.inr (UInt64.toNat_inj.mp h))
  rcases this with rfl | rfl | rfl <;> cases dbg <;> decide

-- the Russian rule: 1021 as 21
example (dbg : Bool) : PluralForms.getValue dbg russianForms 1000000000121 = PluralForms.getValue dbg russianForms 21 := by
  obtain ⟨f, h1, h2⟩ := C73_rules demoEnv gettextRules[9] (List.getElem_mem _)
  have : PluralForms.parse demoEnv gettextRules[9].definition = .ok russianForms := by rfl
  rw [this] at h1
  cases h1
  exact C73_repeats h2 dbg (by decide) (by decide) (by decide) (by decide) (by decide)
example (dbg : Bool) : (Message.plural ⟨c!"a", c!"b", [c!"x", c!"y"], some richForms⟩).getPluralText dbg 1000 =
    (Message.plural ⟨c!"a", c!"b", [c!"x", c!"y"], some richForms⟩).getPluralText dbg 2 :=
  C73_text (f := richForms) rfl (B := 2) (L := 1) (.left trivial (by decide)) dbg (by decide) (by decide) (by decide) (by decide) (by decide)

end Verif
