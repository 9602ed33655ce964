import Verif.Props.Plural

/-! C49: the plural rules of the gettext manual and of common translation tools. -/

namespace Verif
open Spec

/-- A plural rule: the text of the `Plural-Forms` property, the number of forms, and the form of each number in plain arithmetic. -/
structure Spec.PluralRule where
  definition : Str
  count : Nat
  rule : Nat → Nat

/-- The rules of the gettext manual (section "Plural forms"), and of translate-toolkit for further languages.  The arithmetic descriptions follow the
words of the manual ("numbers ending in 1, but not those ending in 11"), not the formula. -/
def Spec.gettextRules : List PluralRule :=
  [-- only one form: Japanese, Vietnamese, Korean, Thai
   ⟨c!"nplurals=1; plural=0;", 1, fun _ => 0⟩,
   -- two forms, singular used for one only: English, German, Dutch, Swedish, Spanish, ...
   ⟨c!"nplurals=2; plural=n != 1;", 2, fun n => if n = 1 then 0 else 1⟩,
   ⟨c!"nplurals=2; plural=(n != 1);", 2, fun n => if n = 1 then 0 else 1⟩,
   -- two forms, singular used for zero and one: Brazilian Portuguese, French
   ⟨c!"nplurals=2; plural=n>1;", 2, fun n => if n < 2 then 0 else 1⟩,
   ⟨c!"nplurals=2; plural=(n > 1);", 2, fun n => if n < 2 then 0 else 1⟩,
   -- three forms, special case for zero: Latvian
   ⟨c!"nplurals=3; plural=n%10==1 && n%100!=11 ? 0 : n != 0 ? 1 : 2;", 3,
     fun n => if n = 0 then 2 else if n % 10 = 1 ∧ n % 100 ≠ 11 then 0 else 1⟩,
   -- three forms, special cases for one and two: Gaelic (Irish)
   ⟨c!"nplurals=3; plural=n==1 ? 0 : n==2 ? 1 : 2;", 3, fun n => if n = 2 then 1 else if n = 1 then 0 else 2⟩,
   -- three forms, special case for numbers ending in 00 or [2-9][0-9]: Romanian
   ⟨c!"nplurals=3; plural=n==1 ? 0 : (n==0 || (n%100 > 0 && n%100 < 20)) ? 1 : 2;", 3,
     fun n => if n = 1 then 0 else if n ≠ 0 ∧ (n % 100 = 0 ∨ n % 100 ≥ 20) then 2 else 1⟩,
   -- three forms, special case for numbers ending in 1[2-9]: Lithuanian
   ⟨c!"nplurals=3; plural=n%10==1 && n%100!=11 ? 0 : n%10>=2 && (n%100<10 || n%100>=20) ? 1 : 2;", 3,
     fun n => if n % 100 / 10 = 1 ∨ n % 10 = 0 then 2 else if n % 10 = 1 then 0 else 1⟩,
   -- three forms, special cases for numbers ending in 1 and 2, 3, 4, except those ending in 1[1-4]: Russian, Ukrainian, Serbian, Croatian
   ⟨c!"nplurals=3; plural=n%10==1 && n%100!=11 ? 0 : n%10>=2 && n%10<=4 && (n%100<10 || n%100>=20) ? 1 : 2;", 3,
     fun n => if n % 100 ∈ [11, 12, 13, 14] then 2 else if n % 10 = 1 then 0 else if n % 10 ∈ [2, 3, 4] then 1 else 2⟩,
   -- three forms, special cases for 1 and 2, 3, 4: Czech, Slovak
   ⟨c!"nplurals=3; plural=(n==1) ? 0 : (n>=2 && n<=4) ? 1 : 2;", 3, fun n => if n = 1 then 0 else if n ∈ [2, 3, 4] then 1 else 2⟩,
   -- three forms, special case for one and some numbers ending in 2, 3, or 4: Polish
   ⟨c!"nplurals=3; plural=n==1 ? 0 : n%10>=2 && n%10<=4 && (n%100<10 || n%100>=20) ? 1 : 2;", 3,
     fun n => if n = 1 then 0 else if n % 10 ∈ [2, 3, 4] ∧ n % 100 ∉ [12, 13, 14] then 1 else 2⟩,
   -- four forms, special case for one and all numbers ending in 02, 03, or 04: Slovenian
   ⟨c!"nplurals=4; plural=n%100==1 ? 0 : n%100==2 ? 1 : n%100==3 || n%100==4 ? 2 : 3;", 4,
     fun n => if n % 100 = 1 then 0 else if n % 100 = 2 then 1 else if n % 100 ∈ [3, 4] then 2 else 3⟩,
   -- six forms, special cases for one, two, all numbers ending in 02, 03, ... 10, all numbers ending in 11 ... 99, and others: Arabic
   ⟨c!"nplurals=6; plural=n==0 ? 0 : n==1 ? 1 : n==2 ? 2 : n%100>=3 && n%100<=10 ? 3 : n%100>=11 ? 4 : 5;", 6,
     fun n => if n < 3 then n else if n % 100 < 3 then 5 else if n % 100 ≤ 10 then 3 else 4⟩,
   -- Icelandic
   ⟨c!"nplurals=2; plural=(n%10!=1 || n%100==11);", 2, fun n => if n % 10 = 1 ∧ n % 100 ≠ 11 then 0 else 1⟩,
   -- Macedonian
   ⟨c!"nplurals=2; plural= n==1 || n%10==1 ? 0 : 1;", 2, fun n => if n % 10 = 1 then 0 else 1⟩,
   -- Maltese
   ⟨c!"nplurals=4; plural=(n==1 ? 0 : n==0 || ( n%100>1 && n%100<11) ? 1 : (n%100>10 && n%100<20 ) ? 2 : 3);", 4,
     fun n => if n = 1 then 0 else if n = 0 ∨ 2 ≤ n % 100 ∧ n % 100 ≤ 10 then 1 else if n % 100 / 10 = 1 then 2 else 3⟩,
   -- Welsh
   ⟨c!"nplurals=4; plural= (n==1) ? 0 : (n==2) ? 1 : (n != 8 && n != 11) ? 2 : 3;", 4,
     fun n => if n = 8 ∨ n = 11 then 3 else if n = 1 then 0 else if n = 2 then 1 else 2⟩,
   -- Irish with five forms
   ⟨c!"nplurals=5; plural=n==1 ? 0 : n==2 ? 1 : (n>2 && n<7) ? 2 :(n>6 && n<11) ? 3 : 4;", 5,
     fun n => if n = 0 ∨ n > 10 then 4 else if n ≤ 2 then n - 1 else if n ≤ 6 then 2 else 3⟩,
   -- Scottish Gaelic
   ⟨c!"nplurals=4; plural=(n==1 || n==11) ? 0 : (n==2 || n==12) ? 1 : (n > 2 && n < 20) ? 2 : 3;", 4,
     fun n => if n ∈ [1, 11] then 0 else if n ∈ [2, 12] then 1 else if n = 0 ∨ n ≥ 20 then 3 else 2⟩,
   -- Manx
   ⟨c!"nplurals=4; plural=(n%10==1) ? 0 : (n%10==2) ? 1 : (n%20==0) ? 2 : 3;", 4,
     fun n => if n % 10 = 1 then 0 else if n % 10 = 2 then 1 else if 20 ∣ n then 2 else 3⟩]

theorem wrap_truth (p : Prop) [Decidable p] : wrap (truth p) = truth p := by
  unfold truth; split <;> decide

theorem truth_ne (p : Prop) [Decidable p] : (truth p ≠ 0) ↔ p := by
  unfold truth; split <;> simp [*]

theorem truth_eq (p : Prop) [Decidable p] : (truth p = 0) ↔ ¬ p := by
  unfold truth; split <;> simp [*]

theorem meaning_mod (n : Nat) (k : Int64) (h : 0 < k.toInt) :
    meaning (n : Int) (.binop .mod .var (.num k)) = (n : Int) % k.toInt := by
  have e : meaning (n : Int) (.num k) = k.toInt := rfl
  rw [meaning, e, if_neg (by omega), meaning, Int.tmod_eq_emod_of_nonneg (by omega)]

theorem meaning_num (n : Int) (k : Int64) : meaning n (.num k) = k.toInt := rfl
theorem meaning_var (n : Int) : meaning n .var = n := rfl
theorem meaning_cond (n : Int) (a b c : Node) : meaning n (.cond a b c) = if meaning n a ≠ 0 then meaning n b else meaning n c := rfl
theorem meaning_eq (n : Int) (a b : Node) : meaning n (.binop .eq a b) = truth (meaning n a = meaning n b) := wrap_truth _
theorem meaning_ne (n : Int) (a b : Node) : meaning n (.binop .ne a b) = truth (meaning n a ≠ meaning n b) := wrap_truth _
theorem meaning_lt (n : Int) (a b : Node) : meaning n (.binop .lt a b) = truth (meaning n a < meaning n b) := wrap_truth _
theorem meaning_le (n : Int) (a b : Node) : meaning n (.binop .lte a b) = truth (meaning n a ≤ meaning n b) := wrap_truth _
theorem meaning_gt (n : Int) (a b : Node) : meaning n (.binop .gt a b) = truth (meaning n b < meaning n a) := wrap_truth _
theorem meaning_ge (n : Int) (a b : Node) : meaning n (.binop .gte a b) = truth (meaning n b ≤ meaning n a) := wrap_truth _
theorem meaning_and (n : Int) (a b : Node) : meaning n (.binop .and a b) = truth (meaning n a ≠ 0 ∧ meaning n b ≠ 0) := wrap_truth _
theorem meaning_or (n : Int) (a b : Node) : meaning n (.binop .or a b) = truth (meaning n a ≠ 0 ∨ meaning n b ≠ 0) := wrap_truth _

theorem cast_if (p : Prop) [Decidable p] (a b : Nat) : ((if p then a else b : Nat) : Int) = if p then (a : Int) else (b : Int) := by
  split <;> rfl

/-- What has to be shown for a rule. -/
def RuleHolds (r : PluralRule) (t : Node) : Prop :=
  ∀ n : Nat, r.rule n < r.count ∧ meaning (n : Int) t = (r.rule n : Nat) ∧ ¬ NegatesMin (n : Int) t

theorem holds_value {r : PluralRule} {f : PluralForms} (h : RuleHolds r f.formula) (hc : f.getCount = r.count) (dbg : Bool) {count : UInt64}
    (hn : count.toNat < 2 ^ 63) : r.rule count.toNat < r.count ∧ f.getValue dbg count = .ok (some (r.rule count.toNat)) := by
  obtain ⟨h1, h2, h3⟩ := h count.toNat
  refine ⟨h1, ?_⟩
  have hs : signed count = count.toNat := by rw [signed, if_pos hn]
  rcases C32_value dbg f count with ⟨_, hb, _⟩ | ⟨_, hv⟩
  · rw [hs] at hb; exact absurd hb h3
  · rw [hv, hs, h2, if_pos ⟨by omega, by rw [hc]; omega⟩]
    simp

/-- Settles the value of one rule. -/
macro "rule_value" : tactic => `(tactic| (
  intro n
  refine ⟨?_, ?_, ?_⟩
  · simp only [List.mem_cons, List.not_mem_nil, or_false]; (repeat' split) <;> omega
  · simp only [meaning_cond, meaning_and, meaning_or, meaning_eq, meaning_ne, meaning_lt, meaning_le, meaning_gt, meaning_ge, meaning_mod _ 10 (by decide),
      meaning_mod _ 100 (by decide), meaning_mod _ 20 (by decide), meaning_num, meaning_var, truth_ne, List.mem_cons, List.not_mem_nil, or_false, Int64.reduceToInt, cast_if]
    try unfold truth
    (repeat' split) <;> omega
  · simp [NegatesMin]))

set_option maxRecDepth 100000 in
theorem rules_hold (env : Env) : ∀ r ∈ gettextRules, ∃ f, PluralForms.parse env r.definition = .ok f ∧ f.getCount = r.count ∧ RuleHolds r f.formula := by
  simp only [gettextRules, List.mem_cons, List.not_mem_nil, or_false, forall_eq_or_imp, forall_eq]
  refine ⟨?_, ?_, ?_, ?_, ?_, ?_, ?_, ?_, ?_, ?_, ?_, ?_, ?_, ?_, ?_, ?_, ?_, ?_, ?_, ?_, ?_⟩
  · refine ⟨⟨(.num 0), 1, _, c!"0"⟩, by rfl, rfl, ?_⟩
    rule_value
  · refine ⟨⟨(.binop .ne .var (.num 1)), 2, _, c!"n != 1"⟩, by rfl, rfl, ?_⟩
    rule_value
  · refine ⟨⟨(.binop .ne .var (.num 1)), 2, _, c!"(n != 1)"⟩, by rfl, rfl, ?_⟩
    rule_value
  · refine ⟨⟨(.binop .gt .var (.num 1)), 2, _, c!"n>1"⟩, by rfl, rfl, ?_⟩
    rule_value
  · refine ⟨⟨(.binop .gt .var (.num 1)), 2, _, c!"(n > 1)"⟩, by rfl, rfl, ?_⟩
    rule_value
  · refine ⟨⟨(.cond (.binop .and (.binop .eq (.binop .mod .var (.num 10)) (.num 1)) (.binop .ne (.binop .mod .var (.num 100)) (.num 11))) (.num 0) (.cond (.binop .ne .var (.num 0)) (.num 1) (.num 2))), 3, _, c!"n%10==1 && n%100!=11 ? 0 : n != 0 ? 1 : 2"⟩, by rfl, rfl, ?_⟩
    rule_value
  · refine ⟨⟨(.cond (.binop .eq .var (.num 1)) (.num 0) (.cond (.binop .eq .var (.num 2)) (.num 1) (.num 2))), 3, _, c!"n==1 ? 0 : n==2 ? 1 : 2"⟩, by rfl, rfl, ?_⟩
    rule_value
  · refine ⟨⟨(.cond (.binop .eq .var (.num 1)) (.num 0) (.cond (.binop .or (.binop .eq .var (.num 0)) (.binop .and (.binop .gt (.binop .mod .var (.num 100)) (.num 0)) (.binop .lt (.binop .mod .var (.num 100)) (.num 20)))) (.num 1) (.num 2))), 3, _, c!"n==1 ? 0 : (n==0 || (n%100 > 0 && n%100 < 20)) ? 1 : 2"⟩, by rfl, rfl, ?_⟩
    rule_value
  · refine ⟨⟨(.cond (.binop .and (.binop .eq (.binop .mod .var (.num 10)) (.num 1)) (.binop .ne (.binop .mod .var (.num 100)) (.num 11))) (.num 0) (.cond (.binop .and (.binop .gte (.binop .mod .var (.num 10)) (.num 2)) (.binop .or (.binop .lt (.binop .mod .var (.num 100)) (.num 10)) (.binop .gte (.binop .mod .var (.num 100)) (.num 20)))) (.num 1) (.num 2))), 3, _, c!"n%10==1 && n%100!=11 ? 0 : n%10>=2 && (n%100<10 || n%100>=20) ? 1 : 2"⟩, by rfl, rfl, ?_⟩
    rule_value
  · refine ⟨⟨(.cond (.binop .and (.binop .eq (.binop .mod .var (.num 10)) (.num 1)) (.binop .ne (.binop .mod .var (.num 100)) (.num 11))) (.num 0) (.cond (.binop .and (.binop .and (.binop .gte (.binop .mod .var (.num 10)) (.num 2)) (.binop .lte (.binop .mod .var (.num 10)) (.num 4))) (.binop .or (.binop .lt (.binop .mod .var (.num 100)) (.num 10)) (.binop .gte (.binop .mod .var (.num 100)) (.num 20)))) (.num 1) (.num 2))), 3, _, c!"n%10==1 && n%100!=11 ? 0 : n%10>=2 && n%10<=4 && (n%100<10 || n%100>=20) ? 1 : 2"⟩, by rfl, rfl, ?_⟩
    rule_value
  · refine ⟨⟨(.cond (.binop .eq .var (.num 1)) (.num 0) (.cond (.binop .and (.binop .gte .var (.num 2)) (.binop .lte .var (.num 4))) (.num 1) (.num 2))), 3, _, c!"(n==1) ? 0 : (n>=2 && n<=4) ? 1 : 2"⟩, by rfl, rfl, ?_⟩
    rule_value
  · refine ⟨⟨(.cond (.binop .eq .var (.num 1)) (.num 0) (.cond (.binop .and (.binop .and (.binop .gte (.binop .mod .var (.num 10)) (.num 2)) (.binop .lte (.binop .mod .var (.num 10)) (.num 4))) (.binop .or (.binop .lt (.binop .mod .var (.num 100)) (.num 10)) (.binop .gte (.binop .mod .var (.num 100)) (.num 20)))) (.num 1) (.num 2))), 3, _, c!"n==1 ? 0 : n%10>=2 && n%10<=4 && (n%100<10 || n%100>=20) ? 1 : 2"⟩, by rfl, rfl, ?_⟩
    rule_value
  · refine ⟨⟨(.cond (.binop .eq (.binop .mod .var (.num 100)) (.num 1)) (.num 0) (.cond (.binop .eq (.binop .mod .var (.num 100)) (.num 2)) (.num 1) (.cond (.binop .or (.binop .eq (.binop .mod .var (.num 100)) (.num 3)) (.binop .eq (.binop .mod .var (.num 100)) (.num 4))) (.num 2) (.num 3)))), 4, _, c!"n%100==1 ? 0 : n%100==2 ? 1 : n%100==3 || n%100==4 ? 2 : 3"⟩, by rfl, rfl, ?_⟩
    rule_value
  · refine ⟨⟨(.cond (.binop .eq .var (.num 0)) (.num 0) (.cond (.binop .eq .var (.num 1)) (.num 1) (.cond (.binop .eq .var (.num 2)) (.num 2) (.cond (.binop .and (.binop .gte (.binop .mod .var (.num 100)) (.num 3)) (.binop .lte (.binop .mod .var (.num 100)) (.num 10))) (.num 3) (.cond (.binop .gte (.binop .mod .var (.num 100)) (.num 11)) (.num 4) (.num 5)))))), 6, _, c!"n==0 ? 0 : n==1 ? 1 : n==2 ? 2 : n%100>=3 && n%100<=10 ? 3 : n%100>=11 ? 4 : 5"⟩, by rfl, rfl, ?_⟩
    rule_value
  · refine ⟨⟨(.binop .or (.binop .ne (.binop .mod .var (.num 10)) (.num 1)) (.binop .eq (.binop .mod .var (.num 100)) (.num 11))), 2, _, c!"(n%10!=1 || n%100==11)"⟩, by rfl, rfl, ?_⟩
    rule_value
  · refine ⟨⟨(.cond (.binop .or (.binop .eq .var (.num 1)) (.binop .eq (.binop .mod .var (.num 10)) (.num 1))) (.num 0) (.num 1)), 2, _, c!"n==1 || n%10==1 ? 0 : 1"⟩, by rfl, rfl, ?_⟩
    rule_value
  · refine ⟨⟨(.cond (.binop .eq .var (.num 1)) (.num 0) (.cond (.binop .or (.binop .eq .var (.num 0)) (.binop .and (.binop .gt (.binop .mod .var (.num 100)) (.num 1)) (.binop .lt (.binop .mod .var (.num 100)) (.num 11)))) (.num 1) (.cond (.binop .and (.binop .gt (.binop .mod .var (.num 100)) (.num 10)) (.binop .lt (.binop .mod .var (.num 100)) (.num 20))) (.num 2) (.num 3)))), 4, _, c!"(n==1 ? 0 : n==0 || ( n%100>1 && n%100<11) ? 1 : (n%100>10 && n%100<20 ) ? 2 : 3)"⟩, by rfl, rfl, ?_⟩
    rule_value
  · refine ⟨⟨(.cond (.binop .eq .var (.num 1)) (.num 0) (.cond (.binop .eq .var (.num 2)) (.num 1) (.cond (.binop .and (.binop .ne .var (.num 8)) (.binop .ne .var (.num 11))) (.num 2) (.num 3)))), 4, _, c!"(n==1) ? 0 : (n==2) ? 1 : (n != 8 && n != 11) ? 2 : 3"⟩, by rfl, rfl, ?_⟩
    rule_value
  · refine ⟨⟨(.cond (.binop .eq .var (.num 1)) (.num 0) (.cond (.binop .eq .var (.num 2)) (.num 1) (.cond (.binop .and (.binop .gt .var (.num 2)) (.binop .lt .var (.num 7))) (.num 2) (.cond (.binop .and (.binop .gt .var (.num 6)) (.binop .lt .var (.num 11))) (.num 3) (.num 4))))), 5, _, c!"n==1 ? 0 : n==2 ? 1 : (n>2 && n<7) ? 2 :(n>6 && n<11) ? 3 : 4"⟩, by rfl, rfl, ?_⟩
    rule_value
  · refine ⟨⟨(.cond (.binop .or (.binop .eq .var (.num 1)) (.binop .eq .var (.num 11))) (.num 0) (.cond (.binop .or (.binop .eq .var (.num 2)) (.binop .eq .var (.num 12))) (.num 1) (.cond (.binop .and (.binop .gt .var (.num 2)) (.binop .lt .var (.num 20))) (.num 2) (.num 3)))), 4, _, c!"(n==1 || n==11) ? 0 : (n==2 || n==12) ? 1 : (n > 2 && n < 20) ? 2 : 3"⟩, by rfl, rfl, ?_⟩
    rule_value
  · refine ⟨⟨(.cond (.binop .eq (.binop .mod .var (.num 10)) (.num 1)) (.num 0) (.cond (.binop .eq (.binop .mod .var (.num 10)) (.num 2)) (.num 1) (.cond (.binop .eq (.binop .mod .var (.num 20)) (.num 0)) (.num 2) (.num 3)))), 4, _, c!"(n%10==1) ? 0 : (n%10==2) ? 1 : (n%20==0) ? 2 : 3"⟩, by rfl, rfl, ?_⟩
    rule_value

/-- **C49** Every rule of the list is accepted as a `Plural-Forms` property, with the right number of forms; and for every count below 2^63 the selected
form is the one that the rule says, with or without overflow checks.  There is no panic. -/
theorem C49_rules (env : Env) : ∀ r ∈ gettextRules, ∃ f, PluralForms.parse env r.definition = .ok f ∧ f.getCount = r.count ∧
    ∀ dbg (count : UInt64), count.toNat < 2 ^ 63 → r.rule count.toNat < r.count ∧ f.getValue dbg count = .ok (some (r.rule count.toNat)) := by
  intro r hr
  obtain ⟨f, h1, h2, h3⟩ := rules_hold env r hr
  exact ⟨f, h1, h2, fun dbg count hn => holds_value h3 h2 dbg hn⟩

theorem range_full {g : Nat → Option Str} {n : Nat} (h : ((List.range n).filterMap g).length = n) :
    ∀ i, i < n → ∃ t, g i = some t ∧ ((List.range n).filterMap g)[i]? = some t := by
  induction n with
  | zero => intro i hi; omega
  | succ n ih =>
    rw [List.range_succ, List.filterMap_append, List.length_append] at h
    rw [List.range_succ, List.filterMap_append]
    have h1 := List.length_filterMap_le g (List.range n)
    rw [List.length_range] at h1
    cases hg : g n with
    | none => simp [hg] at h; omega
    | some t =>
      have e : List.filterMap g [n] = [t] := by simp [hg]
      rw [e] at h ⊢
      have h2 : ((List.range n).filterMap g).length = n := by simpa using h
      intro i hi
      by_cases hin : i = n
      · subst hin
        exact ⟨t, hg, by rw [List.getElem?_append_right (by omega), h2]; simp⟩
      · obtain ⟨t', h3, h4⟩ := ih h2 i (by omega)
        exact ⟨t', h3, by rw [List.getElem?_append_left (by omega)]; exact h4⟩

variable {env : Env} {stream : List Event} {hdr : Header env.Lang} {xs : List (Except Err PoUnit)} {u : PoUnit}

/-- **C49** In a catalogue with one of these rules as `Plural-Forms` property, a plural unit with all its texts has for every count below 2^63 the text of
the field `msgstr[i]` where `i` is the form that the rule says. -/
theorem C49_select (h : Yields (parse env stream) hdr xs) (hu : .ok u ∈ xs) {p : Plural} (hp : u.message.getPlural = some p) {r : PluralRule}
    (hr : r ∈ gettextRules) (hs : hdr.properties.lookup (c!"Plural-Forms") = some r.definition) (hfull : p.getValues.length = r.count) :
    ∃ (forms : Option PluralForms) (block : List PoLine), block.map .ok <:+: streamItems stream ∧ Entry forms block u ∧
      ∀ dbg (count : UInt64), count.toNat < 2 ^ 63 → ∃ t, fieldText (valueKeyword (r.rule count.toNat)) block = some t ∧
        u.message.getPluralText dbg count = .ok (some t) := by
  obtain ⟨f, g1, g2, g3⟩ := C49_rules env r hr
  have hm : u.message = .plural p := by cases hm : u.message <;> simp_all [Message.getPlural]
  obtain ⟨forms, block, k1, k2, _, k4⟩ := unit_entry h hu
  refine ⟨forms, block, k1, k2, ?_⟩
  have hne : r.definition ≠ [] := by
    have : ∀ r ∈ gettextRules, r.definition ≠ [] := by decide
    exact this r hr
  have hf : forms = some f := by
    rw [formsRule_iff, hs] at k4
    unfold textForms at k4
    simp [hne, g1] at k4
    cases k4; rfl
  subst hf
  have k5 := entry_forms k2 (.inl hm)
  obtain ⟨_, k6⟩ := entry_values k2 hm
  have hc : nplurals (some f) = r.count := g2
  rw [hc] at k6
  intro dbg count hn
  obtain ⟨j1, j2⟩ := g3 dbg count hn
  obtain ⟨t, t1, t2⟩ := range_full (by rw [← k6]; exact hfull) _ j1
  refine ⟨t, t1, ?_⟩
  rw [← k6] at t2
  rw [hm, Message.getPluralText, Plural.get, k5]
  simp only [j2, Out.bind, Option.bind, t2]

/-! ### Concrete cases -/

/-- A Russian catalogue. -/
def russianLines : List Str := [c!"msgid \"\"",
  c!"msgstr \"Plural-Forms: nplurals=3; plural=n%10==1 && n%100!=11 ? 0 : n%10>=2 && n%10<=4 && (n%100<10 || n%100>=20) ? 1 : 2;\\n\"", c!"",
  c!"msgid \"file\"", c!"msgid_plural \"files\"", c!"msgstr[0] \"файл\"", c!"msgstr[1] \"файла\"", c!"msgstr[2] \"файлов\""]

/-- Its plural forms. -/
def russianForms : PluralForms :=
  ⟨.cond (.binop .and (.binop .eq (.binop .mod .var (.num 10)) (.num 1)) (.binop .ne (.binop .mod .var (.num 100)) (.num 11))) (.num 0)
    (.cond (.binop .and (.binop .and (.binop .gte (.binop .mod .var (.num 10)) (.num 2)) (.binop .lte (.binop .mod .var (.num 10)) (.num 4)))
      (.binop .or (.binop .lt (.binop .mod .var (.num 100)) (.num 10)) (.binop .gte (.binop .mod .var (.num 100)) (.num 20)))) (.num 1) (.num 2)),
   3, c!"nplurals=3; plural=n%10==1 && n%100!=11 ? 0 : n%10>=2 && n%10<=4 && (n%100<10 || n%100>=20) ? 1 : 2;",
   c!"n%10==1 && n%100!=11 ? 0 : n%10>=2 && n%10<=4 && (n%100<10 || n%100>=20) ? 1 : 2"⟩

/-- Its unit. -/
def russianUnit : PoUnit :=
  { PoUnit.default with message := .plural ⟨c!"file", c!"files", [c!"файл", c!"файла", c!"файлов"], some russianForms⟩, state := .final }

set_option maxRecDepth 100000 in
theorem russian_yields : Yields (parse demoEnv (textStream russianLines)) ⟨[], [], [(c!"Plural-Forms", russianForms.definition)], demoEnv.langInvariant⟩
    (results [russianUnit] none) :=
  yields_text (res := ⟨⟨[], [], [(c!"Plural-Forms", russianForms.definition)], demoEnv.langInvariant⟩, some russianForms, [russianUnit], none⟩) (by decide) (by rfl)

-- `C49_select`: the hypotheses are met by this catalogue
example := C49_select (u := russianUnit) russian_yields (by simp [results]) rfl (r := gettextRules[9]) (List.getElem_mem _) rfl rfl
example : russianUnit.message.getPluralText true 21 = .ok (some (c!"файл")) ∧ russianUnit.message.getPluralText true 112 = .ok (some (c!"файлов")) ∧
    russianUnit.message.getPluralText true 1003 = .ok (some (c!"файла")) := ⟨rfl, rfl, rfl⟩

end Verif
