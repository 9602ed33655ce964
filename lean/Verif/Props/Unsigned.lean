import Verif.Spec.Unsigned
import Verif.Props.Choice
import Verif.Props.CGrammar

/-! C85: evaluation with signed numbers, compared with the unsigned numbers of GNU gettext. -/

namespace Verif
open Spec

theorem unsigned_nat {v : Int} (h : 0 ≤ v) (h' : InRange v) : (unsigned v : Int) = v := by
  unfold unsigned InRange at *; omega

theorem unsigned_wrap (v : Int) : unsigned (wrap v) = unsigned v := by
  rw [unsigned, wrap, unsigned, show ((2 : Int) ^ 64) = ((2 ^ 64 : Nat) : Int) from rfl, Int.bmod_emod]

theorem unsigned_inj {v w : Int} (hv : InRange v) (hw : InRange w) : unsigned v = unsigned w ↔ v = w := by
  unfold unsigned InRange at *; omega

theorem unsigned_zero {v : Int} (hv : InRange v) : unsigned v = 0 ↔ v = 0 := by
  unfold unsigned InRange at *; omega

theorem unsigned_truth (p q : Prop) [Decidable p] [Decidable q] (h : p ↔ q) : unsigned (truth p) = cTruth q := by
  unfold truth cTruth
  by_cases hp : p
  · rw [if_pos hp, if_pos (h.mp hp)]; rfl
  · rw [if_neg hp, if_neg (fun k => hp (h.mpr k))]; rfl

theorem unsigned_signed (count : UInt64) : unsigned (signed count) = count.toNat := by
  have := count.toNat_lt
  unfold unsigned signed
  split <;> omega

theorem cArith_strict {o : BinOp} {v w : Int} (hv : InRange v) (hw : InRange w) (hs : SignMatters o → 0 ≤ v ∧ 0 ≤ w) (h0 : o = .div ∨ o = .mod → w ≠ 0) :
    cArith o (unsigned v) (unsigned w) = some (unsigned (arith o v w)) := by
  cases o with
  | add => simp only [cArith, arith]; congr 1; unfold unsigned; omega
  | sub => simp only [cArith, arith]; congr 1; unfold unsigned; omega
  | mul =>
    simp only [cArith, arith]; congr 1
    have h1 : ((unsigned v * unsigned w % 2 ^ 64 : Nat) : Int) = (unsigned (v * w) : Int) := by
      unfold unsigned
      have a1 : 0 ≤ v % 2 ^ 64 := by omega
      have a2 : 0 ≤ w % 2 ^ 64 := by omega
      have a3 : 0 ≤ v * w % 2 ^ 64 := by omega
      rw [Int.natCast_emod, Int.natCast_mul, Int.toNat_of_nonneg a1, Int.toNat_of_nonneg a2, Int.toNat_of_nonneg a3]
      exact (Int.mul_emod v w (2 ^ 64)).symm
    exact Int.ofNat.inj h1
  | div =>
    obtain ⟨h1, h2⟩ := hs trivial
    have h3 := h0 (.inl rfl)
    simp only [cArith, arith, if_neg (fun k => h3 ((unsigned_zero hw).mp k))]
    congr 1
    have e1 := unsigned_nat h1 hv
    have e2 := unsigned_nat h2 hw
    generalize unsigned v = a at e1
    generalize unsigned w = b at e2
    subst e1 e2
    rw [← Int.ofNat_tdiv]
    unfold InRange at hv
    have := Nat.div_le_self a b
    generalize a / b = q at *
    unfold unsigned; omega
  | mod =>
    obtain ⟨h1, h2⟩ := hs trivial
    have h3 := h0 (.inr rfl)
    simp only [cArith, arith, if_neg (fun k => h3 ((unsigned_zero hw).mp k))]
    congr 1
    have e1 := unsigned_nat h1 hv
    have e2 := unsigned_nat h2 hw
    generalize unsigned v = a at e1
    generalize unsigned w = b at e2
    subst e1 e2
    rw [← Int.ofNat_tmod]
    unfold InRange at hv
    have := Nat.mod_le a b
    generalize a % b = q at *
    unfold unsigned; omega
  | eq => exact congrArg some (unsigned_truth _ _ (unsigned_inj hv hw).symm).symm
  | ne => exact congrArg some (unsigned_truth _ _ (not_congr (unsigned_inj hv hw).symm)).symm
  | and => exact congrArg some (unsigned_truth _ _ (and_congr (not_congr (unsigned_zero hv).symm) (not_congr (unsigned_zero hw).symm))).symm
  | or => exact congrArg some (unsigned_truth _ _ (or_congr (not_congr (unsigned_zero hv).symm) (not_congr (unsigned_zero hw).symm))).symm
  | lt | lte | gt | gte =>
    obtain ⟨h1, h2⟩ := hs trivial
    have e1 := unsigned_nat h1 hv
    have e2 := unsigned_nat h2 hw
    exact congrArg some (unsigned_truth _ _ (by omega)).symm

theorem unsigned_truth' (p : Prop) [Decidable p] : unsigned (wrap (truth p)) = cTruth p := by
  rw [wrap_truth]; exact unsigned_truth p p .rfl

/-- The value in C is the meaning, modulo 2^64. -/
theorem cValue_meaning {n : Int} (hn : InRange n) {t : Node} (h : SignFree n t) : cValue (unsigned n) t = some (unsigned (meaning n t)) := by
  induction t with
  | var => rfl
  | num v => rfl
  | unop o a ih =>
    cases o with
    | neg =>
      simp only [cValue, ih h, Option.map_some, meaning, unsigned_wrap]
      congr 1; unfold unsigned; omega
    | not =>
      simp only [cValue, ih h, Option.map_some, meaning]
      exact congrArg some (unsigned_truth _ _ (unsigned_zero (meaning_range hn a)).symm).symm
  | cond a b c iha ihb ihc =>
    obtain ⟨h1, h2, h3⟩ := h
    simp only [cValue, iha h1, Option.bind_some, meaning, unsigned_zero (meaning_range hn a)]
    by_cases h0 : meaning n a = 0
    · rw [if_pos h0, if_neg (fun k => k h0), ihc (h3 h0)]
    · rw [if_neg h0, if_pos h0, ihb (h2 h0)]
  | binop o a b iha ihb =>
    have ra := meaning_range hn a
    have rb := meaning_range hn b
    have strict : ∀ (h1 : SignFree n a) (h2 : SignFree n b) (h3 : SignMatters o → 0 ≤ meaning n a ∧ 0 ≤ meaning n b)
        (h4 : o = .div ∨ o = .mod → meaning n b ≠ 0),
        ((cValue (unsigned n) a).bind fun v => (cValue (unsigned n) b).bind fun w => cArith o v w) =
          some (unsigned (arith o (meaning n a) (meaning n b))) := by
      intro h1 h2 h3 h4
      rw [iha h1, ihb h2]
      exact cArith_strict ra rb h3 h4
    cases o with
    | and =>
      obtain ⟨h1, h2⟩ := h
      simp only [cValue, iha h1, Option.bind_some, meaning, unsigned_zero ra, arith]
      rw [unsigned_truth']
      by_cases h0 : meaning n a = 0
      · rw [if_pos h0]; simp [cTruth, h0]
      · rw [if_neg h0, ihb (h2 h0)]; simp [cTruth, h0, unsigned_zero rb]
    | or =>
      obtain ⟨h1, h2⟩ := h
      simp only [cValue, iha h1, Option.bind_some, meaning, unsigned_zero ra, arith]
      rw [unsigned_truth']
      by_cases h0 : meaning n a = 0
      · rw [if_pos h0, ihb (h2 h0)]; simp [cTruth, h0, unsigned_zero rb]
      · rw [if_neg h0]; simp [cTruth, h0]
    | div =>
      obtain ⟨h1, h2, h3, h4⟩ := h
      simp only [cValue, meaning, if_neg (h4 (.inl rfl)), unsigned_wrap]
      exact strict h1 h2 h3 h4
    | mod =>
      obtain ⟨h1, h2, h3, h4⟩ := h
      simp only [cValue, meaning, if_neg (h4 (.inr rfl))]
      exact strict h1 h2 h3 h4
    | add | sub | mul | eq | ne | lt | lte | gt | gte =>
      obtain ⟨h1, h2, h3, h4⟩ := h
      simp only [cValue, meaning, unsigned_wrap]
      exact strict h1 h2 h3 h4

/-- **C85** Where the sign matters no operand is negative and no divisor is zero: the value in C, taken with unsigned numbers, decides the form, provided it is
below the number of forms (and below 2^63). -/
theorem C85_agree {f : PluralForms} {count : UInt64} (h : SignFree (signed count) f.formula) (dbg : Bool)
    (hd : ¬ (dbg = true ∧ NegatesMin (signed count) f.formula)) :
    ∃ v, cValue count.toNat f.formula = some v ∧ f.getValue dbg count = .ok (if v < f.getCount ∧ v < 2 ^ 63 then some v else none) := by
  have h1 := cValue_meaning (signed_range count) h
  rw [unsigned_signed] at h1
  refine ⟨_, h1, ?_⟩
  have h2 := meaning_range (signed_range count) f.formula
  rcases C32_value dbg f count with ⟨e1, e2, _⟩ | ⟨_, e⟩
  · exact absurd ⟨e1, e2⟩ hd
  · rw [e]
    generalize meaning (signed count) f.formula = m at h2
    unfold InRange at h2
    by_cases h0 : 0 ≤ m
    · have h3 := unsigned_nat h0 h2
      by_cases h4 : m < f.getCount
      · rw [if_pos ⟨h0, h4⟩, if_pos (by omega)]
        congr 2; omega
      · rw [if_neg (fun k => h4 k.2), if_neg (by omega)]
    · rw [if_neg (fun k => h0 k.1), if_neg]
      rintro ⟨_, k⟩
      unfold unsigned at k
      omega

theorem plain_nonneg {n : Int} (h0 : 0 ≤ n) (hn : InRange n) {t : Node} (h : Plain t) : 0 ≤ meaning n t ∧ SignFree n t ∧ ¬ NegatesMin n t := by
  induction t with
  | var => exact ⟨h0, trivial, id⟩
  | num v => exact ⟨h, trivial, id⟩
  | unop o a ih =>
    cases o with
    | neg => exact h.elim
    | not =>
      obtain ⟨_, h2, h3⟩ := ih h
      exact ⟨(truth_bounds _).1, h2, h3⟩
  | cond a b c iha ihb ihc =>
    obtain ⟨h1, h2, h3⟩ := h
    obtain ⟨a1, a2, a3⟩ := iha h1
    obtain ⟨b1, b2, b3⟩ := ihb h2
    obtain ⟨c1, c2, c3⟩ := ihc h3
    refine ⟨?_, ⟨a2, fun _ => b2, fun _ => c2⟩, ?_⟩
    · simp only [meaning]; split <;> assumption
    · rintro (k | k | k)
      · exact a3 k
      · exact b3 k.2
      · exact c3 k.2
  | binop o a b iha ihb =>
    have nt : ∀ (p : Prop) [Decidable p], 0 ≤ wrap (truth p) := fun p _ => by rw [wrap_truth]; exact (truth_bounds p).1
    cases o with
    | add | sub | mul => exact h.elim
    | div =>
      obtain ⟨h1, k, hb, h2⟩ := h
      obtain ⟨a1, a2, a3⟩ := iha h1
      have hm : meaning n b = k.toInt := by rw [hb]; rfl
      have hf : SignFree n b := by rw [hb]; trivial
      have hg : ¬ NegatesMin n b := by rw [hb]; exact id
      refine ⟨?_, ⟨a2, hf, fun _ => ⟨a1, by omega⟩, fun _ => by omega⟩, fun k => k.elim a3 hg⟩
      have hr := meaning_range hn a
      simp only [meaning, if_neg (show ¬ meaning n b = 0 by omega)]
      have d1 := Int.tdiv_nonneg a1 (b := meaning n b) (by omega)
      have d2 : (meaning n a).tdiv (meaning n b) ≤ meaning n a := Int.tdiv_le_self _ a1
      rw [wrap_self (by unfold InRange at *; omega)]
      exact d1
    | mod =>
      obtain ⟨h1, k, hb, h2⟩ := h
      obtain ⟨a1, a2, a3⟩ := iha h1
      have hm : meaning n b = k.toInt := by rw [hb]; rfl
      have hf : SignFree n b := by rw [hb]; trivial
      have hg : ¬ NegatesMin n b := by rw [hb]; exact id
      refine ⟨?_, ⟨a2, hf, fun _ => ⟨a1, by omega⟩, fun _ => by omega⟩, fun k => k.elim a3 hg⟩
      simp only [meaning, if_neg (show ¬ meaning n b = 0 by omega)]
      exact Int.tmod_nonneg _ a1
    | and =>
      obtain ⟨h1, h2⟩ := h
      obtain ⟨a1, a2, a3⟩ := iha h1
      obtain ⟨b1, b2, b3⟩ := ihb h2
      refine ⟨nt _, ⟨a2, fun _ => b2⟩, ?_⟩
      rintro (k | k)
      · exact a3 k
      · exact b3 k.2
    | or =>
      obtain ⟨h1, h2⟩ := h
      obtain ⟨a1, a2, a3⟩ := iha h1
      obtain ⟨b1, b2, b3⟩ := ihb h2
      refine ⟨nt _, ⟨a2, fun _ => b2⟩, ?_⟩
      rintro (k | k)
      · exact a3 k
      · exact b3 k.2
    | eq | ne | lt | lte | gt | gte =>
      obtain ⟨h1, h2⟩ := h
      obtain ⟨a1, a2, a3⟩ := iha h1
      obtain ⟨b1, b2, b3⟩ := ihb h2
      refine ⟨nt _, ⟨a2, b2, fun _ => ⟨a1, b1⟩, fun k => by rcases k with k | k <;> cases k⟩, ?_⟩
      rintro (k | k)
      · exact a3 k
      · exact b3 k

/-- **C85** A formula without `+`, `-`, `*` with positive constants as divisors has, at every count below 2^63, a value in C, and that is the form. -/
theorem C85_plain {f : PluralForms} (h : Plain f.formula) (dbg : Bool) {count : UInt64} (hc : count.toNat < 2 ^ 63) :
    ∃ v, cValue count.toNat f.formula = some v ∧ f.getValue dbg count = .ok (if v < f.getCount ∧ v < 2 ^ 63 then some v else none) := by
  have hs : 0 ≤ signed count := by unfold signed; rw [if_pos hc]; omega
  obtain ⟨_, h2, h3⟩ := plain_nonneg hs (signed_range count) h
  exact C85_agree h2 dbg (fun k => h3 k.2)

theorem plain_num {v : Int64} (h : 0 ≤ v.toInt) : Plain (.num v) := h

theorem plain_mod {k : Int64} (h : 0 < k.toInt) : Plain (.binop .mod .var (.num k)) := ⟨trivial, _, rfl, h⟩

theorem unordered_free {n : Int} {t : Node} (h : Unordered t) : SignFree n t := by
  induction t with
  | var => trivial
  | num v => trivial
  | unop o a ih => exact ih h
  | cond a b c iha ihb ihc => exact ⟨iha h.1, fun _ => ihb h.2.1, fun _ => ihc h.2.2⟩
  | binop o a b iha ihb =>
    obtain ⟨h1, h2, h3⟩ := h
    cases o with
    | lt | lte | gt | gte | div | mod => exact (h1 trivial).elim
    | and | or => exact ⟨iha h2, fun _ => ihb h3⟩
    | add | sub | mul | eq | ne => exact ⟨iha h2, ihb h3, fun k => k.elim, fun k => by rcases k with k | k <;> cases k⟩

/-- **C85** Without `<`, `<=`, `>`, `>=`, `/` and `%` the sign never matters: counts of 2^63 and more, and results that overflow, give the form that they give in C. -/
theorem C85_unordered {f : PluralForms} (h : Unordered f.formula) {count : UInt64} (dbg : Bool) (hd : ¬ (dbg = true ∧ NegatesMin (signed count) f.formula)) :
    ∃ v, cValue count.toNat f.formula = some v ∧ f.getValue dbg count = .ok (if v < f.getCount ∧ v < 2 ^ 63 then some v else none) :=
  C85_agree (unordered_free h) dbg hd

set_option maxRecDepth 100000 in
/-- **C85** The known rules (C49) are plain; in C they have the value of the rule. -/
theorem C85_rules (env : Env) : ∀ r ∈ gettextRules, ∃ f, PluralForms.parse env r.definition = .ok f ∧ Plain f.formula ∧
    ∀ n, n < 2 ^ 63 → cValue n f.formula = some (r.rule n) := by
  intro r hr
  obtain ⟨f, h1, h2, h3⟩ := C49_rules env r hr
  have hp : Plain f.formula := by
    have key : ∀ r ∈ gettextRules, ∃ f, PluralForms.parse env r.definition = .ok f ∧ Plain f.formula := by
      simp only [gettextRules, List.forall_mem_cons, List.not_mem_nil, false_implies, implies_true, and_true]
      refine ⟨?_, ?_, ?_, ?_, ?_, ?_, ?_, ?_, ?_, ?_, ?_, ?_, ?_, ?_, ?_, ?_, ?_, ?_, ?_, ?_, ?_⟩
      all_goals
        refine ⟨_, by rfl, ?_⟩
        repeat' first
          | exact plain_num (by decide)
          | exact trivial
          | exact plain_mod (by decide)
          | refine ⟨?_, ?_⟩
    obtain ⟨f', k1, k2⟩ := key r hr
    rw [h1] at k1
    cases k1
    exact k2
  refine ⟨f, h1, hp, fun n hn => ?_⟩
  have hc : (UInt64.ofNat n).toNat = n := by rw [UInt64.toNat_ofNat']; exact Nat.mod_eq_of_lt (by omega)
  obtain ⟨v, g1, g2⟩ := C85_plain hp false (count := UInt64.ofNat n) (by omega)
  obtain ⟨_, k2⟩ := h3 false (UInt64.ofNat n) (by omega)
  rw [g2] at k2
  rw [hc] at g1 k2
  split at k2
  · cases k2; exact g1
  · cases k2

/-- **C85** Texts of a message. -/
theorem C85_text {p : Plural} {f : PluralForms} (hf : p.forms = some f) (h : Plain f.formula) (dbg : Bool) {count : UInt64} (hc : count.toNat < 2 ^ 63) :
    ∃ v, cValue count.toNat f.formula = some v ∧
      (Message.plural p).getPluralText dbg count = .ok (if v < f.getCount ∧ v < 2 ^ 63 then p.values[v]? else none) := by
  obtain ⟨v, h1, h2⟩ := C85_plain h dbg hc
  refine ⟨v, h1, ?_⟩
  rw [Message.getPluralText, Plural.get, hf]
  simp only [h2, Out.bind]
  split <;> rfl

/-- **C85** A whole catalogue.  If the formula of its `Plural-Forms` property is one of the common formulas (C36) and plain, then as an expression of C it has
one tree, which has a value with unsigned numbers at each count below 2^63, and a plural message has the text with that number. -/
theorem C85_gettext {env : Env} {stream : List Event} {hdr : Header env.Lang} {xs : List (Except Err PoUnit)} (h : Yields (parse env stream) hdr xs)
    {u : PoUnit} (hu : .ok u ∈ xs) {p : Plural} (hp : u.message = .plural p) {s : Str} {f : PluralForms}
    (hs : hdr.properties.lookup (c!"Plural-Forms") = some s) (hne : s ≠ []) (hf : FormsOf s f) {toks : List Tok} (ht : Tokens f.formulaSource toks)
    {t : Node} (hc : Common .expr toks t) (hpl : Plain t) (dbg : Bool) {count : UInt64} (hn : count.toNat < 2 ^ 63) :
    (∀ t', CDerives .expr toks t' ↔ t' = t) ∧ ∃ v, cValue count.toNat t = some v ∧
      u.message.getPluralText dbg count = .ok (if v < f.getCount ∧ v < 2 ^ 63 then p.values[v]? else none) := by
  obtain ⟨forms, block, _, h2, _, h4⟩ := unit_entry h hu
  have hpf := entry_forms h2 (.inl hp)
  rw [hs] at h4
  have h5 : FormsRule env (some s) (.ok (some f)) := .given hne hf
  rw [formsRule_iff] at h4 h5
  rw [h4] at h5
  cases h5
  obtain ⟨k1, k2⟩ := C36_agree ht hc
  obtain ⟨_, _, ps, _, _, hft, _⟩ := hf
  have hft' : f.formula = t := by
    have := formulaParse_iff.mpr hft
    rw [k1] at this
    exact (Option.some.inj this).symm
  rw [hp]
  refine ⟨k2, ?_⟩
  rw [← hft'] at hpl ⊢
  exact C85_text hpf hpl dbg hn

example (dbg : Bool) := C85_gettext rich_yields rich_mem rfl (s := c!"nplurals=2; plural=(n > 1);") (f := richForms) rfl (by decide)
  ((formsParse_iff (env := demoEnv)).mp (by rfl)) (toks := [.lpar, .n, .gt, .num ['1'], .rpar]) (lex_iff.mp (by decide))
  (.exprOr (.orAnd (.andEq (.eqRel (.relNot (.notAdd (.addMul (.mulFactor (.factorTerm (.termParen (w := [.n, .gt, .num ['1']]) (.exprOr (.orAnd (.andEq (.eqRel
    (.relGt (w₁ := [.n]) (.relNot (.notAdd (.addMul (.mulFactor (.factorTerm .termVar))))) (.notAdd (.addMul (.mulFactor (.factorTerm (.termNum (v := 1) (by decide)))))))))))))))))))))
  ⟨trivial, plain_num (by decide)⟩ dbg (count := 5) (by decide)

/-- The forms of `nplurals=2; plural=n-2<0;`. -/
def lessForms : PluralForms := ⟨.binop .lt (.binop .sub .var (.num 2)) (.num 0), 2, c!"nplurals=2; plural=n-2<0;", c!"n-2<0"⟩

/-- **C85** The natural claim that a formula that does not overflow has the form of gettext is false: in C `n-2<0` is 0 at every count, here it is 1 at 0 and 1.
A quotient by zero, undefined in C, has a form here. -/
theorem C85_refuted (env : Env) : PluralForms.parse env (c!"nplurals=2; plural=n-2<0;") = .ok lessForms ∧
    (∀ n, cValue n lessForms.formula = some 0) ∧ (∀ dbg, lessForms.getValue dbg 1 = .ok (some 1)) ∧
    ∃ f, PluralForms.parse env (c!"nplurals=2; plural=1/n>5;") = .ok f ∧ cValue 0 f.formula = none ∧ ∀ dbg, f.getValue dbg 0 = .ok (some 1) := by
  refine ⟨by rfl, fun n => ?_, by decide, ⟨.binop .gt (.binop .div (.num 1) .var) (.num 5), 2, _, _⟩, by rfl, by rfl, by decide⟩
  simp [lessForms, cValue, cArith, unsigned, cTruth]

/-- `n == 0 ? 2 : n % 10 / 2` is plain; at 17 its value in C is 3, more than the number of forms. -/
example : Plain (.cond (.binop .eq .var (.num 0)) (.num 2) (.binop .div (.binop .mod .var (.num 10)) (.num 2))) ∧
    cValue 17 (.cond (.binop .eq .var (.num 0)) (.num 2) (.binop .div (.binop .mod .var (.num 10)) (.num 2))) = some 3 :=
  ⟨⟨⟨trivial, plain_num (by decide)⟩, plain_num (by decide), ⟨trivial, _, rfl, by decide⟩, _, rfl, by decide⟩, by rfl⟩

/-- `n + 1 == 0` has no order comparison; at the largest count it is true, in C and here. -/
example : Unordered (.binop .eq (.binop .add .var (.num 1)) (.num 0)) ∧
    cValue (2 ^ 64 - 1) (.binop .eq (.binop .add .var (.num 1)) (.num 0)) = some 1 ∧
    (⟨.binop .eq (.binop .add .var (.num 1)) (.num 0), 2, [], []⟩ : PluralForms).getValue true 18446744073709551615 = .ok (some 1) :=
  ⟨⟨id, ⟨id, trivial, trivial⟩, trivial⟩, by rfl, by decide⟩

/-- The forms of `n-2<3` with two forms, at 2. -/
example (dbg : Bool) := C85_agree (f := ⟨.binop .lt (.binop .sub .var (.num 2)) (.num 3), 2, [], []⟩) (count := 2)
  ⟨⟨trivial, trivial, fun h => h.elim, fun h => by rcases h with h | h <;> cases h⟩, trivial, fun _ => by decide, fun h => by rcases h with h | h <;> cases h⟩ dbg
  (fun h => by have := h.2; simp [NegatesMin] at this)

example (dbg : Bool) (count : UInt64) (h : count.toNat < 2 ^ 63) := C85_plain (f := ⟨.binop .div .var (.num 10), 5, [], []⟩) ⟨trivial, _, rfl, by decide⟩ dbg h
example (dbg : Bool) (count : UInt64) (h : count.toNat < 2 ^ 63) :=
  C85_text (p := ⟨c!"a", c!"b", [c!"x", c!"y"], some ⟨.binop .ne .var (.num 1), 2, [], []⟩⟩) rfl ⟨trivial, plain_num (by decide)⟩ dbg h
example (dbg : Bool) (count : UInt64) := C85_unordered (f := ⟨.binop .eq (.binop .mul .var .var) (.num 0), 2, [], []⟩) (count := count)
  ⟨id, ⟨id, trivial, trivial⟩, trivial⟩ dbg (fun h => by have := h.2; simp [NegatesMin] at this)

end Verif
