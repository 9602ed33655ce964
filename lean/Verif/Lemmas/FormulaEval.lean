import Verif.Spec.Formula

/-! `Node::execute` computes the meaning of the formula. -/

namespace Verif
open Spec

theorem toInt_range (v : Int64) : InRange v.toInt := ⟨by have := v.le_toInt; omega, by have := v.toInt_lt; omega⟩

theorem toInt_ofInt {v : Int} (h : InRange v) : (Int64.ofInt v).toInt = v := Int64.toInt_ofInt_of_le h.1 h.2

theorem wrap_range (v : Int) : InRange (wrap v) := by
  unfold wrap InRange
  have h1 := Int.le_bmod (x := v) (m := 2 ^ 64) (by omega)
  have h2 := Int.bmod_lt (x := v) (m := 2 ^ 64) (by omega)
  omega

theorem wrap_self {v : Int} (h : InRange v) : wrap v = v := by
  unfold wrap
  unfold InRange at h
  exact Int.bmod_eq_of_le (by omega) (by omega)

theorem truth_range (p : Prop) [Decidable p] : InRange (truth p) := by
  unfold truth InRange; split <;> omega

theorem truth_boolToNum (p : Prop) [Decidable p] : (boolToNum (decide p)).toInt = truth p := by
  unfold truth boolToNum
  by_cases h : p <;> simp [h]

theorem boolToNum_eq {b : Bool} {p : Prop} [Decidable p] (h : b = true ↔ p) : (boolToNum b).toInt = truth p := by
  rw [← truth_boolToNum]
  congr 2
  cases b <;> simp_all

theorem eq_zero_iff (v : Int64) : v = 0 ↔ v.toInt = 0 := by
  rw [← Int64.toInt_inj]; rfl

/-- The value of a formula is in the range. -/
theorem meaning_range {n : Int} (hn : InRange n) (t : Node) : InRange (meaning n t) := by
  induction t with
  | var => exact hn
  | num v => exact toInt_range v
  | unop o a ih => cases o <;> simp only [meaning] <;> first | exact wrap_range _ | exact truth_range _
  | binop o a b iha ihb =>
    cases o <;> simp only [meaning] <;> try exact wrap_range _
    · split
      · split <;> simp [InRange]
      · exact wrap_range _
    · split
      · exact iha
      · unfold InRange at *
        have h1 := Int.natAbs_tmod (meaning n a) (meaning n b)
        have h2 : (meaning n a).natAbs % (meaning n b).natAbs ≤ (meaning n a).natAbs := Nat.mod_le _ _
        by_cases h0 : 0 ≤ meaning n a
        · have := Int.tmod_nonneg (meaning n b) h0
          omega
        · have := Int.tmod_nonneg (meaning n b) (a := -meaning n a) (by omega)
          rw [Int.neg_tmod] at this
          omega
  | cond a b c _ ihb ihc => simp only [meaning]; split <;> assumption

/-- The strict operators. -/
theorem apply_meaning {n : Int} {l r : Int64} {o : BinOp} {a b : Node} (hl : l.toInt = meaning n a) (hr : r.toInt = meaning n b) :
    (o.apply l r).toInt = meaning n (.binop o a b) := by
  have hz : r = 0 ↔ meaning n b = 0 := by rw [eq_zero_iff, hr]
  have hzl : l = 0 ↔ meaning n a = 0 := by rw [eq_zero_iff, hl]
  have ht : ∀ (c : Bool) (p : Prop) [Decidable p], (c = true ↔ p) → (boolToNum c).toInt = wrap (truth p) := fun c p _ h => by
    rw [wrap_self (truth_range p)]; exact boolToNum_eq h
  cases o <;> simp only [BinOp.apply, meaning, arith]
  · rw [Int64.toInt_add, hl, hr]; rfl
  · rw [Int64.toInt_sub, hl, hr]; rfl
  · rw [Int64.toInt_mul, hl, hr]; rfl
  · by_cases h : r = 0
    · rw [if_neg (by simpa using h), if_pos (hz.mp h)]
      unfold getInfinity
      have : (l < 0) ↔ meaning n a < 0 := by rw [Int64.lt_iff_toInt_lt, hl]; exact Iff.rfl
      by_cases h0 : l < 0
      · rw [if_pos h0, if_pos (this.mp h0)]; rfl
      · rw [if_neg h0, if_neg (fun h => h0 (this.mpr h))]; rfl
    · rw [if_pos h, if_neg (fun h' => h (hz.mpr h')), Int64.toInt_div, hl, hr]; rfl
  · by_cases h : r = 0
    · rw [if_neg (by simpa using h), if_pos (hz.mp h), hl]
    · rw [if_pos h, if_neg (fun h' => h (hz.mpr h')), Int64.toInt_mod, hl, hr]
  · exact ht _ _ (by simp [hz, hzl])
  · exact ht _ _ (by simp [hz, hzl])
  · exact ht _ _ (by simp [← Int64.toInt_inj, hl, hr])
  · exact ht _ _ (by simp [← Int64.toInt_inj, hl, hr])
  · exact ht _ _ (by simp [Int64.lt_iff_toInt_lt, hl, hr])
  · exact ht _ _ (by simp [Int64.le_iff_toInt_le, hl, hr])
  · exact ht _ _ (by simp [Int64.lt_iff_toInt_lt, hl, hr])
  · exact ht _ _ (by simp [Int64.le_iff_toInt_le, hl, hr])

/-- The outcome of evaluation. -/
def Outcome (dbg : Bool) (n : Int) (t : Node) (o : Out Int64) : Prop :=
  (dbg = true ∧ NegatesMin n t ∧ o = .panic) ∨ (¬ (dbg = true ∧ NegatesMin n t) ∧ ∃ v, o = .ok v ∧ v.toInt = meaning n t)

theorem execute_outcome (dbg : Bool) (n : Int64) (t : Node) : Outcome dbg n.toInt t (t.execute dbg n) := by
  induction t with
  | var => exact .inr ⟨fun h => h.2.elim, _, rfl, rfl⟩
  | num v => exact .inr ⟨fun h => h.2.elim, _, rfl, rfl⟩
  | unop o a ih =>
    rcases ih with ⟨h1, h2, h3⟩ | ⟨h1, v, h2, h3⟩
    · left
      refine ⟨h1, ?_, ?_⟩
      · cases o <;> simp [NegatesMin, h2]
      · cases o <;> simp [Node.execute, h3, Out.bind]
    · cases o with
      | neg =>
        simp only [Node.execute, h2, Out.bind, negI64]
        by_cases hm : v = Int64.minValue
        · have hm' : meaning n.toInt a = -2 ^ 63 := by rw [← h3, hm]; rfl
          cases dbg with
          | true => left; exact ⟨rfl, .inr hm', by simp [hm]⟩
          | false => right; exact ⟨by simp, -v, by simp, by rw [Int64.toInt_neg, h3]; rfl⟩
        · have hm' : meaning n.toInt a ≠ -2 ^ 63 := by
            intro h; apply hm; rw [← Int64.toInt_inj, h3, h]; rfl
          right
          refine ⟨fun h => h.2.elim (fun h' => h1 ⟨h.1, h'⟩) hm', -v, by simp [hm], by rw [Int64.toInt_neg, h3]; rfl⟩
      | not =>
        right
        refine ⟨h1, boolToNum (v == 0), by simp [Node.execute, h2, Out.bind], ?_⟩
        exact boolToNum_eq (by rw [beq_iff_eq, eq_zero_iff, h3])
  | binop o a b iha ihb =>
    rcases iha with ⟨h1, h2, h3⟩ | ⟨h1, v, h2, h3⟩
    · left
      refine ⟨h1, ?_, ?_⟩
      · cases o <;> simp [NegatesMin, h2]
      · cases o <;> simp [Node.execute, h3, Out.bind]
    · have hz : v = 0 ↔ meaning n.toInt a = 0 := by rw [eq_zero_iff, h3]
      rcases ihb with ⟨g1, g2, g3⟩ | ⟨g1, w, g2, g3⟩
      · by_cases ho : o = .and ∨ o = .or
        · have hnr : ∀ p : Prop, [Decidable p] → wrap (truth p) = truth p := fun p _ => wrap_self (truth_range p)
          rcases ho with rfl | rfl
          · by_cases hv : v = 0
            · right
              refine ⟨fun h => h.2.elim (fun h' => h1 ⟨h.1, h'⟩) (fun h' => h'.1 (hz.mp hv)), boolToNum false, by simp [Node.execute, h2, Out.bind, hv], ?_⟩
              simp only [meaning, arith, hnr, hz.mp hv]
              rfl
            · left
              refine ⟨g1, .inr ⟨fun h => hv (hz.mpr h), g2⟩, by simp [Node.execute, h2, g3, Out.bind, hv]⟩
          · by_cases hv : v = 0
            · left
              refine ⟨g1, .inr ⟨hz.mp hv, g2⟩, by simp [Node.execute, h2, g3, Out.bind, hv]⟩
            · right
              refine ⟨fun h => h.2.elim (fun h' => h1 ⟨h.1, h'⟩) (fun h' => hv (hz.mpr h'.1)), boolToNum true, by simp [Node.execute, h2, Out.bind, hv], ?_⟩
              simp only [meaning, arith, hnr]
              have hv' : meaning n.toInt a ≠ 0 := fun h => hv (hz.mpr h)
              simp [truth, hv']
              rfl
        · left
          refine ⟨g1, ?_, ?_⟩
          · cases o <;> simp_all [NegatesMin]
          · cases o <;> simp_all [Node.execute, Out.bind]
      · right
        have e := apply_meaning (o := o) h3 g3
        refine ⟨?_, o.apply v w, ?_, e⟩
        · cases o <;> simp only [NegatesMin] <;> rintro ⟨hd, h | h⟩ <;> first | exact h1 ⟨hd, h⟩ | exact g1 ⟨hd, h⟩ | exact g1 ⟨hd, h.2⟩
        · cases o <;> simp only [Node.execute, h2, g2, Out.bind, BinOp.apply]
          · by_cases hv : v = 0
            · simp [hv]
            · simp [show (v != 0) = true by simpa using hv]
          · by_cases hv : v = 0
            · simp [hv]
            · simp [show (v != 0) = true by simpa using hv]
  | cond a b c iha ihb ihc =>
    rcases iha with ⟨h1, h2, h3⟩ | ⟨h1, v, h2, h3⟩
    · left
      exact ⟨h1, .inl h2, by simp [Node.execute, h3, Out.bind]⟩
    · have hz : v = 0 ↔ meaning n.toInt a = 0 := by rw [eq_zero_iff, h3]
      by_cases hv : v = 0
      · have he : (Node.cond a b c).execute dbg n = c.execute dbg n := by simp [Node.execute, h2, Out.bind, hv]
        rw [he]
        rcases ihc with ⟨g1, g2, g3⟩ | ⟨g1, w, g2, g3⟩
        · left; exact ⟨g1, .inr (.inr ⟨hz.mp hv, g2⟩), g3⟩
        · right
          refine ⟨?_, w, g2, by simp only [meaning]; rw [if_neg (by simpa using hz.mp hv)]; exact g3⟩
          rintro ⟨hd, h | h | h⟩
          · exact h1 ⟨hd, h⟩
          · exact h.1 (hz.mp hv)
          · exact g1 ⟨hd, h.2⟩
      · have he : (Node.cond a b c).execute dbg n = b.execute dbg n := by simp [Node.execute, h2, Out.bind, hv]
        rw [he]
        rcases ihb with ⟨g1, g2, g3⟩ | ⟨g1, w, g2, g3⟩
        · left; exact ⟨g1, .inr (.inl ⟨fun h => hv (hz.mpr h), g2⟩), g3⟩
        · right
          refine ⟨?_, w, g2, by simp only [meaning]; rw [if_pos (fun h => hv (hz.mpr h))]; exact g3⟩
          rintro ⟨hd, h | h | h⟩
          · exact h1 ⟨hd, h⟩
          · exact g1 ⟨hd, h.2⟩
          · exact hv (hz.mpr h.1)

theorem toInt_signed (count : UInt64) : count.toInt64.toInt = signed count := by
  have h : count.toInt64.toInt = count.toBitVec.toInt := rfl
  rw [h, BitVec.toInt_eq_toNat_cond]
  unfold signed
  have : count.toBitVec.toNat = count.toNat := rfl
  rw [this]
  have := count.toNat_lt
  split <;> split <;> omega

theorem signed_range (count : UInt64) : InRange (signed count) := toInt_signed count ▸ toInt_range _

theorem formulaExecute_eq (dbg : Bool) (t : Node) (count : UInt64) :
    (dbg = true ∧ NegatesMin (signed count) t ∧ formulaExecute dbg t count = .panic) ∨
    (¬ (dbg = true ∧ NegatesMin (signed count) t) ∧
      formulaExecute dbg t count = .ok (if meaning (signed count) t < 0 then none else some (meaning (signed count) t).toNat)) := by
  have h := execute_outcome dbg count.toInt64 t
  rw [toInt_signed] at h
  rcases h with ⟨h1, h2, h3⟩ | ⟨h1, v, h2, h3⟩
  · exact .inl ⟨h1, h2, by simp [formulaExecute, h3, Out.bind]⟩
  · refine .inr ⟨h1, ?_⟩
    simp only [formulaExecute, h2, Out.bind]
    have hlt : v < 0 ↔ meaning (signed count) t < 0 := by rw [Int64.lt_iff_toInt_lt, h3]; exact Iff.rfl
    by_cases hv : v < 0
    · rw [if_pos hv, if_pos (hlt.mp hv)]
    · rw [if_neg hv, if_neg (fun h => hv (hlt.mpr h))]
      congr 2
      rw [← h3, Int64.toNat_toUInt64_of_le]
      · rfl
      · rw [Int64.le_iff_toInt_le, h3]
        have : ¬ meaning (signed count) t < 0 := fun h => hv (hlt.mpr h)
        simpa using this

theorem value_meaning {n : Int} {t : Node} {v : Int} (h : Value n t v) : meaning n t = v ∧ ¬ NegatesMin n t := by
  have hnr : ∀ p : Prop, [Decidable p] → wrap (truth p) = truth p := fun p _ => wrap_self (truth_range p)
  induction h with
  | var => exact ⟨rfl, id⟩
  | num => exact ⟨rfl, id⟩
  | neg h hr ih =>
    refine ⟨by simp only [meaning, ih.1]; exact wrap_self hr, ?_⟩
    rintro (h | h)
    · exact ih.2 h
    · rw [ih.1] at h; subst h; simp [InRange] at hr
  | not h ih => exact ⟨by simp only [meaning, ih.1], ih.2⟩
  | andFalse h ih => exact ⟨by simp only [meaning, arith, hnr, ih.1]; simp [truth], fun h => h.elim ih.2 (fun h => h.1 ih.1)⟩
  | andTrue h hv h2 ih ih2 =>
    refine ⟨by simp only [meaning, arith, hnr, ih.1, ih2.1]; simp [truth, hv], fun h => h.elim ih.2 (fun h => ih2.2 h.2)⟩
  | orTrue h hv ih =>
    refine ⟨by simp only [meaning, arith, hnr, ih.1]; simp [truth, hv], fun h => h.elim ih.2 (fun h => hv (ih.1 ▸ h.1))⟩
  | orFalse h h2 ih ih2 =>
    refine ⟨by simp only [meaning, arith, hnr, ih.1, ih2.1]; simp [truth], fun h => h.elim ih.2 (fun h => ih2.2 h.2)⟩
  | @binop o _ _ _ _ h1 h2 ha hb hz hr iha ihb =>
    refine ⟨?_, ?_⟩
    · have hw := wrap_self hr
      cases o <;> simp only [meaning, iha.1, ihb.1] <;> first
        | exact hw
        | (rw [if_neg (hz (by simp))]; first | exact hw | rfl)
    · cases o <;> simp only [NegatesMin] <;> first
        | exact absurd rfl h1
        | exact absurd rfl h2
        | exact fun h => h.elim iha.2 ihb.2
  | condTrue h hv h2 ih ih2 =>
    refine ⟨by simp only [meaning, ih.1]; rw [if_pos hv]; exact ih2.1, fun h => ?_⟩
    rcases h with h | h | h
    · exact ih.2 h
    · exact ih2.2 h.2
    · exact hv (ih.1 ▸ h.1)
  | condFalse h h2 ih ih2 =>
    refine ⟨by simp only [meaning, ih.1]; simpa using ih2.1, fun h => ?_⟩
    rcases h with h | h | h
    · exact ih.2 h
    · exact h.1 ih.1
    · exact ih2.2 h.2

end Verif
