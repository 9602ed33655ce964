import Verif.Lemmas.FormulaParse
import Verif.Spec.CGrammar

/-! The C grammar is unambiguous; common formulas. -/

namespace Verif
open Spec

theorem numVal_iff {ds : Str} {v : Int64} : numVal ds = some v ↔ v.toInt = (numeralValue ds : Int) := by
  unfold numVal
  rw [show numeralValue ds = digitsVal ds from rfl]
  constructor
  · intro h
    split at h
    · cases h
      rw [Int64.toInt_ofNat_of_lt (by omega)]
    · cases h
  · intro h
    have hr := Int64.toInt_lt v
    rw [if_pos (by omega)]
    congr 1
    rw [← Int64.toInt_inj, Int64.toInt_ofNat_of_lt (by omega), h]

def cOrOp : Tok → Option BinOp
  | .oror => some .or | _ => none
def cAndOp : Tok → Option BinOp
  | .andand => some .and | _ => none
def cEqOp : Tok → Option BinOp
  | .eqeq => some .eq | .ne => some .ne | _ => none
def cRelOp : Tok → Option BinOp
  | .lt => some .lt | .le => some .lte | .gt => some .gt | .ge => some .gte | _ => none

/-- A reader of C expressions, used only to show that the C grammar is unambiguous. -/
def cUnary (e : P) : Nat → P
  | 0, _ => none
  | k + 1, .bang :: ts => (cUnary e k ts).map fun p => (.unop .not p.1, p.2)
  | k + 1, .minus :: ts => (cUnary e k ts).map fun p => (.unop .neg p.1, p.2)
  | _ + 1, ts => pTerm e ts

def cMul (e : P) (k : Nat) : P := levelL mulOp (cUnary e k)
def cAdd (e : P) (k : Nat) : P := levelL addOp (cMul e k)
def cRel (e : P) (k : Nat) : P := levelL cRelOp (cAdd e k)
def cEq (e : P) (k : Nat) : P := levelL cEqOp (cRel e k)
def cAnd (e : P) (k : Nat) : P := levelL cAndOp (cEq e k)
def cOr (e : P) (k : Nat) : P := levelL cOrOp (cAnd e k)

def cExpr : Nat → P
  | 0 => fun _ => none
  | k + 1 => fun ts => (cOr (cExpr k) (k + 1) ts).bind fun p =>
    match p.2 with
    | .quest :: ts₁ => (cExpr k ts₁).bind fun q =>
      match q.2 with
      | .colon :: ts₂ => (cExpr k ts₂).map fun r => (.cond p.1 q.1 r.1, r.2)
      | _ => none
    | _ => some p

theorem cderives_or {w : List Tok} {t : Node} : CDerives .or w t ↔ LeftRec cOrOp (CDerives .and) w t := by
  constructor
  · intro h
    generalize hn : CNT.or = nt at h
    induction h with
    | orOr _ h2 ih _ => exact .step (ih rfl) rfl h2
    | orAnd h _ => exact .base h
    | _ => cases hn
  · intro h
    induction h with
    | base h => exact .orAnd h
    | @step _ _ tok _ _ _ _ ho h2 ih =>
      cases tok <;> simp only [cOrOp, Option.some.injEq, reduceCtorEq] at ho <;> subst ho
      exact .orOr ih h2

theorem cderives_and {w : List Tok} {t : Node} : CDerives .and w t ↔ LeftRec cAndOp (CDerives .eq) w t := by
  constructor
  · intro h
    generalize hn : CNT.and = nt at h
    induction h with
    | andAnd _ h2 ih _ => exact .step (ih rfl) rfl h2
    | andEq h _ => exact .base h
    | _ => cases hn
  · intro h
    induction h with
    | base h => exact .andEq h
    | @step _ _ tok _ _ _ _ ho h2 ih =>
      cases tok <;> simp only [cAndOp, Option.some.injEq, reduceCtorEq] at ho <;> subst ho
      exact .andAnd ih h2

theorem cderives_eq {w : List Tok} {t : Node} : CDerives .eq w t ↔ LeftRec cEqOp (CDerives .rel) w t := by
  constructor
  · intro h
    generalize hn : CNT.eq = nt at h
    induction h with
    | eqEq _ h2 ih _ => exact .step (ih rfl) rfl h2
    | eqNe _ h2 ih _ => exact .step (ih rfl) rfl h2
    | eqRel h _ => exact .base h
    | _ => cases hn
  · intro h
    induction h with
    | base h => exact .eqRel h
    | @step _ _ tok _ _ _ _ ho h2 ih =>
      cases tok <;> simp only [cEqOp, Option.some.injEq, reduceCtorEq] at ho <;> subst ho
      · exact .eqNe ih h2
      · exact .eqEq ih h2

theorem cderives_rel {w : List Tok} {t : Node} : CDerives .rel w t ↔ LeftRec cRelOp (CDerives .add) w t := by
  constructor
  · intro h
    generalize hn : CNT.rel = nt at h
    induction h with
    | relLt _ h2 ih _ => exact .step (ih rfl) rfl h2
    | relLte _ h2 ih _ => exact .step (ih rfl) rfl h2
    | relGt _ h2 ih _ => exact .step (ih rfl) rfl h2
    | relGte _ h2 ih _ => exact .step (ih rfl) rfl h2
    | relAdd h _ => exact .base h
    | _ => cases hn
  · intro h
    induction h with
    | base h => exact .relAdd h
    | @step _ _ tok _ _ _ _ ho h2 ih =>
      cases tok <;> simp only [cRelOp, Option.some.injEq, reduceCtorEq] at ho <;> subst ho
      · exact .relLt ih h2
      · exact .relLte ih h2
      · exact .relGt ih h2
      · exact .relGte ih h2

theorem cderives_add {w : List Tok} {t : Node} : CDerives .add w t ↔ LeftRec addOp (CDerives .mul) w t := by
  constructor
  · intro h
    generalize hn : CNT.add = nt at h
    induction h with
    | addAdd _ h2 ih _ => exact .step (ih rfl) rfl h2
    | addSub _ h2 ih _ => exact .step (ih rfl) rfl h2
    | addMul h _ => exact .base h
    | _ => cases hn
  · intro h
    induction h with
    | base h => exact .addMul h
    | @step _ _ tok _ _ _ _ ho h2 ih =>
      cases tok <;> simp only [addOp, Option.some.injEq, reduceCtorEq] at ho <;> subst ho
      · exact .addAdd ih h2
      · exact .addSub ih h2

theorem cderives_mul {w : List Tok} {t : Node} : CDerives .mul w t ↔ LeftRec mulOp (CDerives .unary) w t := by
  constructor
  · intro h
    generalize hn : CNT.mul = nt at h
    induction h with
    | mulMul _ h2 ih _ => exact .step (ih rfl) rfl h2
    | mulDiv _ h2 ih _ => exact .step (ih rfl) rfl h2
    | mulMod _ h2 ih _ => exact .step (ih rfl) rfl h2
    | mulUnary h _ => exact .base h
    | _ => cases hn
  · intro h
    induction h with
    | base h => exact .mulUnary h
    | @step _ _ tok _ _ _ _ ho h2 ih =>
      cases tok <;> simp only [mulOp, Option.some.injEq, reduceCtorEq] at ho <;> subst ho
      · exact .mulMod ih h2
      · exact .mulMul ih h2
      · exact .mulDiv ih h2

/-! ### Soundness -/

theorem cPrim_sound {e : P} (he : SoundFor e (CDerives .expr)) : SoundFor (pTerm e) (CDerives .prim) := by
  intro ts t r h
  unfold pTerm at h
  split at h
  · simp only [Option.map_eq_some_iff, Prod.mk.injEq] at h
    obtain ⟨v, hv, rfl, rfl⟩ := h
    exact ⟨_, by simp, .primNum (numVal_iff.mp hv)⟩
  · simp only [Option.some.injEq, Prod.mk.injEq] at h
    obtain ⟨rfl, rfl⟩ := h
    exact ⟨[.n], rfl, .primVar⟩
  · simp only [Option.bind_eq_some_iff] at h
    obtain ⟨⟨a, ts'⟩, h1, h2⟩ := h
    obtain ⟨w, rfl, hw⟩ := he _ _ _ h1
    simp only at h2
    split at h2
    · simp only [Option.some.injEq, Prod.mk.injEq] at h2
      obtain ⟨rfl, rfl⟩ := h2
      exact ⟨.lpar :: (w ++ [.rpar]), by simp, .primParen hw⟩
    · cases h2
  · cases h

theorem cUnary_sound {e : P} (he : SoundFor e (CDerives .expr)) (k : Nat) : SoundFor (cUnary e k) (CDerives .unary) := by
  induction k with
  | zero => intro ts t r h; simp [cUnary] at h
  | succ k ih =>
    intro ts t r h
    unfold cUnary at h
    split at h
    · rename_i he; simp at he
    · simp only [Option.map_eq_some_iff, Prod.mk.injEq] at h
      obtain ⟨⟨a, ts'⟩, h1, rfl, rfl⟩ := h
      rename_i k' ts' heq
      cases heq
      obtain ⟨w, rfl, hw⟩ := ih _ _ _ h1
      exact ⟨.bang :: w, rfl, .unaryNot hw⟩
    · simp only [Option.map_eq_some_iff, Prod.mk.injEq] at h
      obtain ⟨⟨a, ts'⟩, h1, rfl, rfl⟩ := h
      rename_i k' ts' heq
      cases heq
      obtain ⟨w, rfl, hw⟩ := ih _ _ _ h1
      exact ⟨.minus :: w, rfl, .unaryNeg hw⟩
    · obtain ⟨w, rfl, hw⟩ := cPrim_sound he _ _ _ h
      exact ⟨w, rfl, .unaryPrim hw⟩

theorem cMul_sound {e : P} (he : SoundFor e (CDerives .expr)) (k : Nat) : SoundFor (cMul e k) (CDerives .mul) :=
  (levelL_sound (cUnary_sound he k)).iff cderives_mul
theorem cAdd_sound {e : P} (he : SoundFor e (CDerives .expr)) (k : Nat) : SoundFor (cAdd e k) (CDerives .add) :=
  (levelL_sound (cMul_sound he k)).iff cderives_add
theorem cRel_sound {e : P} (he : SoundFor e (CDerives .expr)) (k : Nat) : SoundFor (cRel e k) (CDerives .rel) :=
  (levelL_sound (cAdd_sound he k)).iff cderives_rel
theorem cEq_sound {e : P} (he : SoundFor e (CDerives .expr)) (k : Nat) : SoundFor (cEq e k) (CDerives .eq) :=
  (levelL_sound (cRel_sound he k)).iff cderives_eq
theorem cAnd_sound {e : P} (he : SoundFor e (CDerives .expr)) (k : Nat) : SoundFor (cAnd e k) (CDerives .and) :=
  (levelL_sound (cEq_sound he k)).iff cderives_and
theorem cOr_sound {e : P} (he : SoundFor e (CDerives .expr)) (k : Nat) : SoundFor (cOr e k) (CDerives .or) :=
  (levelL_sound (cAnd_sound he k)).iff cderives_or

theorem cExpr_sound (k : Nat) : SoundFor (cExpr k) (CDerives .expr) := by
  induction k with
  | zero => intro ts t r h; simp [cExpr] at h
  | succ k ih =>
    intro ts t r h
    simp only [cExpr, Option.bind_eq_some_iff] at h
    obtain ⟨⟨a, ts'⟩, h1, h2⟩ := h
    obtain ⟨w, rfl, hw⟩ := cOr_sound ih _ _ _ _ h1
    simp only at h2
    split at h2
    · simp only [Option.bind_eq_some_iff] at h2
      obtain ⟨⟨b, ts2⟩, h3, h4⟩ := h2
      obtain ⟨w2, rfl, hw2⟩ := ih _ _ _ h3
      simp only at h4
      split at h4
      · simp only [Option.map_eq_some_iff, Prod.mk.injEq] at h4
        obtain ⟨⟨c, ts3⟩, h5, rfl, rfl⟩ := h4
        obtain ⟨w3, rfl, hw3⟩ := ih _ _ _ h5
        exact ⟨w ++ .quest :: (w2 ++ .colon :: w3), by simp, .exprCond hw hw2 hw3⟩
      · cases h4
    · simp only [Option.some.injEq, Prod.mk.injEq] at h2
      obtain ⟨rfl, rfl⟩ := h2
      exact ⟨w, rfl, .exprOr hw⟩

/-! ### Completeness -/

def cBadRel : Tok → Prop := orOpTok badAdd cRelOp
def cBadEq : Tok → Prop := orOpTok cBadRel cEqOp
def cBadAnd : Tok → Prop := orOpTok cBadEq cAndOp
def cBadOr : Tok → Prop := orOpTok cBadAnd cOrOp
def cBadExpr : Tok → Prop := fun t => cBadOr t ∨ t = .quest

def CExprComplete (m : Nat) (e : P) : Prop := ∀ w t r, CDerives .expr w t → w.length < m → OkAfter cBadExpr r → e (w ++ r) = some (t, r)

theorem cPrim_complete {m : Nat} {e : P} (he : CExprComplete m e) : CompleteFor m (pTerm e) (CDerives .prim) badFactor := by
  intro w t r h hm _
  cases h with
  | primNum hv => simp [pTerm, numVal_iff.mpr hv]
  | primVar => simp [pTerm]
  | @primParen w _ h =>
    simp only [List.length_cons, List.length_append, List.length_nil] at hm
    have h1 := he w t (.rpar :: r) h (by omega)
      (.cons (by simp [cBadExpr, cBadOr, cBadAnd, cBadEq, cBadRel, badAdd, badMul, badFactor, orOpTok, cOrOp, cAndOp, cEqOp, cRelOp, addOp, mulOp]))
    simp [pTerm, h1]

theorem cPrim_start {w : List Tok} {t : Node} (h : CDerives .prim w t) : ∃ s ss, w = s :: ss ∧ s ≠ .bang ∧ s ≠ .minus := by
  cases h with
  | primNum _ => exact ⟨_, _, rfl, by simp, by simp⟩
  | primVar => exact ⟨_, _, rfl, by simp, by simp⟩
  | primParen _ => exact ⟨_, _, rfl, by simp, by simp⟩

theorem cUnary_complete {m : Nat} {e : P} (he : CExprComplete m e) {w : List Tok} {t : Node} (h : CDerives .unary w t) :
    w.length ≤ m → ∀ k, w.length ≤ k → ∀ r, OkAfter badFactor r → cUnary e k (w ++ r) = some (t, r) := by
  generalize hn : CNT.unary = nt at h
  induction h with
  | unaryNot h ih =>
    intro hm k hk r hr
    simp only [List.length_cons] at hm hk
    obtain ⟨k, rfl⟩ : ∃ k', k = k' + 1 := ⟨k - 1, by omega⟩
    simp [cUnary, ih rfl (by omega) k (by omega) r hr]
  | unaryNeg h ih =>
    intro hm k hk r hr
    simp only [List.length_cons] at hm hk
    obtain ⟨k, rfl⟩ : ∃ k', k = k' + 1 := ⟨k - 1, by omega⟩
    simp [cUnary, ih rfl (by omega) k (by omega) r hr]
  | unaryPrim h =>
    intro hm k hk r hr
    have h1 := cPrim_complete he _ _ r h hm hr
    obtain ⟨s, ss, rfl, h2, h3⟩ := cPrim_start h
    simp only [List.length_cons] at hk
    obtain ⟨k, rfl⟩ : ∃ k', k = k' + 1 := ⟨k - 1, by omega⟩
    rw [← h1]
    simp only [List.cons_append]
    unfold cUnary
    split
    · rename_i h; simp at h
    · rename_i h; cases h; exact absurd rfl h2
    · rename_i h; cases h; exact absurd rfl h3
    · rfl
  | _ => cases hn

theorem cMul_complete {m k : Nat} (hk : m ≤ k) {e : P} (hs : SoundFor e (CDerives .expr)) (he : CExprComplete m e) :
    CompleteFor m (cMul e k) (CDerives .mul) badMul :=
  (levelL_complete (cUnary_sound hs k) (fun w _ r h hm hr => cUnary_complete he h hm k (by omega) r hr) (fun _ _ _ h => h)).iff cderives_mul

theorem cAdd_complete {m k : Nat} (hk : m ≤ k) {e : P} (hs : SoundFor e (CDerives .expr)) (he : CExprComplete m e) :
    CompleteFor m (cAdd e k) (CDerives .add) badAdd :=
  (levelL_complete (cMul_sound hs k) (cMul_complete hk hs he) (by intro t o; cases t <;> simp [addOp, badMul, badFactor, orOpTok, mulOp])).iff cderives_add

theorem cRel_complete {m k : Nat} (hk : m ≤ k) {e : P} (hs : SoundFor e (CDerives .expr)) (he : CExprComplete m e) :
    CompleteFor m (cRel e k) (CDerives .rel) cBadRel :=
  (levelL_complete (cAdd_sound hs k) (cAdd_complete hk hs he)
    (by intro t o; cases t <;> simp [cRelOp, badAdd, addOp, badMul, badFactor, orOpTok, mulOp])).iff cderives_rel

theorem cEq_complete {m k : Nat} (hk : m ≤ k) {e : P} (hs : SoundFor e (CDerives .expr)) (he : CExprComplete m e) :
    CompleteFor m (cEq e k) (CDerives .eq) cBadEq :=
  (levelL_complete (cRel_sound hs k) (cRel_complete hk hs he)
    (by intro t o; cases t <;> simp [cEqOp, cBadRel, cRelOp, badAdd, addOp, badMul, badFactor, orOpTok, mulOp])).iff cderives_eq

theorem cAnd_complete {m k : Nat} (hk : m ≤ k) {e : P} (hs : SoundFor e (CDerives .expr)) (he : CExprComplete m e) :
    CompleteFor m (cAnd e k) (CDerives .and) cBadAnd :=
  (levelL_complete (cEq_sound hs k) (cEq_complete hk hs he)
    (by intro t o; cases t <;> simp [cAndOp, cBadEq, cEqOp, cBadRel, cRelOp, badAdd, addOp, badMul, badFactor, orOpTok, mulOp])).iff cderives_and

theorem cOr_complete {m k : Nat} (hk : m ≤ k) {e : P} (hs : SoundFor e (CDerives .expr)) (he : CExprComplete m e) :
    CompleteFor m (cOr e k) (CDerives .or) cBadOr :=
  (levelL_complete (cAnd_sound hs k) (cAnd_complete hk hs he)
    (by intro t o; cases t <;> simp [cOrOp, cBadAnd, cAndOp, cBadEq, cEqOp, cBadRel, cRelOp, badAdd, addOp, badMul, badFactor, orOpTok, mulOp])).iff cderives_or

theorem cExpr_complete (k : Nat) : CExprComplete k (cExpr k) := by
  induction k with
  | zero => intro w t r _ h; omega
  | succ k ih =>
    intro w t r h hm hr
    cases h with
    | @exprCond w1 w2 w3 a b c h1 h2 h3 =>
      simp only [List.length_cons, List.length_append] at hm
      have e1 := cOr_complete (Nat.le_succ k) (cExpr_sound k) ih _ _ (.quest :: (w2 ++ .colon :: (w3 ++ r))) h1 (by omega)
        (.cons (by simp [cBadOr, cBadAnd, cBadEq, cBadRel, badAdd, badMul, badFactor, orOpTok, cOrOp, cAndOp, cEqOp, cRelOp, addOp, mulOp]))
      have e2 := ih _ _ (.colon :: (w3 ++ r)) h2 (by omega)
        (.cons (by simp [cBadExpr, cBadOr, cBadAnd, cBadEq, cBadRel, badAdd, badMul, badFactor, orOpTok, cOrOp, cAndOp, cEqOp, cRelOp, addOp, mulOp]))
      have e3 := ih _ _ r h3 (by omega) hr
      simp [cExpr, e1, e2, e3]
    | exprOr h =>
      have e1 := cOr_complete (Nat.le_succ k) (cExpr_sound k) ih _ _ r h (by omega) (fun _ _ e hb => hr _ _ e (.inl hb))
      simp only [cExpr, e1, Option.bind_some]
      split
      · exact absurd (.inr rfl) (hr _ _ rfl)
      · rfl

theorem cderives_unique {ts : List Tok} {t t' : Node} (h : CDerives .expr ts t) (h' : CDerives .expr ts t') : t = t' := by
  have e1 := cExpr_complete (ts.length + 1) ts t [] h (by omega) (.nil _)
  have e2 := cExpr_complete (ts.length + 1) ts t' [] h' (by omega) (.nil _)
  rw [e1] at e2
  simpa using e2

/-! ### Common formulas -/

def Spec.XNT.c : XNT → CNT
  | .expr => .expr | .or => .or | .and => .and | .eq => .eq | .rel => .rel | .not => .add | .add => .add | .mul => .mul | .factor => .unary | .term => .prim

def Spec.XNT.d : XNT → NT
  | .expr => .expr | .or => .or | .and => .and | .eq => .logical | .rel => .logical | .not => .not | .add => .add | .mul => .mul | .factor => .factor | .term => .term

theorem common_c {nt : XNT} {w : List Tok} {t : Node} (h : Common nt w t) : CDerives nt.c w t := by
  induction h with
  | exprCond _ _ _ h1 h2 h3 => exact .exprCond h1 h2 h3
  | exprOr _ h => exact .exprOr h
  | orOr _ _ h1 h2 => exact .orOr h1 h2
  | orAnd _ h => exact .orAnd h
  | andAnd _ _ h1 h2 => exact .andAnd h1 h2
  | andEq _ h => exact .andEq h
  | eqEq _ _ h1 h2 => exact .eqEq h1 (.relAdd h2)
  | eqNe _ _ h1 h2 => exact .eqNe h1 (.relAdd h2)
  | eqRel _ h => exact .eqRel h
  | relLt _ _ h1 h2 => exact .relLt h1 h2
  | relLte _ _ h1 h2 => exact .relLte h1 h2
  | relGt _ _ h1 h2 => exact .relGt h1 h2
  | relGte _ _ h1 h2 => exact .relGte h1 h2
  | relNot _ h => exact .relAdd h
  | notNot _ h => exact .addMul (.mulUnary (.unaryNot h))
  | notAdd _ h => exact h
  | addAdd _ _ h1 h2 => exact .addAdd h1 h2
  | addSub _ _ h1 h2 => exact .addSub h1 h2
  | addMul _ h => exact .addMul h
  | mulMul _ _ h1 h2 => exact .mulMul h1 h2
  | mulDiv _ _ h1 h2 => exact .mulDiv h1 h2
  | mulMod _ _ h1 h2 => exact .mulMod h1 h2
  | mulFactor _ h => exact .mulUnary h
  | factorNeg _ h => exact .unaryNeg (.unaryPrim h)
  | factorTerm _ h => exact .unaryPrim h
  | termNum h => exact .primNum h
  | termVar => exact .primVar
  | termParen _ h => exact .primParen h

theorem common_d {nt : XNT} {w : List Tok} {t : Node} (h : Common nt w t) : Derives nt.d w t := by
  induction h with
  | exprCond _ _ _ h1 h2 h3 => exact .exprCond h1 h2 h3
  | exprOr _ h => exact .exprOr h
  | orOr _ _ h1 h2 => exact .or1 h1 h2
  | orAnd _ h => exact .orAnd h
  | andAnd _ _ h1 h2 => exact .and1 h1 h2
  | andEq _ h => exact .andLogical h
  | eqEq _ _ h1 h2 => exact .logEq h1 h2
  | eqNe _ _ h1 h2 => exact .logNe h1 h2
  | eqRel _ h => exact h
  | relLt _ _ h1 h2 => exact .logLt h1 h2
  | relLte _ _ h1 h2 => exact .logLte h1 h2
  | relGt _ _ h1 h2 => exact .logGt h1 h2
  | relGte _ _ h1 h2 => exact .logGte h1 h2
  | relNot _ h => exact .logNot h
  | notNot _ h => exact .not1 (.addMul (.mulFactor h))
  | notAdd _ h => exact .notAdd h
  | addAdd _ _ h1 h2 => exact .addAdd h1 h2
  | addSub _ _ h1 h2 => exact .addSub h1 h2
  | addMul _ h => exact .addMul h
  | mulMul _ _ h1 h2 => exact .mulMul h1 h2
  | mulDiv _ _ h1 h2 => exact .mulDiv h1 h2
  | mulMod _ _ h1 h2 => exact .mulMod h1 h2
  | mulFactor _ h => exact .mulFactor h
  | factorNeg _ h => exact .factorNeg h
  | factorTerm _ h => exact .factorTerm h
  | termNum h => exact .termNum (numVal_iff.mpr h)
  | termVar => exact .termVar
  | termParen _ h => exact .termParen h

/-! ### Only common formulas are read in the same way -/

/-- Parentheses count for nothing, other tokens for one. -/
def tokWeight : Tok → Nat
  | .lpar => 0 | .rpar => 0 | _ => 1

def weight (w : List Tok) : Nat := (w.map tokWeight).sum

@[simp] theorem weight_nil : weight [] = 0 := rfl
@[simp] theorem weight_cons (t : Tok) (w : List Tok) : weight (t :: w) = tokWeight t + weight w := by simp [weight]
@[simp] theorem weight_append (v w : List Tok) : weight (v ++ w) = weight v + weight w := by simp [weight]

def treeSize : Node → Nat
  | .var => 1
  | .num _ => 1
  | .unop _ a => 1 + treeSize a
  | .binop _ a b => treeSize a + (1 + treeSize b)
  | .cond a b c => treeSize a + (1 + (treeSize b + (1 + treeSize c)))

theorem derives_weight {nt : NT} {w : List Tok} {t : Node} (h : Derives nt w t) : weight w = treeSize t := by
  induction h <;> simp_all [tokWeight, treeSize]

theorem cderives_weight {nt : CNT} {w : List Tok} {t : Node} (h : CDerives nt w t) : weight w = treeSize t := by
  induction h <;> simp_all [tokWeight, treeSize]

theorem split_same {w₁ w₂ v₁ v₂ : List Tok} {t u : Tok} (ht : tokWeight t = 1) (hu : tokWeight u = 1) (hw : weight w₁ = weight v₁)
    (h : w₁ ++ t :: w₂ = v₁ ++ u :: v₂) : w₁ = v₁ ∧ t = u ∧ w₂ = v₂ := by
  rcases List.append_eq_append_iff.mp h with ⟨m, h1, h2⟩ | ⟨m, h1, h2⟩
  · cases m with
    | nil => simp at h1 h2; exact ⟨h1.symm, h2.1, h2.2⟩
    | cons x m =>
      simp only [List.cons_append, List.cons.injEq] at h2
      rw [h1] at hw
      simp [← h2.1, ht] at hw
  · cases m with
    | nil => simp at h1 h2; exact ⟨h1, h2.1.symm, h2.2.symm⟩
    | cons x m =>
      simp only [List.cons_append, List.cons.injEq] at h2
      rw [h1] at hw
      simp [← h2.1, hu] at hw

/-- Nesting depth at the end. -/
def tokDepth : Tok → Int
  | .lpar => 1 | .rpar => -1 | _ => 0

def depth (w : List Tok) : Int := (w.map tokDepth).sum

@[simp] theorem depth_nil : depth [] = 0 := rfl
@[simp] theorem depth_cons (t : Tok) (w : List Tok) : depth (t :: w) = tokDepth t + depth w := by simp [depth]
@[simp] theorem depth_append (v w : List Tok) : depth (v ++ w) = depth v + depth w := by simp [depth]

/-- Balanced parentheses. -/
def Balanced (w : List Tok) : Prop := depth w = 0 ∧ ∀ v, v <+: w → 0 ≤ depth v

theorem balanced_append {v w : List Tok} (hv : Balanced v) (hw : Balanced w) : Balanced (v ++ w) := by
  refine ⟨by simp [hv.1, hw.1], fun x hx => ?_⟩
  obtain ⟨y, hy⟩ := hx
  rcases List.append_eq_append_iff.mp hy with ⟨m, h1, h2⟩ | ⟨m, h1, h2⟩
  · exact hv.2 x ⟨m, h1.symm⟩
  · have := hw.2 m ⟨y, h2.symm⟩
    rw [h1, depth_append, hv.1]
    omega

theorem balanced_tok {t : Tok} (ht : tokWeight t = 1) : Balanced [t] := by
  have hd : tokDepth t = 0 := by cases t <;> simp [tokWeight, tokDepth] at *
  refine ⟨by simp [hd], fun v hv => ?_⟩
  obtain ⟨m, hm⟩ := hv
  cases v with
  | nil => simp
  | cons x v =>
    simp only [List.cons_append, List.cons.injEq, List.append_eq_nil_iff] at hm
    simp [hm.1, hm.2.1, hd]

theorem balanced_cons {t : Tok} (ht : tokWeight t = 1) {w : List Tok} (hw : Balanced w) : Balanced (t :: w) := balanced_append (balanced_tok ht) hw

theorem balanced_par {w : List Tok} (hw : Balanced w) : Balanced (.lpar :: (w ++ [.rpar])) := by
  refine ⟨by simp [hw.1, tokDepth], fun v hv => ?_⟩
  cases v with
  | nil => simp
  | cons x v =>
    obtain ⟨m, hm⟩ := hv
    simp only [List.cons_append, List.cons.injEq] at hm
    obtain ⟨rfl, hm⟩ := hm
    simp only [depth_cons, tokDepth]
    rcases List.append_eq_append_iff.mp hm with ⟨m', h1, h2⟩ | ⟨m', h1, h2⟩
    · have := hw.2 v ⟨m', h1.symm⟩
      omega
    · rw [h1, depth_append, hw.1]
      cases m' with
      | nil => simp
      | cons y m' =>
        simp only [List.cons_append, List.cons.injEq] at h2
        have : m' = [] := by
          have := h2.2
          simp at this
          exact this.1
        simp [← h2.1, this, tokDepth]

theorem derives_balanced {nt : NT} {w : List Tok} {t : Node} (h : Derives nt w t) : Balanced w := by
  induction h with
  | exprCond _ _ _ h1 h2 h3 => exact balanced_append h1 (balanced_cons rfl (balanced_append h2 (balanced_cons rfl h3)))
  | termNum _ => exact balanced_tok rfl
  | termVar => exact balanced_tok rfl
  | termParen _ h => exact balanced_par h
  | not1 _ h => exact balanced_cons rfl h
  | not2 _ h => exact balanced_cons rfl h
  | factorNeg _ h => exact balanced_cons rfl h
  | exprOr _ h | orAnd _ h | andLogical _ h | logNot _ h | notAdd _ h | addMul _ h | mulFactor _ h | factorTerm _ h => exact h
  | _ => rename_i h1 h2; exact balanced_append h1 (balanced_cons rfl h2)

theorem cderives_balanced {nt : CNT} {w : List Tok} {t : Node} (h : CDerives nt w t) : Balanced w := by
  induction h with
  | exprCond _ _ _ h1 h2 h3 => exact balanced_append h1 (balanced_cons rfl (balanced_append h2 (balanced_cons rfl h3)))
  | primNum _ => exact balanced_tok rfl
  | primVar => exact balanced_tok rfl
  | primParen _ h => exact balanced_par h
  | unaryNot _ h => exact balanced_cons rfl h
  | unaryNeg _ h => exact balanced_cons rfl h
  | exprOr _ h | orAnd _ h | andEq _ h | eqRel _ h | relAdd _ h | addMul _ h | mulUnary _ h | unaryPrim _ h => exact h
  | _ => rename_i h1 h2; exact balanced_append h1 (balanced_cons rfl h2)

/-- A parenthesised text is not an operand followed by an operator. -/
theorem par_not_split {w v₁ v₂ : List Tok} {t : Tok} (hw : Balanced w) (hv : Balanced v₁) (hne : v₁ ≠ []) (ht : tokWeight t = 1)
    (h : Tok.lpar :: (w ++ [.rpar]) = v₁ ++ t :: v₂) : False := by
  cases v₁ with
  | nil => exact hne rfl
  | cons x v =>
    simp only [List.cons_append, List.cons.injEq] at h
    obtain ⟨rfl, h⟩ := h
    have h0 := hv.1
    simp only [depth_cons, tokDepth] at h0
    rcases List.append_eq_append_iff.mp h with ⟨m, h1, h2⟩ | ⟨m, h1, h2⟩
    · cases m with
      | nil => simp at h2; rw [← h2.1] at ht; simp [tokWeight] at ht
      | cons y m => simp at h2
    · have := hw.2 v ⟨m, h1.symm⟩
      omega

/-! #### Inversion -/

/-- The levels of the left and right operands of a binary operator in the crate's grammar. -/
def lhsD : BinOp → NT
  | .or => .or | .and => .and | .eq | .ne | .lt | .lte | .gt | .gte => .logical | .add | .sub => .add | .mul | .div | .mod => .mul
def rhsD : BinOp → NT
  | .or => .and | .and => .logical | .eq | .ne | .lt | .lte | .gt | .gte => .not | .add | .sub => .mul | .mul | .div | .mod => .factor
/-- In the C grammar. -/
def lhsC : BinOp → CNT
  | .or => .or | .and => .and | .eq | .ne => .eq | .lt | .lte | .gt | .gte => .rel | .add | .sub => .add | .mul | .div | .mod => .mul
def rhsC : BinOp → CNT
  | .or => .and | .and => .eq | .eq | .ne => .rel | .lt | .lte | .gt | .gte => .add | .add | .sub => .mul | .mul | .div | .mod => .unary

def opSign : BinOp → Tok
  | .add => .plus | .sub => .minus | .mul => .star | .div => .slash | .mod => .percent | .and => .andand | .or => .oror
  | .eq => .eqeq | .ne => .ne | .lt => .lt | .lte => .le | .gt => .gt | .gte => .ge

/-- The rank of the top operator of a tree; the ranks of the levels. -/
def rankOp : BinOp → Nat
  | .mul | .div | .mod => 2 | .add | .sub => 3 | .lt | .lte | .gt | .gte => 5 | .eq | .ne => 6 | .and => 7 | .or => 8
def rankD : Node → Nat
  | .var => 0 | .num _ => 0 | .unop .neg _ => 1 | .unop .not _ => 4 | .binop o _ _ => rankOp o | .cond _ _ _ => 9
def rankC : Node → Nat
  | .var => 0 | .num _ => 0 | .unop _ _ => 1 | .binop o _ _ => rankOp o | .cond _ _ _ => 9
def NT.rank : NT → Nat
  | .term => 0 | .factor => 1 | .mul => 2 | .add => 3 | .not => 4 | .logical => 6 | .and => 7 | .or => 8 | .expr => 9
def Spec.CNT.rank : CNT → Nat
  | .prim => 0 | .unary => 1 | .mul => 2 | .add => 3 | .rel => 5 | .eq => 6 | .and => 7 | .or => 8 | .expr => 9
def Spec.XNT.rank : XNT → Nat
  | .term => 0 | .factor => 1 | .mul => 2 | .add => 3 | .not => 4 | .rel => 5 | .eq => 6 | .and => 7 | .or => 8 | .expr => 9

/-- The top of a derivation in the crate's grammar. -/
inductive TopD (nt : NT) (w : List Tok) : Node → Prop
  | term {t} : Derives .term w t → TopD nt w t
  | neg {w' a} : w = .minus :: w' → Derives .term w' a → 1 ≤ nt.rank → TopD nt w (.unop .neg a)
  | not {tok w' a} : w = tok :: w' → tokWeight tok = 1 → Derives .add w' a → 4 ≤ nt.rank → TopD nt w (.unop .not a)
  | binop {o w₁ tok w₂ a b} : w = w₁ ++ tok :: w₂ → tokWeight tok = 1 → Derives (lhsD o) w₁ a → Derives (rhsD o) w₂ b → rankOp o ≤ nt.rank → TopD nt w (.binop o a b)
  | cond {w₁ w₂ w₃ a b c} : w = w₁ ++ .quest :: (w₂ ++ .colon :: w₃) → Derives .or w₁ a → Derives .expr w₂ b → Derives .expr w₃ c → 9 ≤ nt.rank →
      TopD nt w (.cond a b c)

theorem TopD.up {nt nt' : NT} {w : List Tok} {t : Node} (h : TopD nt w t) (hr : nt.rank ≤ nt'.rank) : TopD nt' w t := by
  cases h with
  | term h => exact .term h
  | neg h1 h2 h3 => exact .neg h1 h2 (by omega)
  | not h1 h2 h3 h4 => exact .not h1 h2 h3 (by omega)
  | binop h1 h2 h3 h4 h5 => exact .binop h1 h2 h3 h4 (by omega)
  | cond h1 h2 h3 h4 h5 => exact .cond h1 h2 h3 h4 (by omega)

theorem derives_top {nt : NT} {w : List Tok} {t : Node} (h : Derives nt w t) : TopD nt w t := by
  induction h with
  | exprCond h1 h2 h3 => exact .cond rfl h1 h2 h3 (by decide)
  | termNum h => exact .term (.termNum h)
  | termVar => exact .term .termVar
  | termParen h => exact .term (.termParen h)
  | not1 h => exact .not rfl rfl h (by decide)
  | not2 h => exact .not rfl rfl h (by decide)
  | factorNeg h => exact .neg rfl h (by decide)
  | exprOr _ h | orAnd _ h | andLogical _ h | logNot _ h | notAdd _ h | addMul _ h | mulFactor _ h | factorTerm _ h => exact h.up (by decide)
  | _ => rename_i h1 h2 _ _; exact .binop rfl rfl h1 h2 (by decide)

/-- The top of a C derivation. -/
inductive TopC (nt : CNT) (w : List Tok) : Node → Prop
  | prim {t} : CDerives .prim w t → TopC nt w t
  | neg {w' a} : w = .minus :: w' → CDerives .unary w' a → 1 ≤ nt.rank → TopC nt w (.unop .neg a)
  | not {w' a} : w = .bang :: w' → CDerives .unary w' a → 1 ≤ nt.rank → TopC nt w (.unop .not a)
  | binop {o w₁ w₂ a b} : w = w₁ ++ opSign o :: w₂ → CDerives (lhsC o) w₁ a → CDerives (rhsC o) w₂ b → rankOp o ≤ nt.rank → TopC nt w (.binop o a b)
  | cond {w₁ w₂ w₃ a b c} : w = w₁ ++ .quest :: (w₂ ++ .colon :: w₃) → CDerives .or w₁ a → CDerives .expr w₂ b → CDerives .expr w₃ c → 9 ≤ nt.rank →
      TopC nt w (.cond a b c)

theorem TopC.up {nt nt' : CNT} {w : List Tok} {t : Node} (h : TopC nt w t) (hr : nt.rank ≤ nt'.rank) : TopC nt' w t := by
  cases h with
  | prim h => exact .prim h
  | neg h1 h2 h3 => exact .neg h1 h2 (by omega)
  | not h1 h2 h3 => exact .not h1 h2 (by omega)
  | binop h1 h2 h3 h4 => exact .binop h1 h2 h3 (by omega)
  | cond h1 h2 h3 h4 h5 => exact .cond h1 h2 h3 h4 (by omega)

theorem cderives_top {nt : CNT} {w : List Tok} {t : Node} (h : CDerives nt w t) : TopC nt w t := by
  induction h with
  | exprCond h1 h2 h3 => exact .cond rfl h1 h2 h3 (by decide)
  | primNum h => exact .prim (.primNum h)
  | primVar => exact .prim .primVar
  | primParen h => exact .prim (.primParen h)
  | unaryNot h => exact .not rfl h (by decide)
  | unaryNeg h => exact .neg rfl h (by decide)
  | exprOr _ h | orAnd _ h | andEq _ h | eqRel _ h | relAdd _ h | addMul _ h | mulUnary _ h | unaryPrim _ h => exact h.up (by decide)
  | orOr h1 h2 => exact .binop (o := .or) rfl h1 h2 (by decide)
  | andAnd h1 h2 => exact .binop (o := .and) rfl h1 h2 (by decide)
  | eqEq h1 h2 => exact .binop (o := .eq) rfl h1 h2 (by decide)
  | eqNe h1 h2 => exact .binop (o := .ne) rfl h1 h2 (by decide)
  | relLt h1 h2 => exact .binop (o := .lt) rfl h1 h2 (by decide)
  | relLte h1 h2 => exact .binop (o := .lte) rfl h1 h2 (by decide)
  | relGt h1 h2 => exact .binop (o := .gt) rfl h1 h2 (by decide)
  | relGte h1 h2 => exact .binop (o := .gte) rfl h1 h2 (by decide)
  | addAdd h1 h2 => exact .binop (o := .add) rfl h1 h2 (by decide)
  | addSub h1 h2 => exact .binop (o := .sub) rfl h1 h2 (by decide)
  | mulMul h1 h2 => exact .binop (o := .mul) rfl h1 h2 (by decide)
  | mulDiv h1 h2 => exact .binop (o := .div) rfl h1 h2 (by decide)
  | mulMod h1 h2 => exact .binop (o := .mod) rfl h1 h2 (by decide)

/-- Lifting in the C grammar. -/
theorem cprim_up {w : List Tok} {t : Node} (h : CDerives .prim w t) : CDerives .expr w t :=
  .exprOr (.orAnd (.andEq (.eqRel (.relAdd (.addMul (.mulUnary (.unaryPrim h)))))))

theorem common_up {x y : XNT} {w : List Tok} {t : Node} (h : Common x w t) (hr : x.rank ≤ y.rank) : Common y w t := by
  have f1 : ∀ {w t}, Common .term w t → Common .factor w t := .factorTerm
  have f2 : ∀ {w t}, Common .factor w t → Common .mul w t := .mulFactor
  have f3 : ∀ {w t}, Common .mul w t → Common .add w t := .addMul
  have f4 : ∀ {w t}, Common .add w t → Common .not w t := .notAdd
  have f5 : ∀ {w t}, Common .not w t → Common .rel w t := .relNot
  have f6 : ∀ {w t}, Common .rel w t → Common .eq w t := .eqRel
  have f7 : ∀ {w t}, Common .eq w t → Common .and w t := .andEq
  have f8 : ∀ {w t}, Common .and w t → Common .or w t := .orAnd
  have f9 : ∀ {w t}, Common .or w t → Common .expr w t := .exprOr
  cases y <;> cases x <;> simp only [XNT.rank] at hr <;> first
    | exact h
    | omega
    | exact f9 h | exact f8 h | exact f7 h | exact f6 h | exact f5 h | exact f4 h | exact f3 h | exact f2 h | exact f1 h
    | exact f9 (f8 h) | exact f9 (f8 (f7 h)) | exact f9 (f8 (f7 (f6 h))) | exact f9 (f8 (f7 (f6 (f5 h)))) | exact f9 (f8 (f7 (f6 (f5 (f4 h)))))
    | exact f9 (f8 (f7 (f6 (f5 (f4 (f3 h)))))) | exact f9 (f8 (f7 (f6 (f5 (f4 (f3 (f2 h))))))) | exact f9 (f8 (f7 (f6 (f5 (f4 (f3 (f2 (f1 h))))))))
    | exact f8 (f7 h) | exact f8 (f7 (f6 h)) | exact f8 (f7 (f6 (f5 h))) | exact f8 (f7 (f6 (f5 (f4 h))))
    | exact f8 (f7 (f6 (f5 (f4 (f3 h))))) | exact f8 (f7 (f6 (f5 (f4 (f3 (f2 h)))))) | exact f8 (f7 (f6 (f5 (f4 (f3 (f2 (f1 h)))))))
    | exact f7 (f6 h) | exact f7 (f6 (f5 h)) | exact f7 (f6 (f5 (f4 h)))
    | exact f7 (f6 (f5 (f4 (f3 h)))) | exact f7 (f6 (f5 (f4 (f3 (f2 h))))) | exact f7 (f6 (f5 (f4 (f3 (f2 (f1 h))))))
    | exact f6 (f5 h) | exact f6 (f5 (f4 h)) | exact f6 (f5 (f4 (f3 h))) | exact f6 (f5 (f4 (f3 (f2 h)))) | exact f6 (f5 (f4 (f3 (f2 (f1 h)))))
    | exact f5 (f4 h) | exact f5 (f4 (f3 h)) | exact f5 (f4 (f3 (f2 h))) | exact f5 (f4 (f3 (f2 (f1 h))))
    | exact f4 (f3 h) | exact f4 (f3 (f2 h)) | exact f4 (f3 (f2 (f1 h)))
    | exact f3 (f2 h) | exact f3 (f2 (f1 h))
    | exact f2 (f1 h)

/-- The level of the top of a tree in the common formulas. -/
def topX : Node → XNT
  | .var => .term | .num _ => .term | .unop .neg _ => .factor | .unop .not _ => .not
  | .binop o _ _ => match o with
    | .mul | .div | .mod => .mul | .add | .sub => .add | .lt | .lte | .gt | .gte => .rel | .eq | .ne => .eq | .and => .and | .or => .or
  | .cond _ _ _ => .expr

theorem topX_rank (t : Node) : (topX t).rank = rankD t := by
  cases t with
  | unop o a => cases o <;> rfl
  | binop o a b => cases o <;> rfl
  | _ => rfl

theorem rank_le (t : Node) : rankC t = rankD t ∨ (rankC t = 1 ∧ rankD t = 4) := by
  cases t with
  | unop o a => cases o <;> simp [rankC, rankD]
  | _ => exact .inl rfl

/-- The lowest common level of a formula. -/
def Fits (w : List Tok) (t : Node) : Prop := Common .term w t ∨ (Common (topX t) w t ∧ ¬ Derives .term w t ∧ ¬ CDerives .prim w t)

theorem rank_of_derives {nt : NT} {w : List Tok} {t : Node} (h : Derives nt w t) (hn : ¬ Derives .term w t) : rankD t ≤ nt.rank := by
  cases derives_top h with
  | term h => exact absurd h hn
  | neg _ _ hr => exact hr
  | not _ _ _ hr => exact hr
  | binop _ _ _ _ hr => exact hr
  | cond _ _ _ _ hr => exact hr

theorem rank_of_cderives {nt : CNT} {w : List Tok} {t : Node} (h : CDerives nt w t) (hn : ¬ CDerives .prim w t) : rankC t ≤ nt.rank := by
  cases cderives_top h with
  | prim h => exact absurd h hn
  | neg _ _ hr => exact hr
  | not _ _ hr => exact hr
  | binop _ _ _ hr => exact hr
  | cond _ _ _ _ hr => exact hr

/-- From levels in the two grammars to a common level. -/
theorem fits_at {nt : NT} {cn : CNT} {x : XNT} {w : List Tok} {t : Node} (hf : Fits w t) (hd : Derives nt w t) (hc : CDerives cn w t)
    (hx : rankD t ≤ nt.rank → rankC t ≤ cn.rank → rankD t ≤ x.rank) : Common x w t := by
  rcases hf with h | ⟨h, h1, h2⟩
  · exact common_up h (Nat.zero_le _)
  · exact common_up h (by rw [topX_rank]; exact hx (rank_of_derives hd h1) (rank_of_cderives hc h2))

theorem derives_to_expr {nt : NT} {w : List Tok} {t : Node} (h : Derives nt w t) : Derives .expr w t := by
  cases nt with
  | expr => exact h
  | or => exact .exprOr h
  | and => exact .exprOr (.orAnd h)
  | logical => exact .exprOr (.orAnd (.andLogical h))
  | not => exact .exprOr (.orAnd (.andLogical (.logNot h)))
  | add => exact .exprOr (.orAnd (.andLogical (.logNot (.notAdd h))))
  | mul => exact .exprOr (.orAnd (.andLogical (.logNot (.notAdd (.addMul h)))))
  | factor => exact .exprOr (.orAnd (.andLogical (.logNot (.notAdd (.addMul (.mulFactor h))))))
  | term => exact .exprOr (.orAnd (.andLogical (.logNot (.notAdd (.addMul (.mulFactor (.factorTerm h)))))))

theorem cderives_to_expr {nt : CNT} {w : List Tok} {t : Node} (h : CDerives nt w t) : CDerives .expr w t := by
  cases nt with
  | expr => exact h
  | or => exact .exprOr h
  | and => exact .exprOr (.orAnd h)
  | eq => exact .exprOr (.orAnd (.andEq h))
  | rel => exact .exprOr (.orAnd (.andEq (.eqRel h)))
  | add => exact .exprOr (.orAnd (.andEq (.eqRel (.relAdd h))))
  | mul => exact .exprOr (.orAnd (.andEq (.eqRel (.relAdd (.addMul h)))))
  | unary => exact .exprOr (.orAnd (.andEq (.eqRel (.relAdd (.addMul (.mulUnary h))))))
  | prim => exact cprim_up h

theorem derives_nonempty {nt : NT} {w : List Tok} {t : Node} (h : Derives nt w t) : w ≠ [] := by
  obtain ⟨_, _, h, _⟩ := derives_start h
  simp [h]

theorem cderives_nonempty {nt : CNT} {w : List Tok} {t : Node} (h : CDerives nt w t) : w ≠ [] := by
  intro he
  have h1 := cderives_weight h
  rw [he] at h1
  have : ∀ t : Node, 1 ≤ treeSize t := by
    intro t
    cases t <;> simp [treeSize] <;> omega
  have := this t
  simp at h1
  omega

theorem opSign_weight (o : BinOp) : tokWeight (opSign o) = 1 := by cases o <;> rfl

/-- An atom or parenthesis. -/
theorem term_shape {w : List Tok} {t : Node} (h : Derives .term w t) :
    (∃ ds v, w = [.num ds] ∧ t = .num v ∧ numVal ds = some v) ∨ (w = [.n] ∧ t = .var) ∨ ∃ w', w = .lpar :: (w' ++ [.rpar]) ∧ Derives .expr w' t := by
  cases h with
  | termNum h => exact .inl ⟨_, _, rfl, rfl, h⟩
  | termVar => exact .inr (.inl ⟨rfl, rfl⟩)
  | termParen h => exact .inr (.inr ⟨_, rfl, h⟩)

theorem prim_shape {w : List Tok} {t : Node} (h : CDerives .prim w t) :
    (∃ ds v, w = [.num ds] ∧ t = .num v ∧ numVal ds = some v) ∨ (w = [.n] ∧ t = .var) ∨ ∃ w', w = .lpar :: (w' ++ [.rpar]) ∧ CDerives .expr w' t := by
  cases h with
  | primNum h => exact .inl ⟨_, _, rfl, rfl, numVal_iff.mpr h⟩
  | primVar => exact .inr (.inl ⟨rfl, rfl⟩)
  | primParen h => exact .inr (.inr ⟨_, rfl, h⟩)

theorem par_topC {w : List Tok} {nt : CNT} {t : Node} (hb : Balanced w) (h : TopC nt (.lpar :: (w ++ [.rpar])) t) : CDerives .expr w t := by
  cases h with
  | prim h =>
    rcases prim_shape h with ⟨_, _, h, _⟩ | ⟨h, _⟩ | ⟨w', h, h2⟩
    · simp at h
    · simp at h
    · simp at h; rw [h]; exact h2
  | neg h => simp at h
  | not h => simp at h
  | binop h h1 h2 _ => exact (par_not_split hb (cderives_balanced h1) (cderives_nonempty h1) (opSign_weight _) h).elim
  | cond h h1 h2 _ => exact (par_not_split hb (cderives_balanced h1) (cderives_nonempty h1) rfl h).elim

theorem par_topD {w : List Tok} {nt : NT} {t : Node} (hb : Balanced w) (h : TopD nt (.lpar :: (w ++ [.rpar])) t) : Derives .expr w t := by
  cases h with
  | term h =>
    rcases term_shape h with ⟨_, _, h, _⟩ | ⟨h, _⟩ | ⟨w', h, h2⟩
    · simp at h
    · simp at h
    · simp at h; rw [h]; exact h2
  | neg h => simp at h
  | not h h1 => simp at h; rw [← h.1] at h1; simp [tokWeight] at h1
  | binop h h0 h1 h2 _ => exact (par_not_split hb (derives_balanced h1) (derives_nonempty h1) h0 h).elim
  | cond h h1 h2 _ => exact (par_not_split hb (derives_balanced h1) (derives_nonempty h1) rfl h).elim

/-- The binary operators in the common formulas. -/
theorem common_binop {o : BinOp} {w₁ w₂ : List Tok} {a b : Node} (h1 : Common (topX (.binop o a b)) w₁ a)
    (h2 : Common (match o with | .mul | .div | .mod => .factor | .add | .sub => .mul | .and => .eq | .or => .and | _ => .not) w₂ b) :
    Common (topX (.binop o a b)) (w₁ ++ opSign o :: w₂) (.binop o a b) := by
  cases o with
  | add => exact .addAdd h1 h2
  | sub => exact .addSub h1 h2
  | mul => exact .mulMul h1 h2
  | div => exact .mulDiv h1 h2
  | mod => exact .mulMod h1 h2
  | and => exact .andAnd h1 h2
  | or => exact .orOr h1 h2
  | eq => exact .eqEq h1 h2
  | ne => exact .eqNe h1 h2
  | lt => exact .relLt h1 h2
  | lte => exact .relLte h1 h2
  | gt => exact .relGt h1 h2
  | gte => exact .relGte h1 h2

theorem fits (k : Nat) : ∀ (w : List Tok) (t : Node), w.length ≤ k → Derives .expr w t → CDerives .expr w t → Fits w t := by
  induction k with
  | zero =>
    intro w t hk hd _
    have := derives_nonempty hd
    have := List.length_pos_iff.mpr this
    omega
  | succ k ih =>
    intro w t hk hd hc
    by_cases ht : Derives .term w t
    · left
      rcases term_shape ht with ⟨ds, v, rfl, rfl, h⟩ | ⟨rfl, rfl⟩ | ⟨w', rfl, h⟩
      · exact .termNum (numVal_iff.mp h)
      · exact .termVar
      · have hc' := par_topC (derives_balanced h) (cderives_top hc)
        simp only [List.length_cons, List.length_append, List.length_nil] at hk
        have hf := ih w' t (by omega) h hc'
        have hr : rankD t ≤ 9 := by
          cases t with
          | unop o a => cases o <;> simp [rankD]
          | binop o a b => cases o <;> simp [rankD, rankOp]
          | _ => simp [rankD]
        exact .termParen (fits_at hf h hc' (fun _ _ => hr))
    by_cases hp : CDerives .prim w t
    · exfalso
      rcases prim_shape hp with ⟨ds, v, rfl, rfl, h⟩ | ⟨rfl, rfl⟩ | ⟨w', rfl, h⟩
      · exact ht (.termNum h)
      · exact ht .termVar
      · exact ht (.termParen (par_topD (cderives_balanced h) (derives_top hd)))
    refine .inr ⟨?_, ht, hp⟩
    cases derives_top hd with
    | term h => exact absurd h ht
    | @neg w' a h1 h2 _ =>
      cases cderives_top hc with
      | prim h => exact absurd h hp
      | neg h3 h4 _ =>
        rw [h1, List.cons.injEq] at h3
        obtain ⟨_, rfl⟩ := h3
        subst h1
        simp only [List.length_cons] at hk
        have hf := ih w' a (by omega) (derives_to_expr h2) (cderives_to_expr h4)
        exact .factorNeg (fits_at hf h2 h4 (fun h _ => h))
    | @not tok w' a h1 h0 h2 _ =>
      cases cderives_top hc with
      | prim h => exact absurd h hp
      | not h3 h4 _ =>
        rw [h1, List.cons.injEq] at h3
        obtain ⟨rfl, rfl⟩ := h3
        subst h1
        simp only [List.length_cons] at hk
        have hf := ih w' a (by omega) (derives_to_expr h2) (cderives_to_expr h4)
        refine .notNot (fits_at hf h2 h4 (fun h h' => ?_))
        have := rank_le a
        simp only [NT.rank, CNT.rank, XNT.rank] at *
        omega
    | @binop o w₁ tok w₂ a b h1 h0 h2 h3 _ =>
      cases cderives_top hc with
      | prim h => exact absurd h hp
      | @binop _ v₁ v₂ _ _ h4 h5 h6 _ =>
        rw [h1] at h4
        obtain ⟨rfl, rfl, rfl⟩ := split_same h0 (opSign_weight o) (by rw [derives_weight h2, cderives_weight h5]) h4
        subst h1
        simp only [List.length_cons, List.length_append] at hk
        have f1 := ih _ _ (by omega) (derives_to_expr h2) (cderives_to_expr h5)
        have f2 := ih _ _ (by omega) (derives_to_expr h3) (cderives_to_expr h6)
        have ra := rank_le a
        have rb := rank_le b
        refine common_binop (fits_at f1 h2 h5 ?_) (fits_at f2 h3 h6 ?_)
        · intro r1 r2
          rw [topX_rank]
          cases o <;> simp only [lhsD, lhsC, rankD, rankOp, NT.rank, CNT.rank] at * <;> omega
        · intro r1 r2
          cases o <;> simp only [rhsD, rhsC, NT.rank, CNT.rank, XNT.rank] at * <;> omega
    | @cond w₁ w₂ w₃ a b c h1 h2 h3 h4 _ =>
      cases cderives_top hc with
      | prim h => exact absurd h hp
      | @cond v₁ v₂ v₃ _ _ _ g1 g2 g3 g4 _ =>
        rw [h1] at g1
        obtain ⟨rfl, _, e⟩ := split_same rfl rfl (by rw [derives_weight h2, cderives_weight g2]) g1
        obtain ⟨rfl, _, rfl⟩ := split_same rfl rfl (by rw [derives_weight h3, cderives_weight g3]) e
        subst h1
        simp only [List.length_cons, List.length_append] at hk
        exact .exprCond (fits_at (ih _ _ (by omega) (derives_to_expr h2) (cderives_to_expr g2)) h2 g2 (fun h _ => h))
          (fits_at (ih _ _ (by omega) h3 g3) h3 g3 (fun h _ => h)) (fits_at (ih _ _ (by omega) h4 g4) h4 g4 (fun h _ => h))

/-- The formulas that both grammars read as the same tree are the common ones. -/
theorem common_iff {w : List Tok} {t : Node} : (Derives .expr w t ∧ CDerives .expr w t) ↔ Common .expr w t :=
  ⟨fun ⟨h1, h2⟩ => fits_at (fits _ w t (Nat.le_refl _) h1 h2) h1 h2 (fun h _ => h), fun h => ⟨common_d h, common_c h⟩⟩

end Verif
