import Verif.Model.Formula

/-! The recursive-descent parser accepts exactly the grammar. -/

namespace Verif

/-- A left-recursive level over operands `D`. -/
inductive LeftRec (op : Tok → Option BinOp) (D : List Tok → Node → Prop) : List Tok → Node → Prop
  | base {w t} : D w t → LeftRec op D w t
  | step {w₁ w₂ tok o a b} : LeftRec op D w₁ a → op tok = some o → D w₂ b → LeftRec op D (w₁ ++ tok :: w₂) (.binop o a b)

/-- The first token of `r`, if any, is not in `bad`. -/
def OkAfter (bad : Tok → Prop) (r : List Tok) : Prop := ∀ t ts, r = t :: ts → ¬ bad t

theorem OkAfter.nil (bad : Tok → Prop) : OkAfter bad [] := fun _ _ h => nomatch h

theorem OkAfter.cons {bad : Tok → Prop} {t : Tok} {ts : List Tok} (h : ¬ bad t) : OkAfter bad (t :: ts) := by
  intro _ _ e; cases e; exact h

/-- `p` consumes only words of `D`. -/
def SoundFor (p : P) (D : List Tok → Node → Prop) : Prop := ∀ ts t r, p ts = some (t, r) → ∃ w, ts = w ++ r ∧ D w t

/-- `p` recognises the words of `D` of length at most `m`, when no token of `bad` follows. -/
def CompleteFor (m : Nat) (p : P) (D : List Tok → Node → Prop) (bad : Tok → Prop) : Prop :=
  ∀ w t r, D w t → w.length ≤ m → OkAfter bad r → p (w ++ r) = some (t, r)

theorem loopL_sound {op : Tok → Option BinOp} {sub : P} {D : List Tok → Node → Prop} (hs : SoundFor sub D) (k : Nat) :
    ∀ w l ts t r, LeftRec op D w l → loopL op sub k l ts = some (t, r) → ∃ w', ts = w' ++ r ∧ LeftRec op D (w ++ w') t := by
  induction k with
  | zero => intro w l ts t r _ h; simp [loopL] at h
  | succ k ih =>
    intro w l ts t r hl h
    cases ts with
    | nil =>
      simp only [loopL, Option.some.injEq, Prod.mk.injEq] at h
      obtain ⟨rfl, rfl⟩ := h
      exact ⟨[], rfl, by simpa using hl⟩
    | cons tok ts =>
      simp only [loopL] at h
      cases ho : op tok with
      | none =>
        rw [ho] at h
        simp only [Option.some.injEq, Prod.mk.injEq] at h
        obtain ⟨rfl, rfl⟩ := h
        exact ⟨[], rfl, by simpa using hl⟩
      | some o =>
        rw [ho] at h
        simp only [Option.bind_eq_some_iff] at h
        obtain ⟨⟨b, ts'⟩, h1, h2⟩ := h
        obtain ⟨w2, rfl, hb⟩ := hs _ _ _ h1
        obtain ⟨w', rfl, hh⟩ := ih _ _ _ _ _ (.step hl ho hb) h2
        exact ⟨tok :: (w2 ++ w'), by simp, by simpa using hh⟩

theorem levelL_sound {op : Tok → Option BinOp} {sub : P} {D : List Tok → Node → Prop} (hs : SoundFor sub D) :
    SoundFor (levelL op sub) (LeftRec op D) := by
  intro ts t r h
  simp only [levelL, Option.bind_eq_some_iff] at h
  obtain ⟨⟨a, ts'⟩, h1, h2⟩ := h
  obtain ⟨w, rfl, ha⟩ := hs _ _ _ h1
  obtain ⟨w', rfl, hh⟩ := loopL_sound hs _ _ _ _ _ _ (.base ha) h2
  exact ⟨w ++ w', by simp, hh⟩

theorem loopL_fuel {op : Tok → Option BinOp} {sub : P} {D : List Tok → Node → Prop} (hs : SoundFor sub D) :
    ∀ k k' l r, r.length < k → r.length < k' → loopL op sub k l r = loopL op sub k' l r := by
  intro k
  induction k with
  | zero => intro k' l r h; omega
  | succ k ih =>
    intro k' l r h h'
    cases k' with
    | zero => omega
    | succ k' =>
      cases r with
      | nil => rfl
      | cons tok r =>
        simp only [loopL]
        cases op tok with
        | none => rfl
        | some o =>
          show (sub r).bind _ = (sub r).bind _
          cases hr : sub r with
          | none => rfl
          | some p =>
            obtain ⟨w, hw, _⟩ := hs r p.1 p.2 hr
            have : p.2.length ≤ r.length := by rw [hw]; simp
            simp only [List.length_cons] at h h'
            exact ih k' _ _ (by omega) (by omega)

/-- The tokens that an operator level adds to those that continue a word. -/
def orOpTok (bad : Tok → Prop) (op : Tok → Option BinOp) : Tok → Prop := fun t => bad t ∨ (op t).isSome = true

theorem levelL_loop {op : Tok → Option BinOp} {sub : P} {D : List Tok → Node → Prop} {bad : Tok → Prop} {m : Nat} (hs : SoundFor sub D)
    (hc : CompleteFor m sub D bad) (hop : ∀ t o, op t = some o → ¬ bad t) {w : List Tok} {t : Node} (h : LeftRec op D w t) :
    w.length ≤ m → ∀ r, OkAfter bad r → levelL op sub (w ++ r) = loopL op sub (r.length + 1) t r := by
  induction h with
  | base h =>
    intro hm r hr
    simp only [levelL, hc _ _ _ h hm hr, Option.bind_some]
  | @step w₁ w₂ tok o a b h1 ho h2 ih =>
    intro hm r hr
    simp only [List.length_append, List.length_cons] at hm
    have := ih (by omega) (tok :: (w₂ ++ r)) (.cons (hop _ _ ho))
    rw [List.append_assoc, List.cons_append, this]
    simp only [List.length_cons, loopL, ho, hc _ _ _ h2 (by omega) hr, Option.bind_some]
    exact loopL_fuel hs _ _ _ _ (by simp; omega) (by omega)

theorem levelL_complete {op : Tok → Option BinOp} {sub : P} {D : List Tok → Node → Prop} {bad : Tok → Prop} {m : Nat} (hs : SoundFor sub D)
    (hc : CompleteFor m sub D bad) (hop : ∀ t o, op t = some o → ¬ bad t) : CompleteFor m (levelL op sub) (LeftRec op D) (orOpTok bad op) := by
  intro w t r h hm hr
  rw [levelL_loop hs hc hop h hm r (fun _ _ e hb => hr _ _ e (.inl hb))]
  cases r with
  | nil => rfl
  | cons tok r =>
    simp only [loopL]
    cases ho : op tok with
    | none => rfl
    | some o => exact absurd (.inr (by simp [ho])) (hr _ _ rfl)

/-! ### The levels of the grammar -/

theorem derives_or {w : List Tok} {t : Node} : Derives .or w t ↔ LeftRec orOp (Derives .and) w t := by
  constructor
  · intro h
    generalize hn : NT.or = nt at h
    induction h with
    | or1 _ h2 ih _ => exact .step (ih rfl) rfl h2
    | or2 _ h2 ih _ => exact .step (ih rfl) rfl h2
    | orAnd h _ => exact .base h
    | _ => cases hn
  · intro h
    induction h with
    | base h => exact .orAnd h
    | @step _ _ tok _ _ _ _ ho h2 ih =>
      cases tok <;> simp only [orOp, Option.some.injEq, reduceCtorEq] at ho <;> subst ho
      · exact .or2 ih h2
      · exact .or1 ih h2

theorem derives_and {w : List Tok} {t : Node} : Derives .and w t ↔ LeftRec andOp (Derives .logical) w t := by
  constructor
  · intro h
    generalize hn : NT.and = nt at h
    induction h with
    | and1 _ h2 ih _ => exact .step (ih rfl) rfl h2
    | and2 _ h2 ih _ => exact .step (ih rfl) rfl h2
    | andLogical h _ => exact .base h
    | _ => cases hn
  · intro h
    induction h with
    | base h => exact .andLogical h
    | @step _ _ tok _ _ _ _ ho h2 ih =>
      cases tok <;> simp only [andOp, Option.some.injEq, reduceCtorEq] at ho <;> subst ho
      · exact .and1 ih h2
      · exact .and2 ih h2

theorem derives_logical {w : List Tok} {t : Node} : Derives .logical w t ↔ LeftRec logicalOp (Derives .not) w t := by
  constructor
  · intro h
    generalize hn : NT.logical = nt at h
    induction h with
    | logEq _ h2 ih _ => exact .step (ih rfl) rfl h2
    | logNe _ h2 ih _ => exact .step (ih rfl) rfl h2
    | logLt _ h2 ih _ => exact .step (ih rfl) rfl h2
    | logLte _ h2 ih _ => exact .step (ih rfl) rfl h2
    | logGt _ h2 ih _ => exact .step (ih rfl) rfl h2
    | logGte _ h2 ih _ => exact .step (ih rfl) rfl h2
    | logNot h _ => exact .base h
    | _ => cases hn
  · intro h
    induction h with
    | base h => exact .logNot h
    | @step _ _ tok _ _ _ _ ho h2 ih =>
      cases tok <;> simp only [logicalOp, Option.some.injEq, reduceCtorEq] at ho <;> subst ho
      · exact .logNe ih h2
      · exact .logLt ih h2
      · exact .logLte ih h2
      · exact .logEq ih h2
      · exact .logGt ih h2
      · exact .logGte ih h2

theorem derives_add {w : List Tok} {t : Node} : Derives .add w t ↔ LeftRec addOp (Derives .mul) w t := by
  constructor
  · intro h
    generalize hn : NT.add = nt at h
    induction h with
    | addAdd _ h2 ih _ => exact .step (ih rfl) rfl h2
    | addSub _ h2 ih _ => exact .step (ih rfl) rfl h2
    | addMul h _ => exact .base h
    | _ => cases hn
  · intro h
    induction h with
    | base h => exact .addMul h
    | @step _ _ tok _ _ _ _ ho h2 ih =>
      cases tok <;> simp only [addOp, Option.some.injEq, reduceCtorEq] at ho <;> subst ho
      · exact .addAdd ih h2
      · exact .addSub ih h2

theorem derives_mul {w : List Tok} {t : Node} : Derives .mul w t ↔ LeftRec mulOp (Derives .factor) w t := by
  constructor
  · intro h
    generalize hn : NT.mul = nt at h
    induction h with
    | mulMul _ h2 ih _ => exact .step (ih rfl) rfl h2
    | mulDiv _ h2 ih _ => exact .step (ih rfl) rfl h2
    | mulMod _ h2 ih _ => exact .step (ih rfl) rfl h2
    | mulFactor h _ => exact .base h
    | _ => cases hn
  · intro h
    induction h with
    | base h => exact .mulFactor h
    | @step _ _ tok _ _ _ _ ho h2 ih =>
      cases tok <;> simp only [mulOp, Option.some.injEq, reduceCtorEq] at ho <;> subst ho
      · exact .mulMod ih h2
      · exact .mulMul ih h2
      · exact .mulDiv ih h2

theorem SoundFor.iff {p : P} {D D' : List Tok → Node → Prop} (h : SoundFor p D) (hi : ∀ {w t}, D' w t ↔ D w t) : SoundFor p D' :=
  fun ts t r hp => let ⟨w, e, d⟩ := h ts t r hp; ⟨w, e, hi.mpr d⟩

theorem CompleteFor.iff {m : Nat} {p : P} {D D' : List Tok → Node → Prop} {bad : Tok → Prop} (h : CompleteFor m p D bad) (hi : ∀ {w t}, D' w t ↔ D w t) :
    CompleteFor m p D' bad := fun w t r d hm hr => h w t r (hi.mp d) hm hr

/-! ### Soundness -/

theorem pTerm_sound {e : P} (he : SoundFor e (Derives .expr)) : SoundFor (pTerm e) (Derives .term) := by
  intro ts t r h
  unfold pTerm at h
  split at h
  · simp only [Option.map_eq_some_iff, Prod.mk.injEq] at h
    obtain ⟨v, hv, rfl, rfl⟩ := h
    exact ⟨_, by simp, .termNum hv⟩
  · simp only [Option.some.injEq, Prod.mk.injEq] at h
    obtain ⟨rfl, rfl⟩ := h
    exact ⟨[.n], rfl, .termVar⟩
  · simp only [Option.bind_eq_some_iff] at h
    obtain ⟨⟨a, ts'⟩, h1, h2⟩ := h
    obtain ⟨w, rfl, hw⟩ := he _ _ _ h1
    simp only at h2
    split at h2
    · simp only [Option.some.injEq, Prod.mk.injEq] at h2
      obtain ⟨rfl, rfl⟩ := h2
      exact ⟨.lpar :: (w ++ [.rpar]), by simp, .termParen hw⟩
    · cases h2
  · cases h

theorem pFactor_sound {e : P} (he : SoundFor e (Derives .expr)) : SoundFor (pFactor e) (Derives .factor) := by
  intro ts t r h
  unfold pFactor at h
  split at h
  · simp only [Option.map_eq_some_iff, Prod.mk.injEq] at h
    obtain ⟨⟨a, ts'⟩, h1, rfl, rfl⟩ := h
    obtain ⟨w, rfl, hw⟩ := pTerm_sound he _ _ _ h1
    exact ⟨.minus :: w, rfl, .factorNeg hw⟩
  · obtain ⟨w, rfl, hw⟩ := pTerm_sound he _ _ _ h
    exact ⟨w, rfl, .factorTerm hw⟩

theorem pMul_sound {e : P} (he : SoundFor e (Derives .expr)) : SoundFor (pMul e) (Derives .mul) :=
  (levelL_sound (pFactor_sound he)).iff derives_mul

theorem pAdd_sound {e : P} (he : SoundFor e (Derives .expr)) : SoundFor (pAdd e) (Derives .add) :=
  (levelL_sound (pMul_sound he)).iff derives_add

theorem pNot_sound {e : P} (he : SoundFor e (Derives .expr)) : SoundFor (pNot e) (Derives .not) := by
  intro ts t r h
  unfold pNot at h
  split at h
  · simp only [Option.map_eq_some_iff, Prod.mk.injEq] at h
    obtain ⟨⟨a, ts'⟩, h1, rfl, rfl⟩ := h
    obtain ⟨w, rfl, hw⟩ := pAdd_sound he _ _ _ h1
    exact ⟨.bang :: w, rfl, .not1 hw⟩
  · simp only [Option.map_eq_some_iff, Prod.mk.injEq] at h
    obtain ⟨⟨a, ts'⟩, h1, rfl, rfl⟩ := h
    obtain ⟨w, rfl, hw⟩ := pAdd_sound he _ _ _ h1
    exact ⟨.kwNot :: w, rfl, .not2 hw⟩
  · obtain ⟨w, rfl, hw⟩ := pAdd_sound he _ _ _ h
    exact ⟨w, rfl, .notAdd hw⟩

theorem pLogical_sound {e : P} (he : SoundFor e (Derives .expr)) : SoundFor (pLogical e) (Derives .logical) :=
  (levelL_sound (pNot_sound he)).iff derives_logical

theorem pAnd_sound {e : P} (he : SoundFor e (Derives .expr)) : SoundFor (pAnd e) (Derives .and) :=
  (levelL_sound (pLogical_sound he)).iff derives_and

theorem pOr_sound {e : P} (he : SoundFor e (Derives .expr)) : SoundFor (pOr e) (Derives .or) :=
  (levelL_sound (pAnd_sound he)).iff derives_or

theorem pExpr_sound (k : Nat) : SoundFor (pExpr k) (Derives .expr) := by
  induction k with
  | zero => intro ts t r h; simp [pExpr] at h
  | succ k ih =>
    intro ts t r h
    simp only [pExpr, Option.bind_eq_some_iff] at h
    obtain ⟨⟨a, ts'⟩, h1, h2⟩ := h
    obtain ⟨w, rfl, hw⟩ := pOr_sound ih _ _ _ h1
    simp only at h2
    split at h2
    · simp only [Option.bind_eq_some_iff] at h2
      obtain ⟨⟨b, ts2⟩, h3, h4⟩ := h2
      obtain ⟨w2, rfl, hw2⟩ := ih _ _ _ h3
      simp only at h4
      split at h4
      · simp only [Option.map_eq_some_iff, Prod.mk.injEq] at h4
        obtain ⟨⟨c, ts3⟩, h5, rfl, rfl⟩ := h4
        obtain ⟨w3, rfl, hw3⟩ := ih _ _ _ h5
        exact ⟨w ++ .quest :: (w2 ++ .colon :: w3), by simp, .exprCond hw hw2 hw3⟩
      · cases h4
    · simp only [Option.some.injEq, Prod.mk.injEq] at h2
      obtain ⟨rfl, rfl⟩ := h2
      exact ⟨w, rfl, .exprOr hw⟩

/-! ### Completeness -/

/-- A word of the grammar is not empty and starts with one of these tokens. -/
def startTok (nt : NT) (t : Tok) : Prop :=
  t = .n ∨ (∃ ds, t = .num ds) ∨ t = .lpar ∨ (nt ≠ .term ∧ t = .minus) ∨ (nt ≠ .term ∧ nt ≠ .factor ∧ nt ≠ .mul ∧ nt ≠ .add ∧ (t = .bang ∨ t = .kwNot))

theorem derives_start {nt : NT} {w : List Tok} {t : Node} (h : Derives nt w t) : ∃ s ss, w = s :: ss ∧ startTok nt s := by
  induction h with
  | termNum _ => exact ⟨_, _, rfl, .inr (.inl ⟨_, rfl⟩)⟩
  | termVar => exact ⟨_, _, rfl, .inl rfl⟩
  | termParen _ _ => exact ⟨_, _, rfl, .inr (.inr (.inl rfl))⟩
  | factorNeg _ _ => exact ⟨_, _, rfl, .inr (.inr (.inr (.inl ⟨by decide, rfl⟩)))⟩
  | not1 _ _ => exact ⟨_, _, rfl, by simp [startTok]⟩
  | not2 _ _ => exact ⟨_, _, rfl, by simp [startTok]⟩
  | notAdd _ ih => obtain ⟨s, ss, rfl, h⟩ := ih; exact ⟨s, ss, rfl, by simp_all [startTok]; try grind⟩
  | orAnd _ ih => obtain ⟨s, ss, rfl, h⟩ := ih; exact ⟨s, ss, rfl, by simp_all [startTok]⟩
  | andLogical _ ih => obtain ⟨s, ss, rfl, h⟩ := ih; exact ⟨s, ss, rfl, by simp_all [startTok]⟩
  | logNot _ ih => obtain ⟨s, ss, rfl, h⟩ := ih; exact ⟨s, ss, rfl, by simp_all [startTok]⟩
  | exprOr _ ih => obtain ⟨s, ss, rfl, h⟩ := ih; exact ⟨s, ss, rfl, by simp_all [startTok]⟩
  | addMul _ ih => obtain ⟨s, ss, rfl, h⟩ := ih; exact ⟨s, ss, rfl, by simp_all [startTok]⟩
  | mulFactor _ ih => obtain ⟨s, ss, rfl, h⟩ := ih; exact ⟨s, ss, rfl, by simp_all [startTok]⟩
  | factorTerm _ ih => obtain ⟨s, ss, rfl, h⟩ := ih; exact ⟨s, ss, rfl, by simp_all [startTok]; grind⟩
  | exprCond _ _ _ ih _ _ => obtain ⟨s, ss, rfl, h⟩ := ih; exact ⟨s, _, rfl, by simp_all [startTok]⟩
  | _ => rename_i ih _; obtain ⟨s, ss, rfl, h⟩ := ih; exact ⟨s, _, rfl, by simp_all [startTok]⟩

/-- Tokens that continue a `Term` or `Factor`: none. -/
def badFactor : Tok → Prop := fun _ => False
/-- Tokens that continue a `Mul`. -/
def badMul : Tok → Prop := orOpTok badFactor mulOp
/-- Tokens that continue an `Add` or `Not`. -/
def badAdd : Tok → Prop := orOpTok badMul addOp
/-- Tokens that continue a `Logical`. -/
def badLogical : Tok → Prop := orOpTok badAdd logicalOp
/-- Tokens that continue an `And`. -/
def badAnd : Tok → Prop := orOpTok badLogical andOp
/-- Tokens that continue an `Or`. -/
def badOr : Tok → Prop := orOpTok badAnd orOp
/-- Tokens that continue an `Expr`. -/
def badExpr : Tok → Prop := fun t => badOr t ∨ t = .quest

/-- What the completeness of `pExpr` is used for. -/
def ExprComplete (m : Nat) (e : P) : Prop := ∀ w t r, Derives .expr w t → w.length < m → OkAfter badExpr r → e (w ++ r) = some (t, r)

theorem pTerm_complete {m : Nat} {e : P} (he : ExprComplete m e) : CompleteFor m (pTerm e) (Derives .term) badFactor := by
  intro w t r h hm _
  cases h with
  | termNum hv => simp [pTerm, hv]
  | termVar => simp [pTerm]
  | @termParen w _ h =>
    simp only [List.length_cons, List.length_append, List.length_nil] at hm
    have h1 := he w t (.rpar :: r) h (by omega) (.cons (by simp [badExpr, badOr, badAnd, badLogical, badAdd, badMul, badFactor, orOpTok, orOp, andOp, logicalOp, addOp, mulOp]))
    simp [pTerm, h1]

theorem pFactor_complete {m : Nat} {e : P} (he : ExprComplete m e) : CompleteFor m (pFactor e) (Derives .factor) badFactor := by
  intro w t r h hm hr
  cases h with
  | factorNeg h =>
    simp only [List.length_cons] at hm
    have := pTerm_complete he _ _ r h (by omega) hr
    simp [pFactor, this]
  | factorTerm h =>
    have h1 := pTerm_complete he _ _ r h hm hr
    obtain ⟨s, ss, rfl, hs⟩ := derives_start h
    have : s ≠ .minus := by
      rintro rfl
      simp [startTok] at hs
    rw [← h1]
    simp only [List.cons_append]
    unfold pFactor
    split
    · rename_i h; cases h; exact absurd rfl this
    · rfl

theorem pMul_complete {m : Nat} {e : P} (hs : SoundFor e (Derives .expr)) (he : ExprComplete m e) : CompleteFor m (pMul e) (Derives .mul) badMul :=
  (levelL_complete (pFactor_sound hs) (pFactor_complete he) (fun _ _ _ h => h)).iff derives_mul

theorem pAdd_complete {m : Nat} {e : P} (hs : SoundFor e (Derives .expr)) (he : ExprComplete m e) : CompleteFor m (pAdd e) (Derives .add) badAdd :=
  (levelL_complete (pMul_sound hs) (pMul_complete hs he) (by intro t o; cases t <;> simp [addOp, badMul, badFactor, orOpTok, mulOp])).iff derives_add

theorem pNot_complete {m : Nat} {e : P} (hs : SoundFor e (Derives .expr)) (he : ExprComplete m e) : CompleteFor m (pNot e) (Derives .not) badAdd := by
  intro w t r h hm hr
  cases h with
  | not1 h =>
    simp only [List.length_cons] at hm
    simp [pNot, pAdd_complete hs he _ _ r h (by omega) hr]
  | not2 h =>
    simp only [List.length_cons] at hm
    simp [pNot, pAdd_complete hs he _ _ r h (by omega) hr]
  | notAdd h =>
    have h1 := pAdd_complete hs he _ _ r h hm hr
    obtain ⟨s, ss, rfl, hs⟩ := derives_start h
    have : s ≠ .bang ∧ s ≠ .kwNot := by
      constructor <;> rintro rfl <;> simp [startTok] at hs
    rw [← h1]
    simp only [List.cons_append]
    unfold pNot
    split
    · rename_i h; cases h; exact absurd rfl this.1
    · rename_i h; cases h; exact absurd rfl this.2
    · rfl

theorem pLogical_complete {m : Nat} {e : P} (hs : SoundFor e (Derives .expr)) (he : ExprComplete m e) : CompleteFor m (pLogical e) (Derives .logical) badLogical :=
  (levelL_complete (pNot_sound hs) (pNot_complete hs he) (by intro t o; cases t <;> simp [logicalOp, badAdd, addOp, badMul, badFactor, orOpTok, mulOp])).iff derives_logical

theorem pAnd_complete {m : Nat} {e : P} (hs : SoundFor e (Derives .expr)) (he : ExprComplete m e) : CompleteFor m (pAnd e) (Derives .and) badAnd :=
  (levelL_complete (pLogical_sound hs) (pLogical_complete hs he)
    (by intro t o; cases t <;> simp [andOp, badLogical, logicalOp, badAdd, addOp, badMul, badFactor, orOpTok, mulOp])).iff derives_and

theorem pOr_complete {m : Nat} {e : P} (hs : SoundFor e (Derives .expr)) (he : ExprComplete m e) : CompleteFor m (pOr e) (Derives .or) badOr :=
  (levelL_complete (pAnd_sound hs) (pAnd_complete hs he)
    (by intro t o; cases t <;> simp [orOp, badAnd, andOp, badLogical, logicalOp, badAdd, addOp, badMul, badFactor, orOpTok, mulOp])).iff derives_or

theorem quest_ok : ¬ badOr .quest := by
  simp [badOr, orOp, badAnd, andOp, badLogical, logicalOp, badAdd, addOp, badMul, badFactor, orOpTok, mulOp]

theorem colon_ok : ¬ badExpr .colon := by
  simp [badExpr, badOr, orOp, badAnd, andOp, badLogical, logicalOp, badAdd, addOp, badMul, badFactor, orOpTok, mulOp]

theorem pExpr_complete (k : Nat) : ExprComplete k (pExpr k) := by
  induction k with
  | zero => intro w t r _ h; omega
  | succ k ih =>
    intro w t r h hm hr
    cases h with
    | @exprCond w1 w2 w3 a b c h1 h2 h3 =>
      simp only [List.length_cons, List.length_append] at hm
      have e1 := pOr_complete (pExpr_sound k) ih _ _ (.quest :: (w2 ++ .colon :: (w3 ++ r))) h1 (by omega) (.cons quest_ok)
      have e2 := ih _ _ (.colon :: (w3 ++ r)) h2 (by omega) (.cons colon_ok)
      have e3 := ih _ _ r h3 (by omega) hr
      simp [pExpr, e1, e2, e3]
    | exprOr h =>
      have e1 := pOr_complete (pExpr_sound k) ih _ _ r h (by omega) (fun _ _ e hb => hr _ _ e (.inl hb))
      simp only [pExpr, e1, Option.bind_some]
      split
      · exact absurd (.inr rfl) (hr _ _ rfl)
      · rfl

/-- The parser on tokens accepts exactly the words of the grammar. -/
theorem parseToks_iff {ts : List Tok} {t : Node} : parseToks ts = some t ↔ Derives .expr ts t := by
  constructor
  · intro h
    unfold parseToks at h
    split at h
    · rename_i hp
      cases h
      obtain ⟨w, hw, hd⟩ := pExpr_sound _ _ _ _ hp
      rw [List.append_nil] at hw
      exact hw ▸ hd
    · cases h
  · intro h
    have := pExpr_complete (ts.length + 1) ts t [] h (by omega) (.nil _)
    rw [List.append_nil] at this
    simp [parseToks, this]

/-- The grammar is unambiguous. -/
theorem derives_unique {ts : List Tok} {t t' : Node} (h : Derives .expr ts t) (h' : Derives .expr ts t') : t = t' := by
  have h1 := parseToks_iff.mpr h
  rw [parseToks_iff.mpr h'] at h1
  exact (Option.some.inj h1).symm

end Verif
