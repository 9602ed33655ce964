import Verif.Lemmas.MessageStates
import Verif.Lemmas.TableVerdict
import Verif.Spec.Message

/-! Where the table-driven parser stops with an unexpected token, and which tokens it would have gone on with. -/

namespace Verif
open Spec

/-! ### The checked facts, one by one -/

theorem last_eq {xs : List Symbol} {x : Symbol} {ys : List Symbol} (h : xs.reverse = x :: ys) : xs.getLast? = some x := by
  have : xs = (x :: ys).reverse := by rw [← h, List.reverse_reverse]
  rw [this]; simp

theorem tight_move {s : LrState} (h : s ∈ states) {a : Terminal} {j : Nat} (hm : move s a = .reduce j) {p : Production} (hp : productions[j]? = some p)
    (ht : tight p.lhs = true) : a ∈ before p.lhs ∨ ∃ c, p.rhs.getLast? = some (.a c) ∧ tight c = true ∧ ∀ a ∈ before c, a ∈ before p.lhs := by
  have := List.all_eq_true.mp (List.all_eq_true.mp tight_check s h) a (mem_terminals a)
  rw [hm] at this
  simp only [lhsOf_eq hp, ht, Bool.not_true, Bool.false_or, Bool.or_eq_true, decide_eq_true_eq] at this
  rcases this with h1 | h1
  · exact .inl h1
  · right
    unfold lastTight at h1
    rw [rhsOf_eq hp] at h1
    split at h1
    · rename_i c hc
      rw [Bool.and_eq_true, List.all_eq_true] at h1
      exact ⟨c, hc, h1.1, fun a ha => by simpa using h1.2 a ha⟩
    · cases h1

theorem error_facts {s : LrState} (h : s ∈ states) {x : Symbol} (hg : goto s x ≠ []) {a : Terminal} (hm : move (goto s x) a = .error) :
    checkError (goto s x) x a = true := by
  have := List.all_eq_true.mp (List.all_eq_true.mp error_check s h) x (mem_symbols x)
  rw [Bool.or_eq_true] at this
  rcases this with h1 | h1
  · exact absurd (by simpa using h1) hg
  · have := List.all_eq_true.mp h1 a (mem_terminals a)
    simpa [hm] using this

theorem shift_exists {s : LrState} (h : s ∈ states) {a : Terminal} (hm : move s a = .error) : ∃ b, b ≠ .eof ∧ move s b = .shift := by
  have := List.all_eq_true.mp (List.all_eq_true.mp shift_check s h) a (mem_terminals a)
  rw [hm] at this
  simp only [ne_eq, not_true, decide_false, Bool.false_or, List.any_eq_true, Bool.and_eq_true, decide_eq_true_eq] at this
  obtain ⟨b, _, h1, h2⟩ := this
  exact ⟨b, h1, h2⟩

/-- The parser makes the same reductions in front of `b` as in front of `a`. -/
def SameTops (a b : Terminal) : Prop := ∀ s ∈ states, ∀ j, move s a = .reduce j → move s b = .reduce j

theorem agree_refl (a : Terminal) : SameTops a a := fun _ _ _ h => h

theorem agree_opening {a : Terminal} (ha : a ∈ opening) (b : Terminal) : SameTops a b := by
  intro s hs j hm
  have := List.all_eq_true.mp (List.all_eq_true.mp agree_check s hs) a (mem_terminals a)
  rw [hm] at this
  simp only [Bool.and_eq_true, Bool.or_eq_true, decide_eq_true_eq] at this
  rcases this.1 with h | h
  · exact absurd ha h
  · simpa using List.all_eq_true.mp h b (mem_terminals b)

theorem agree_closing {a b : Terminal} (ha : a ∈ lookahead .expr) (hb : b ∈ lookahead .expr) : SameTops a b := by
  intro s hs j hm
  have := List.all_eq_true.mp (List.all_eq_true.mp agree_check s hs) a (mem_terminals a)
  rw [hm] at this
  simp only [Bool.and_eq_true, Bool.or_eq_true, decide_eq_true_eq] at this
  rcases this.2 with h | h
  · exact absurd ha h
  · simpa using List.all_eq_true.mp h b hb

/-! ### The run -/

/-- The parser comes to this stack with other tokens after `w` too. -/
def Same (st : List (LrValue × LrState)) (xs : List Symbol) (w : List Tok) (a : Terminal) : Prop :=
  ∀ b q, ((∃ c, xs.head? = some (.a c)) → SameTops a b.terminal) → Gets ([], w ++ b :: q) (st, b :: q)

/-- What is known of a configuration of the parser. -/
structure Ctx (st : List (LrValue × LrState)) (xs : List Symbol) (w ts : List Tok) : Prop where
  holds : Holds st xs w
  top : TopOk xs ts
  tight : ∀ b, xs.head? = some (.a b) → tight b = true → nextTerminal ts ∈ before b
  same : Same st xs w (nextTerminal ts)

theorem ctx_nil (ts : List Tok) : Ctx [] [] [] ts :=
  ⟨.nil, (by intro x hx; cases hx), (by intro b hb; cases hb), fun b q _ => .refl _⟩

theorem step_ctx (eof : Bool) {st : List (LrValue × LrState)} {xs : List Symbol} {w ts : List Tok} (h : Ctx st xs w ts) {st' : List (LrValue × LrState)}
    {ts' : List Tok} (hs : lrStep eof st ts = .inr (st', ts')) : ∃ xs' w', Ctx st' xs' w' ts' ∧ w ++ ts = w' ++ ts' ∧ todo xs' ts' < todo xs ts := by
  obtain ⟨h, ho, ht, hsame⟩ := h
  unfold lrStep at hs
  split at hs
  · cases hs
  · cases hm : move (topState st) (nextTerminal ts) with
    | error => rw [hm] at hs; cases hs
    | shift =>
      rw [hm] at hs
      cases ts with
      | nil => cases hs
      | cons t ts =>
        cases hs
        refine ⟨_, _, ⟨Holds.cons h (shift_goto hm) (Der.tok (t := t) .nil), (by intro x hx; cases hx; simp), (by intro b hb; cases hb), ?_⟩, by simp,
          by simp [todo, symWeight]; omega⟩
        intro b q _
        have g := hsame t (b :: q) (fun _ => agree_refl _)
        rw [List.append_assoc]
        refine g.trans ⟨1, fun f => ?_⟩
        show lrLoop true (f + 1) st (t :: (b :: q)) = _
        simp only [nextTerminal] at hm
        simp [lrLoop, lrStep, nextTerminal, hm]
    | reduce j =>
      rw [hm] at hs
      obtain ⟨p, hp, hi⟩ := completed_mem (reduce_completed hm)
      obtain ⟨xs₀, w₀, w₁, h1, h2, h3, h4, h5, h6⟩ := item_read hp h (List.mem_append_left _ hi)
      simp only [hp] at hs
      rw [if_neg (by omega)] at hs
      rw [List.take_length] at h5 h4
      have hw := symWeights p (List.mem_of_getElem? hp)
      have hlook : p.lhs = .start ∨ p.lhs = .expr ∨ p.lhs = .formula → nextTerminal ts ∈ lookahead .expr := by
        intro hl
        by_cases hj : j = 3
        · subst hj; exact expr_move h.state hm
        · obtain ⟨x, ys, hx, hx'⟩ := last_expr hp hl hj
          rw [hx] at h4
          exact ho x (by rw [h4]; rfl) hx'
      have htight : tight p.lhs = true → nextTerminal ts ∈ before p.lhs := by
        intro hl
        rcases tight_move h.state hm hp hl with h7 | ⟨c, h7, h8, h9⟩
        · exact h7
        · refine h9 _ (ht c ?_ h8)
          rw [h4]
          cases hr : p.rhs.reverse with
          | nil => rw [List.reverse_eq_nil_iff] at hr; rw [hr] at h7; cases h7
          | cons y ys =>
            rw [last_eq hr] at h7
            cases h7
            rfl
      cases hv : p.act ((st.take p.rhs.length).map (·.1)).reverse with
      | mismatch => rw [hv] at hs; cases hs
      | refused => rw [hv] at hs; cases hs
      | value v =>
        rw [hv] at hs
        simp only at hs
        by_cases hl : p.lhs = .start
        · rw [if_pos hl] at hs
          cases ts with
          | nil => cases v <;> cases hs
          | cons t ts => cases hs
        · rw [if_neg hl] at hs
          have hg : goto (topState (st.drop p.rhs.length)) (.a p.lhs) ≠ [] := by
            rcases closure_facts h2.state h6 with ⟨hj, _, _⟩ | ⟨_, p', hp', hg, _⟩
            · subst hj
              have hpe : p = single .start .formula := by simpa [productions] using hp.symm
              subst hpe
              exact absurd rfl hl
            · rw [hp] at hp'; cases hp'
              exact hg rfl
          have hd : Der [.a p.lhs] w₁ [v] := by simpa using Der.nt hp h5 hv .nil
          cases hs
          refine ⟨_, _, ⟨Holds.cons h2 hg hd, ?_, ?_, ?_⟩, by rw [h3], ?_⟩
          · intro x hx hx'
            cases hx
            exact hlook (by simpa using Or.inr hx')
          · intro b hb hb'
            cases hb
            exact htight hb'
          · intro b q hb
            have hab := hb ⟨_, rfl⟩
            have g := hsame b q (fun _ => hab)
            rw [h3] at g
            refine g.trans ⟨1, fun f => ?_⟩
            show lrLoop true (f + 1) st (b :: q) = _
            have hm' := hab _ h.state _ hm
            have hm'' : move (topState st) (nextTerminal (b :: q)) = .reduce j := hm'
            simp only [lrLoop, lrStep, Bool.not_true, Bool.and_false, Bool.false_eq_true, if_false, hm'', hp, hv, if_neg hl]
            rw [if_neg (by omega)]
          · rw [h4]
            simp only [todo, List.map_append, List.sum_append, List.map_reverse, List.sum_reverse, List.map_cons, List.sum_cons]
            omega

/-- The configuration in which the parser stops. -/
theorem loop_ctx (eof : Bool) : ∀ {k : Nat} {st : List (LrValue × LrState)} {xs : List Symbol} {w ts : List Tok}, Ctx st xs w ts → todo xs ts < k →
    ∃ xs' w' rest, Ctx (lrEnd eof k st ts) xs' w' rest ∧ w ++ ts = w' ++ rest ∧ lrStep eof (lrEnd eof k st ts) rest = .inl (lrLoop eof k st ts) := by
  intro k
  induction k with
  | zero => intro st xs w ts _ h; exact absurd h (Nat.not_lt_zero _)
  | succ k ih =>
    intro st xs w ts h hk
    rw [lrLoop, lrEnd]
    cases hs : lrStep eof st ts with
    | inl r => exact ⟨xs, w, ts, h, rfl, hs⟩
    | inr c =>
      obtain ⟨st', ts'⟩ := c
      obtain ⟨xs', w', h1, h2, h3⟩ := step_ctx eof h hs
      rw [h2]
      exact ih h1 (by omega)

theorem step_unrecognized {eof : Bool} {st : List (LrValue × LrState)} {ts r : List Tok} (h : lrStep eof st ts = .inl (.unrecognized r)) :
    r = ts ∧ move (topState st) (nextTerminal ts) = .error := by
  unfold lrStep at h
  split at h
  · cases h
  · split at h
    · cases h; exact ⟨rfl, by assumption⟩
    · split at h <;> cases h
    · split at h
      · cases h
      · split at h
        · cases h
        · split at h
          · cases h
          · cases h
          · split at h
            · split at h <;> cases h
            · cases h

/-! ### What follows an operand -/

/-- Symbols whose words end with an operand. -/
def operandSymbol : Symbol → Bool
  | .a _ => true
  | .t .n | .t .rpar | .t .digits => true
  | _ => false

theorem rhs_operand {j : Nat} {p : Production} (hp : productions[j]? = some p) : ∃ x, p.rhs.getLast? = some x ∧ operandSymbol x = true := by
  have hb : ((List.range 33).all fun j => (rhsOf j).getLast?.any operandSymbol) = true := by decide
  have := List.all_eq_true.mp hb j (by simpa using production_lt hp)
  rw [rhsOf_eq hp] at this
  cases hx : p.rhs.getLast? with
  | none => rw [hx] at this; cases this
  | some x => exact ⟨x, rfl, by simpa [hx] using this⟩

theorem afterOperand_append {w : List Tok} (h : AfterOperand w) (w₀ : List Tok) : AfterOperand (w₀ ++ w) := by
  obtain ⟨q, a, rfl, h⟩ := h
  exact ⟨w₀ ++ q, a, by simp, h⟩

theorem der_operand {xs : List Symbol} {w : List Tok} {vs : List LrValue} (h : Der xs w vs) : ∀ x, xs.getLast? = some x → operandSymbol x = true → AfterOperand w := by
  induction h with
  | nil => intro x hx; cases hx
  | @tok t xs w vs h ih =>
    intro x hx ho
    cases xs with
    | nil =>
      cases h
      cases hx
      refine ⟨[], t, rfl, ?_⟩
      cases t <;> first | (cases ho; done) | simp
    | cons y ys =>
      have := ih x (by simpa [List.getLast?_cons_cons] using hx) ho
      exact afterOperand_append this [t]
  | @nt j p w₁ vs₁ v xs w₂ vs hp _ _ h2 ih1 ih2 =>
    intro x hx ho
    cases xs with
    | nil =>
      cases h2
      obtain ⟨y, hy, hy'⟩ := rhs_operand hp
      rw [List.append_nil]
      exact ih1 y hy hy'
    | cons y ys =>
      exact afterOperand_append (ih2 x (by simpa [List.getLast?_cons_cons] using hx) ho) w₁

theorem derives_operand {nt : NT} {w : List Tok} {t : Node} (h : Derives nt w t) : AfterOperand w := der_operand (derives_der h) _ rfl rfl

/-! ### The tokens the parser would go on with -/

theorem topOf_map (st : List (LrValue × LrState)) : topOf (st.map (·.2)) = topState st := by cases st <;> rfl

theorem accepts_false {k : Nat} : ∀ {st : List (LrValue × LrState)} {xs : List Symbol} {w : List Tok} {b : Tok} {q : List Tok}, Holds st xs w → todo xs [] < k →
    acceptsAux k (st.map (·.2)) b.terminal = false → ∀ f, (∀ t, lrLoop true f st (b :: q) ≠ .accept t) ∧ lrLoop true f st (b :: q) ≠ .extra (b :: q) := by
  induction k with
  | zero => intro st xs w b q _ h; exact absurd h (Nat.not_lt_zero _)
  | succ k ih =>
    intro st xs w b q h hk hacc f
    rw [acceptsAux, topOf_map] at hacc
    cases f with
    | zero => exact ⟨fun t => by simp [lrLoop], by simp [lrLoop]⟩
    | succ f =>
      rw [lrLoop]
      unfold lrStep
      simp only [Bool.not_true, Bool.and_false, Bool.false_eq_true, if_false, nextTerminal]
      cases hm : move (topState st) b.terminal with
      | error => exact ⟨fun t => by simp, by simp⟩
      | shift => rw [hm] at hacc; cases hacc
      | reduce j =>
        rw [hm] at hacc
        obtain ⟨p, hp, hi⟩ := completed_mem (reduce_completed hm)
        obtain ⟨xs₀, w₀, w₁, h1, h2, h3, h4, h5, h6⟩ := item_read hp h (List.mem_append_left _ hi)
        simp only [hp] at hacc ⊢
        rw [if_neg (by omega)]
        cases hv : p.act ((st.take p.rhs.length).map (·.1)).reverse with
        | mismatch => exact ⟨fun t => by simp, by simp⟩
        | refused => exact ⟨fun t => by simp, by simp⟩
        | value v =>
          by_cases hl : p.lhs = .start
          · rw [if_pos hl] at hacc; cases hacc
          · rw [if_neg hl] at hacc
            simp only [if_neg hl]
            rw [List.take_length] at h5 h4
            have hg : goto (topState (st.drop p.rhs.length)) (.a p.lhs) ≠ [] := by
              rcases closure_facts h2.state h6 with ⟨hj, _, _⟩ | ⟨_, p', hp', hg, _⟩
              · subst hj
                have hpe : p = single .start .formula := by simpa [productions] using hp.symm
                subst hpe
                exact absurd rfl hl
              · rw [hp] at hp'; cases hp'
                exact hg rfl
            have hd : Der [.a p.lhs] w₁ [v] := by simpa using Der.nt hp h5 hv .nil
            refine ih (Holds.cons h2 hg hd) ?_ ?_ f
            · have hw := symWeights p (List.mem_of_getElem? hp)
              rw [h4] at hk
              simp only [todo, List.map_append, List.sum_append, List.map_reverse, List.sum_reverse, List.map_cons, List.sum_cons] at hk ⊢
              omega
            · simpa [List.map_drop, ← topOf_map] using hacc

theorem accepts_true {k : Nat} : ∀ {st : List (LrValue × LrState)} {xs : List Symbol} {w : List Tok} {b : Tok}, Holds st xs w → TopOk xs [b] → Begins w → plain b = b →
    acceptsAux k (st.map (·.2)) b.terminal = true → Begins (w ++ [b]) ∨ ((∃ t, Derives .expr w t) ∧ Closing b) := by
  induction k with
  | zero => intro st xs w b _ _ _ _ h; cases h
  | succ k ih =>
    intro st xs w b h ho hw hb hacc
    rw [acceptsAux, topOf_map] at hacc
    have hs := step_stops true h ho
    unfold lrStep at hs
    simp only [Bool.not_true, Bool.and_false, Bool.false_eq_true, if_false, nextTerminal] at hs
    cases hm : move (topState st) b.terminal with
    | error => rw [hm] at hacc; cases hacc
    | shift =>
      left
      rcases holds_begins (Holds.cons h (shift_goto hm) (Der.tok (t := b) .nil)) with h1 | ⟨_, w₀, ds, h1, q, t, h2⟩
      · exact begins_iff.mpr h1
      · obtain ⟨rfl, h3⟩ := List.append_inj' h1 rfl
        cases h3
        simp only [plain, Tok.num.injEq] at hb
        subst hb
        exact begins_iff.mpr ⟨q, t, by simpa using h2⟩
    | reduce j =>
      rw [hm] at hacc hs
      cases hp : productions[j]? with
      | none => simp [hp] at hacc
      | some p =>
        simp only [hp] at hacc hs
        split at hs
        · cases hs
        · rename_i hlen
          cases hv : p.act ((st.take p.rhs.length).map (·.1)).reverse with
          | mismatch => rw [hv] at hs; cases hs
          | refused =>
            rw [hv] at hs
            cases hs with
            | user h1 h2 h3 => exact absurd hw (not_begins_large h3)
          | value v =>
            rw [hv] at hs
            by_cases hl : p.lhs = .start
            · simp only [if_pos hl] at hs
              cases hs with
              | extra h1 h2 h3 => exact .inr ⟨⟨_, der_derives.mp h3⟩, lookahead_expr h2⟩
            · rw [if_neg hl] at hacc
              simp only [if_neg hl] at hs
              obtain ⟨xs', w', h1, h2, h3, _⟩ := hs
              simp only at h1 h2 h3
              obtain ⟨rfl, _⟩ := List.append_inj' h3 rfl
              refine ih h1 h2 hw hb ?_
              simpa [List.map_drop, ← topOf_map] using hacc

end Verif
