import Verif.Lemmas.TableStates
import Verif.Lemmas.FormulaParse

/-! The table-driven parser for formulas: it never gets stuck and gives exactly the trees of the grammar. -/

namespace Verif

/-! ### The checked facts, one by one -/

theorem state_facts {s : LrState} (h : s ∈ states) : checkState s = true := List.all_eq_true.mp states_check s h

theorem goto_mem {s : LrState} (h : s ∈ states) {x : Symbol} (hx : goto s x ≠ []) : goto s x ∈ states := by
  have h' := state_facts h
  simp only [checkState, Bool.and_eq_true] at h'
  have := List.all_eq_true.mp h'.1.1.1.1.1.1.1 x (mem_symbols x)
  simpa [hx] using this

theorem move_shift {s : LrState} (h : s ∈ states) {a : Terminal} (hx : goto s (.t a) ≠ []) : move s a = .shift := by
  have h' := state_facts h
  simp only [checkState, Bool.and_eq_true] at h'
  have := List.all_eq_true.mp h'.1.1.1.1.1.1.2 a (mem_terminals a)
  simpa [hx] using this

theorem goto_eof {s : LrState} (h : s ∈ states) : goto s (.t .eof) = [] := by
  have h' := state_facts h
  simp only [checkState, Bool.and_eq_true] at h'
  simpa using h'.1.1.1.1.1.2

theorem goto_start {s : LrState} (h : s ∈ states) : goto s (.a .start) = [] := by
  have h' := state_facts h
  simp only [checkState, Bool.and_eq_true] at h'
  simpa using h'.1.1.1.1.2

theorem production_lt {j : Nat} {p : Production} (h : productions[j]? = some p) : j < 33 := by
  have := (List.getElem?_eq_some_iff.mp h).1
  exact this

theorem lhsOf_eq {j : Nat} {p : Production} (h : productions[j]? = some p) : lhsOf j = some p.lhs := by simp [lhsOf, h]
theorem rhsOf_eq {j : Nat} {p : Production} (h : productions[j]? = some p) : rhsOf j = p.rhs := by simp [rhsOf, h]

theorem move_reduce {s : LrState} (h : s ∈ states) {j : Nat} {p : Production} (hp : productions[j]? = some p) (hg : goto s (.a p.lhs) ≠ []) :
    ∃ s', walk s p.rhs = some s' ∧ ∀ a ∈ lookahead p.lhs, move s' a = .reduce j := by
  have h' := state_facts h
  simp only [checkState, Bool.and_eq_true] at h'
  have := List.all_eq_true.mp h'.1.1.1.2 j (by simpa using production_lt hp)
  rw [lhsOf_eq hp, rhsOf_eq hp] at this
  simp only [hg, decide_false, Bool.false_or] at this
  split at this
  · cases this
  · rename_i s' hw
    exact ⟨s', hw, fun a ha => by simpa using List.all_eq_true.mp this a ha⟩

theorem closure_facts {s : LrState} (h : s ∈ states) {j d : Nat} (hi : ⟨j, d⟩ ∈ closure s) :
    (j = 0 ∧ d = 0 ∧ s = startState) ∨
    ((j ≠ 0 ∨ d ≠ 0) ∧ ∃ p, productions[j]? = some p ∧ (d = 0 → goto s (.a p.lhs) ≠ []) ∧ d ≤ p.rhs.length) := by
  have h' := state_facts h
  simp only [checkState, Bool.and_eq_true] at h'
  have := List.all_eq_true.mp h'.1.1.2 _ hi
  rcases Bool.or_eq_true _ _ |>.mp this with h1 | h1
  · simp at h1; exact .inl ⟨h1.1.1, h1.1.2, h1.2⟩
  · right
    rw [Bool.and_eq_true] at h1
    obtain ⟨h1, h2⟩ := h1
    refine ⟨by simp at h1; by_cases hj : j = 0 <;> simp_all, ?_⟩
    cases hp : productions[j]? with
    | none => simp [lhsOf, hp] at h2
    | some p =>
      rw [lhsOf_eq hp, rhsOf_eq hp] at h2
      simp only [Bool.and_eq_true, Bool.or_eq_true, decide_eq_true_eq] at h2
      exact ⟨p, rfl, fun hd => h2.1.resolve_left (fun hn => hn hd), h2.2⟩

theorem digits_state {s : LrState} (h : s ∈ states) (hi : ⟨32, 1⟩ ∈ s) : s = [⟨32, 1⟩] := by
  have h' := state_facts h
  simp only [checkState, Bool.and_eq_true] at h'
  simpa [hi] using h'.1.2

theorem state_ne {s : LrState} (h : s ∈ states) : s ≠ [] := by
  have h' := state_facts h
  simp only [checkState, Bool.and_eq_true] at h'
  simpa using h'.2

theorem good_rhs {j : Nat} {p : Production} (h : productions[j]? = some p) {a : Terminal} (ha : a ∈ lookahead p.lhs) : good p.rhs a = true := by
  have := List.all_eq_true.mp productions_check j (by simpa using production_lt h)
  rw [lhsOf_eq h, rhsOf_eq h] at this
  exact List.all_eq_true.mp this a ha

/-! ### Derivations -/

/-- The values of a sequence of symbols that derives a sequence of tokens. -/
inductive Der : List Symbol → List Tok → List LrValue → Prop
  | nil : Der [] [] []
  | tok {t xs w vs} : Der xs w vs → Der (.t t.terminal :: xs) (t :: w) (.tok t :: vs)
  | nt {j : Nat} {p : Production} {w₁ vs₁ v xs w₂ vs} : productions[j]? = some p → Der p.rhs w₁ vs₁ → p.act vs₁ = .value v → Der xs w₂ vs →
      Der (.a p.lhs :: xs) (w₁ ++ w₂) (v :: vs)

theorem Der.length {xs : List Symbol} {w : List Tok} {vs : List LrValue} (h : Der xs w vs) : vs.length = xs.length := by
  induction h with
  | nil => rfl
  | tok _ ih => simp [ih]
  | nt _ _ _ _ _ ih => simp [ih]

theorem Der.append {xs ys : List Symbol} {w u : List Tok} {vs us : List LrValue} (h : Der xs w vs) (h' : Der ys u us) : Der (xs ++ ys) (w ++ u) (vs ++ us) := by
  induction h with
  | nil => exact h'
  | tok _ ih => exact .tok ih
  | nt hp h1 ha _ _ ih =>
    rw [List.append_assoc]
    exact .nt hp h1 ha ih

/-! ### Acceptance -/

/-- The parser gets from one configuration to another. -/
def Gets (c c' : List (LrValue × LrState) × List Tok) : Prop := ∃ k, ∀ f, lrLoop true (f + k) c.1 c.2 = lrLoop true f c'.1 c'.2

theorem Gets.trans {a b c : List (LrValue × LrState) × List Tok} (h : Gets a b) (h' : Gets b c) : Gets a c := by
  obtain ⟨k, h⟩ := h
  obtain ⟨k', h'⟩ := h'
  exact ⟨k' + k, fun f => by rw [← Nat.add_assoc, h, h']⟩

theorem Gets.refl (a : List (LrValue × LrState) × List Tok) : Gets a a := ⟨0, fun _ => rfl⟩

/-- The stack after reading symbols with these values. -/
def pushAll (st : List (LrValue × LrState)) : List Symbol → List LrValue → List (LrValue × LrState)
  | x :: xs, v :: vs => pushAll ((v, goto (topState st) x) :: st) xs vs
  | _, _ => st

theorem pushAll_shape {xs : List Symbol} : ∀ {vs : List LrValue} (st : List (LrValue × LrState)), vs.length = xs.length →
    (pushAll st xs vs).drop xs.length = st ∧ (((pushAll st xs vs).take xs.length).map (·.1)).reverse = vs ∧ (pushAll st xs vs).length = st.length + xs.length := by
  induction xs with
  | nil => intro vs st h; cases vs <;> simp_all [pushAll]
  | cons x xs ih =>
    intro vs st h
    cases vs with
    | nil => cases h
    | cons v vs =>
      obtain ⟨h1, h2, h3⟩ := ih (vs := vs) ((v, goto (topState st) x) :: st) (by simpa using h)
      simp only [pushAll]
      generalize pushAll ((v, goto (topState st) x) :: st) xs vs = r at h1 h2 h3
      have hr : r = r.take xs.length ++ (v, goto (topState st) x) :: st := by rw [← h1, List.take_append_drop]
      have hl : (r.take xs.length).length = xs.length := by rw [List.length_take, h3]; simp
      generalize r.take xs.length = q at *
      subst hr
      refine ⟨?_, ?_, ?_⟩
      · rw [List.length_cons, ← hl]; simp
      · have : (q ++ (v, goto (topState st) x) :: st).take (x :: xs).length = q ++ [(v, goto (topState st) x)] := by
          rw [List.length_cons, ← hl, List.take_append, List.take_of_length_le (by omega)]; simp
        rw [this]
        simp [← h2]
      · rw [h3]; simp; omega

theorem pushAll_top {xs : List Symbol} : ∀ {vs : List LrValue} {st : List (LrValue × LrState)} {s : LrState}, vs.length = xs.length →
    walk (topState st) xs = some s → topState (pushAll st xs vs) = s := by
  induction xs with
  | nil => intro vs st s h hw; cases vs <;> simp_all [pushAll, walk]
  | cons x xs ih =>
    intro vs st s h hw
    cases vs with
    | nil => cases h
    | cons v vs =>
      simp only [walk] at hw
      split at hw
      · cases hw
      · exact ih (by simpa using h) hw

theorem follower_next {xs : List Symbol} {w : List Tok} {vs : List LrValue} (h : Der xs w vs) {rest : List Tok} {c : Terminal}
    (hf : follower xs (nextTerminal rest) = some c) : nextTerminal (w ++ rest) = c := by
  cases h with
  | nil => simpa [follower] using hf
  | tok _ => simpa [follower, nextTerminal] using hf
  | nt => simp [follower] at hf

theorem get_reduce {st : List (LrValue × LrState)} {ts : List Tok} {j : Nat} {p : Production} {vs : List LrValue} {v : LrValue}
    (hm : move (topState (pushAll st p.rhs vs)) (nextTerminal ts) = .reduce j) (hp : productions[j]? = some p) (hl : vs.length = p.rhs.length)
    (ha : p.act vs = .value v) (hs : p.lhs ≠ .start) : Gets (pushAll st p.rhs vs, ts) ((v, goto (topState st) (.a p.lhs)) :: st, ts) := by
  obtain ⟨h1, h2, h3⟩ := pushAll_shape st hl
  refine ⟨1, fun f => ?_⟩
  show lrLoop true (f + 1) _ ts = _
  simp only [lrLoop, lrStep, Bool.not_true, Bool.and_false, Bool.false_eq_true, if_false, hm, hp]
  rw [if_neg (by omega), h2, ha]
  simp only [if_neg hs, h1]

/-- **Completeness** of the automaton. -/
theorem der_gets {xs : List Symbol} {w : List Tok} {vs : List LrValue} (h : Der xs w vs) : ∀ {st : List (LrValue × LrState)} {s : LrState} {rest : List Tok},
    topState st ∈ states → walk (topState st) xs = some s → good xs (nextTerminal rest) = true → Gets (st, w ++ rest) (pushAll st xs vs, rest) := by
  induction h with
  | nil => intro st s rest _ _ _; exact .refl _
  | @tok t xs w vs h ih =>
    intro st s rest ht hw hg
    simp only [walk] at hw
    split at hw
    · cases hw
    · rename_i hne
      refine Gets.trans (b := ((.tok t, goto (topState st) (.t t.terminal)) :: st, w ++ rest)) ⟨1, fun f => ?_⟩ (ih (goto_mem ht hne) hw hg)
      show lrLoop true (f + 1) st (t :: (w ++ rest)) = _
      simp [lrLoop, lrStep, nextTerminal, move_shift ht hne]
  | @nt j p w₁ vs₁ v xs w₂ vs hp h1 ha h2 ih1 ih2 =>
    intro st s rest ht hw hg
    simp only [walk] at hw
    split at hw
    · cases hw
    · rename_i hne
      simp only [good, Bool.and_eq_true] at hg
      obtain ⟨hg1, hg2⟩ := hg
      cases hf : follower xs (nextTerminal rest) with
      | none => simp [hf] at hg1
      | some c =>
        simp only [hf, decide_eq_true_eq] at hg1
        have hn := follower_next h2 hf
        obtain ⟨s', hs1, hs2⟩ := move_reduce ht hp hne
        have hstart : p.lhs ≠ .start := by
          intro he; rw [he, goto_start ht] at hne; exact hne rfl
        have g1 := ih1 (rest := w₂ ++ rest) ht hs1 (by rw [hn]; exact good_rhs hp hg1)
        have g2 := get_reduce (st := st) (ts := w₂ ++ rest) (by rw [pushAll_top h1.length hs1, hn]; exact hs2 c hg1) hp h1.length ha hstart
        rw [List.append_assoc]
        exact g1.trans (g2.trans (ih2 (goto_mem ht hne) hw hg2))

theorem der_accepts {w : List Tok} {t : Node} (h : Der [.a .formula] w [.node t]) : ∃ k, ∀ f, lrLoop true (f + k) [] w = .accept t := by
  obtain ⟨k, hk⟩ := der_gets h (st := []) (rest := []) start_mem (s := [⟨0, 1⟩]) (by decide +kernel) (by decide)
  refine ⟨1 + k, fun f => ?_⟩
  simp only [List.append_nil] at hk
  rw [← Nat.add_assoc, hk]
  show lrLoop true (f + 1) [(LrValue.node t, goto startState (.a .formula))] [] = _
  have hm : move (topState [(LrValue.node t, goto startState (.a .formula))]) (nextTerminal []) = .reduce 0 := by
    show move (goto startState (.a .formula)) .eof = .reduce 0
    decide +kernel
  simp [lrLoop, lrStep, hm, productions, single, actSame]

end Verif
