import Verif.Lemmas.MessageRun

/-! The tokens named as expected, and the text that names them. -/

namespace Verif
open Spec

theorem der_tokens {a : Terminal} {w : List Tok} {v : LrValue} (h : Der [.t a] w [v]) : ∃ t, w = [t] ∧ t.terminal = a := by
  generalize hx : [Symbol.t a] = xs at h
  generalize hv : [v] = vs at h
  cases h with
  | nil => cases hx
  | nt => cases hx
  | @tok t _ _ _ d =>
    simp only [List.cons.injEq, Symbol.t.injEq] at hx hv
    rw [← hx.2] at d
    cases d
    exact ⟨t, rfl, hx.1.symm⟩

theorem not_operand {w : List Tok} {t : Tok} (h1 : t.terminal ≠ .n) (h2 : t.terminal ≠ .digits) (h3 : t.terminal ≠ .rpar) : ¬ AfterOperand (w ++ [t]) := by
  rintro ⟨q, a, he, ha⟩
  obtain ⟨_, he⟩ := List.append_inj' he rfl
  cases he
  rcases ha with rfl | rfl | ⟨ds, rfl⟩
  · exact h1 rfl
  · exact h3 rfl
  · exact h2 rfl

/-- The three situations in which the parser finds an unexpected token. -/
theorem error_kind {st : List (LrValue × LrState)} {xs : List Symbol} {w ts : List Tok} (h : Ctx st xs w ts) (hm : move (topState st) (nextTerminal ts) = .error) :
    (¬ AfterOperand w ∧ (∀ b, move (topState st) b = .error ∨ move (topState st) b = .shift) ∧ ∀ c, xs.head? ≠ some (.a c)) ∨
    (AfterOperand w ∧ nextTerminal ts ∈ lookahead .expr ∧ ∀ b, move (topState st) b = .error ∨ (move (topState st) b = .shift ∧ (b = .rpar ∨ b = .colon))) ∨
    (AfterOperand w ∧ nextTerminal ts ∈ opening ∧ (∀ b, move (topState st) b ≠ .error ↔ b ∉ opening) ∧ xs.head? = some (.a .mul)) := by
  obtain ⟨hh, ho, ht, _⟩ := h
  cases hh with
  | nil =>
    refine .inl ⟨?_, fun b => ?_, fun c hc => by cases hc⟩
    · rintro ⟨q, a, he, _⟩; simp at he
    · have := List.all_eq_true.mp start_check b (mem_terminals b)
      simpa [topState] using this
  | @cons st xs w x w' v h hg hd =>
    have hc := error_facts h.state hg hm
    have hop : ∀ b, x = .a b → AfterOperand (w ++ w') := by
      rintro b rfl
      exact afterOperand_append (der_operand hd _ rfl rfl) w
    cases x with
    | t c =>
      simp only [checkError, Bool.and_eq_true, decide_eq_true_eq, List.all_eq_true, Bool.or_eq_true] at hc
      obtain ⟨t, rfl, rfl⟩ := der_tokens hd
      exact .inl ⟨not_operand hc.1.1.1 hc.1.1.2 hc.1.2, fun b => hc.2 b (mem_terminals b), fun c hc => by cases hc⟩
    | a b =>
      have hab := ht b rfl
      have hother : tight b = true → nextTerminal ts ∉ before b → False := fun h1 h2 => h2 (hab h1)
      cases b with
      | expr =>
        simp only [checkError, List.all_eq_true, Bool.or_eq_true, Bool.and_eq_true, decide_eq_true_eq] at hc
        exact .inr (.inl ⟨hop _ rfl, hab rfl, fun b => hc b (mem_terminals b)⟩)
      | mul =>
        simp only [checkError, List.all_eq_true, Bool.and_eq_true, decide_eq_true_eq, beq_iff_eq, decide_eq_decide] at hc
        exact .inr (.inr ⟨hop _ rfl, hc.1, fun b => hc.2 b (mem_terminals b), rfl⟩)
      | _ =>
        simp only [checkError, Bool.and_eq_true, decide_eq_true_eq] at hc
        exact (hother hc.1 hc.2).elim

theorem symWeight_le (x : Symbol) : symWeight x ≤ 13 := by
  rcases x with a | a
  · exact Nat.le_refl _
  · cases a <;> decide

theorem todo_le {xs : List Symbol} : todo xs [] ≤ 13 * xs.length := by
  unfold todo
  induction xs with
  | nil => simp
  | cons x xs ih =>
    simp only [List.map_cons, List.sum_cons, List.length_cons]
    have := symWeight_le x
    simp only [List.length_nil, Nat.mul_zero, Nat.add_zero] at ih ⊢
    omega

/-- The parser accepts `b` next, as lalrpop computes it. -/
def acceptsNext (st : List (LrValue × LrState)) (b : Terminal) : Bool := acceptsAux (14 * (st.map (·.2)).length + 14) (st.map (·.2)) b

theorem todo_fuel {st : List (LrValue × LrState)} {xs : List Symbol} {w : List Tok} (h : Holds st xs w) : todo xs [] < 14 * (st.map (·.2)).length + 14 := by
  have := todo_le (xs := xs)
  rw [h.length] at this
  simp only [List.length_map]
  omega

theorem begins_accepts {st : List (LrValue × LrState)} {xs : List Symbol} {w ts : List Tok} (h : Ctx st xs w ts) {b : Tok}
    (hb : (∃ c, xs.head? = some (.a c)) → SameTops (nextTerminal ts) b.terminal) (hn : Begins (w ++ [b]) ∨ ((∃ t, Derives .expr w t) ∧ Closing b)) :
    acceptsNext st b.terminal = true := by
  cases hacc : acceptsNext st b.terminal with
  | true => rfl
  | false =>
    exfalso
    rcases hn with ⟨q, t, hd⟩ | ⟨⟨t, hd⟩, hb'⟩
    · rw [List.append_assoc] at hd
      obtain ⟨k, hk⟩ := h.same b q hb
      obtain ⟨k', hk'⟩ := der_accepts (der_derives.mpr hd)
      have e1 := hk k'
      have e2 := hk' k
      rw [Nat.add_comm, show w ++ ([b] ++ q) = w ++ b :: q from rfl] at e2
      rw [show (([] : List (LrValue × LrState)), w ++ b :: q).2 = w ++ b :: q from rfl, e2] at e1
      exact (accepts_false h.holds (todo_fuel h.holds) hacc k').1 t e1.symm
    · obtain ⟨k, hk⟩ := h.same b [] hb
      obtain ⟨k', hk'⟩ := der_extra hd hb' []
      have e1 := hk k'
      have e2 := hk' k
      rw [Nat.add_comm] at e2
      rw [show (([] : List (LrValue × LrState)), w ++ [b]).2 = w ++ [b] from rfl, e2] at e1
      exact (accepts_false h.holds (todo_fuel h.holds) hacc k').2 e1.symm

theorem accepts_shift {st : List (LrValue × LrState)} {b : Terminal} (h : move (topState st) b = .error ∨ move (topState st) b = .shift) :
    acceptsNext st b = decide (move (topState st) b ≠ .error) := by
  unfold acceptsNext
  rw [acceptsAux, topOf_map]
  rcases h with h | h <;> rw [h] <;> rfl

theorem opening_iff {b : Tok} : b.terminal ∈ opening ↔ Opening b := by
  cases b <;> simp [Tok.terminal, opening, Opening]

theorem closing_iff {b : Tok} : b.terminal ∈ lookahead .expr ↔ Closing b := by
  cases b <;> simp [Tok.terminal, lookahead, Closing]

theorem next_closing {ts : List Tok} : nextTerminal ts ∈ lookahead .expr ↔ ∀ x, ts.head? = some x → Closing x := by
  cases ts with
  | nil => simp [nextTerminal, lookahead]
  | cons t ts => simp [nextTerminal, closing_iff]

theorem next_opening {ts : List Tok} (h : nextTerminal ts ∈ opening) : ∃ x, ts.head? = some x ∧ ¬ Closing x := by
  cases ts with
  | nil => simp [nextTerminal, opening] at h
  | cons t ts =>
    refine ⟨t, rfl, ?_⟩
    rintro (rfl | rfl) <;> simp [nextTerminal, Tok.terminal, opening] at h

/-- The test that lalrpop makes for a terminal. -/
def expectedTest (precise : Bool) (st : List (LrValue × LrState)) (b : Terminal) : Bool :=
  if precise then acceptsNext st b else decide (move (topState st) b ≠ .error)

/-- **The expected tokens**, by the grammar. -/
theorem expected_iff {st : List (LrValue × LrState)} {xs : List Symbol} {w ts : List Tok} (h : Ctx st xs w ts) (hm : move (topState st) (nextTerminal ts) = .error)
    (hw : Begins w) (precise : Bool) {b : Tok} (hb : plain b = b) : expectedTest precise st b.terminal = true ↔ Expects precise w ts.head? b := by
  rcases error_kind h hm with ⟨h1, h2, h3⟩ | ⟨h1, h2, h3⟩ | ⟨h1, h2, h3, h4⟩
  · have e : expectedTest precise st b.terminal = acceptsNext st b.terminal := by
      unfold expectedTest
      rw [accepts_shift (h2 _)]
      simp
    rw [e]
    constructor
    · intro hacc
      rcases accepts_true h.holds (by
        intro x hx hx'
        cases x with
        | t => rcases hx' with hx' | hx' <;> cases hx'
        | a c => exact absurd hx (h3 c)) hw hb hacc with h4 | ⟨⟨t, h4⟩, _⟩
      · exact .operand h1 h4
      · exact absurd (derives_operand h4) h1
    · intro he
      cases he with
      | operand _ h4 => exact begins_accepts h (fun ⟨c, hc⟩ => absurd hc (h3 c)) (.inl h4)
      | close h4 => exact absurd h4 h1
      | more _ h4 => exact absurd h4 h1
      | whole _ h4 => exact absurd h4 h1
      | row _ h4 => exact absurd h4 h1
  · have h2' := next_closing.mp h2
    have hno : ¬ ∃ x, ts.head? = some x ∧ ¬ Closing x := fun ⟨x, h5, h6⟩ => h6 (h2' x h5)
    have e : expectedTest precise st b.terminal = acceptsNext st b.terminal := by
      unfold expectedTest
      rw [accepts_shift ((h3 b.terminal).imp_right (·.1))]
      simp
    rw [e]
    constructor
    · intro hacc
      rcases h3 b.terminal with h4 | ⟨h4, h5⟩
      · rw [accepts_shift (.inl h4), h4] at hacc; simp at hacc
      · have hc : Closing b := closing_iff.mp (by rcases h5 with h5 | h5 <;> rw [h5] <;> decide)
        refine .close h1 h2' hc ?_
        rcases accepts_true h.holds (by
          intro x hx hx'
          exact closing_iff.mpr hc) hw hb hacc with h6 | ⟨⟨t, h6⟩, _⟩
        · exact h6
        · -- the closing sign is shifted, so a formula begins so
          rcases holds_begins (Holds.cons h.holds (shift_goto h4) (Der.tok (t := b) .nil)) with h7 | ⟨_, w₀, ds, h7, _⟩
          · exact begins_iff.mpr h7
          · obtain ⟨_, h8⟩ := List.append_inj' h7 rfl
            cases h8
            rcases hc with hc | hc <;> cases hc
    · intro he
      cases he with
      | operand h4 => exact absurd h1 h4
      | close _ _ h5 h6 => exact begins_accepts h (fun _ => agree_closing h2 (closing_iff.mpr h5)) (.inl h6)
      | more _ _ h5 => exact absurd h5 hno
      | whole _ _ h5 => exact absurd h5 hno
      | row _ _ h5 => exact absurd h5 hno
  · obtain ⟨x, hx1, hx2⟩ := next_opening h2
    cases precise with
    | true =>
      constructor
      · intro hacc
        rcases accepts_true h.holds (by
          intro y hy hy'
          rw [h4] at hy
          cases hy
          rcases hy' with hy' | hy' <;> cases hy') hw hb hacc with h5 | ⟨⟨t, h5⟩, h6⟩
        · exact .more rfl h1 ⟨x, hx1, hx2⟩ h5
        · exact .whole rfl h1 ⟨x, hx1, hx2⟩ h5 h6
      · intro he
        show acceptsNext st b.terminal = true
        refine begins_accepts h (fun _ => agree_opening h2 _) ?_
        cases he with
        | operand h5 => exact absurd h1 h5
        | close _ h5 => exact absurd (h5 x hx1) hx2
        | more _ _ _ h5 => exact .inl h5
        | whole _ _ _ h5 h6 => exact .inr ⟨⟨_, h5⟩, h6⟩
        | row h5 => cases h5
    | false =>
      show decide (move (topState st) b.terminal ≠ .error) = true ↔ _
      rw [decide_eq_true_eq, h3, opening_iff]
      constructor
      · intro h5; exact .row rfl h1 ⟨x, hx1, hx2⟩ h5
      · intro he
        cases he with
        | operand h5 => exact absurd h1 h5
        | close _ h5 => exact absurd (h5 x hx1) hx2
        | more h5 => cases h5
        | whole h5 => cases h5
        | row _ _ _ h5 => exact h5

/-! ### The names -/

theorem names_eq : terminalNames = tokenNames.map fun p => (p.1, p.2.terminal) := rfl

theorem names_plain : ∀ p ∈ tokenNames, plain p.2 = p.2 := by
  have : (tokenNames.all fun p => decide (plain p.2 = p.2)) = true := by decide
  intro p hp
  simpa using List.all_eq_true.mp this p hp

theorem names_nodup : tokenNames.Nodup := by decide

theorem names_all {b : Terminal} (h : b ≠ .eof) : ∃ p ∈ tokenNames, p.2.terminal = b := by
  have hb : (tokenNames.any fun p => decide (p.2.terminal = b)) = true := by
    cases b <;> first | exact absurd rfl h | decide
  obtain ⟨p, h1, h2⟩ := List.any_eq_true.mp hb
  exact ⟨p, h1, by simpa using h2⟩

theorem expectedNames_eq (precise : Bool) (st : List (LrValue × LrState)) :
    expectedNames precise (st.map (·.2)) = (tokenNames.filter fun p => expectedTest precise st p.2.terminal).map (·.1) := by
  unfold expectedNames
  rw [names_eq, List.filter_map, List.map_map]
  have : (fun p : Str × Terminal => if precise = true then acceptsAux (14 * (st.map (·.2)).length + 14) (st.map (·.2)) p.2 else
      decide (move (topOf (st.map (·.2))) p.2 ≠ .error)) = fun p => expectedTest precise st p.2 := by
    funext p
    simp only [expectedTest, acceptsNext, topOf_map]
  rw [this]
  rfl

theorem names_of {st : List (LrValue × LrState)} {xs : List Symbol} {w ts : List Tok} (h : Ctx st xs w ts) (hm : move (topState st) (nextTerminal ts) = .error)
    (hw : Begins w) (precise : Bool) : Names precise w ts.head? (expectedNames precise (st.map (·.2))) ∧ expectedNames precise (st.map (·.2)) ≠ [] := by
  rw [expectedNames_eq]
  refine ⟨⟨_, List.filter_sublist, fun q hq => ?_, rfl⟩, ?_⟩
  · rw [← expected_iff h hm hw precise (names_plain q hq), List.mem_filter]
    exact ⟨fun h => h.2, fun h => ⟨hq, h⟩⟩
  · obtain ⟨b, hb, hs⟩ := shift_exists h.holds.state hm
    obtain ⟨p, hp, rfl⟩ := names_all hb
    intro he
    rw [List.map_eq_nil_iff, List.filter_eq_nil_iff] at he
    refine he p hp ?_
    unfold expectedTest
    rw [accepts_shift (.inr hs), hs]
    simp

theorem sublist_unique {α : Type} {l : List α} (hl : l.Nodup) : ∀ {a b : List α}, List.Sublist a l → List.Sublist b l → (∀ x ∈ l, x ∈ a ↔ x ∈ b) → a = b := by
  induction l with
  | nil =>
    intro a b ha hb _
    rw [List.sublist_nil] at ha hb
    rw [ha, hb]
  | cons y l ih =>
    rw [List.nodup_cons] at hl
    have key : ∀ {a : List α}, List.Sublist a (y :: l) → (y ∉ a ∧ List.Sublist a l) ∨ ∃ a', a = y :: a' ∧ List.Sublist a' l := by
      intro a ha
      cases ha with
      | cons _ h => exact .inl ⟨fun hy => hl.1 (h.subset hy), h⟩
      | cons_cons _ h => exact .inr ⟨_, rfl, h⟩
    intro a b ha hb he
    rcases key ha with ⟨h1, ha'⟩ | ⟨a', rfl, ha'⟩ <;> rcases key hb with ⟨h2, hb'⟩ | ⟨b', rfl, hb'⟩
    · exact ih hl.2 ha' hb' fun x hx => he x (List.mem_cons_of_mem _ hx)
    · exact absurd ((he y (List.mem_cons_self ..)).mpr (List.mem_cons_self ..)) h1
    · exact absurd ((he y (List.mem_cons_self ..)).mp (List.mem_cons_self ..)) h2
    · have : a' = b' := ih hl.2 ha' hb' fun x hx => by
        have := he x (List.mem_cons_of_mem _ hx)
        have hne : x ≠ y := fun e => hl.1 (e ▸ hx)
        simpa [hne] using this
      rw [this]

theorem names_unique {precise : Bool} {w : List Tok} {a : Option Tok} {es es' : List Str} (h : Names precise w a es) (h' : Names precise w a es') : es = es' := by
  obtain ⟨ps, h1, h2, rfl⟩ := h
  obtain ⟨ps', h1', h2', rfl⟩ := h'
  rw [sublist_unique names_nodup h1 h1' fun q hq => (h2 q hq).trans (h2' q hq).symm]

/-! ### The text -/

theorem fmtNames_tail : ∀ (es : List Str) {n i : Nat} {a : Str}, 0 < i → i + es.length = n → es ≠ [] → a ++ fmtNames n i es = enumeration (a :: es) := by
  intro es
  induction es with
  | nil => intro n i a _ _ h; exact absurd rfl h
  | cons e es ih =>
    intro n i a hi hn _
    rw [fmtNames, if_neg (by omega)]
    cases es with
    | nil =>
      simp only [List.length_cons, List.length_nil] at hn
      rw [if_neg (by omega)]
      simp [fmtNames, enumeration]
    | cons e' es =>
      simp only [List.length_cons] at hn
      rw [if_pos (by omega)]
      have := ih (n := n) (i := i + 1) (a := e) (by omega) (by simp only [List.length_cons]; omega) (by simp)
      rw [List.append_assoc, List.append_assoc, this]
      simp [enumeration]

theorem fmtExpected_eq {es : List Str} (h : es ≠ []) : fmtExpected es = c!"\nExpected one of " ++ enumeration es := by
  cases es with
  | nil => exact absurd rfl h
  | cons e es =>
    unfold fmtExpected
    simp only [List.isEmpty_cons, Bool.false_eq_true, if_false]
    rw [fmtNames, if_pos rfl]
    cases es with
    | nil => simp [fmtNames, enumeration]
    | cons e' es =>
      have := fmtNames_tail (e' :: es) (n := (e :: e' :: es).length) (i := 1) (a := e) (by omega) (by simp; omega) (by simp)
      rw [List.append_assoc, List.append_assoc, this]
      rfl

theorem expectLine_of {st : List (LrValue × LrState)} {xs : List Symbol} {w ts : List Tok} (h : Ctx st xs w ts) (hm : move (topState st) (nextTerminal ts) = .error)
    (hw : Begins w) (precise : Bool) : ExpectLine precise w ts.head? (fmtExpected (expectedNames precise (st.map (·.2)))) := by
  obtain ⟨h1, h2⟩ := names_of h hm hw precise
  exact ⟨_, h1, h2, fmtExpected_eq h2⟩

theorem expectLine_unique {precise : Bool} {w : List Tok} {a : Option Tok} {m m' : Str} (h : ExpectLine precise w a m) (h' : ExpectLine precise w a m') : m = m' := by
  obtain ⟨es, h1, _, rfl⟩ := h
  obtain ⟨es', h1', _, rfl⟩ := h'
  rw [names_unique h1 h1']

end Verif
