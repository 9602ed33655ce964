import Verif.Lemmas.TableSound

/-! The table-driven parser for formulas: what has been read is always the beginning of a formula; the tokens after the next one do not matter; derivations
of the automaton and of the grammar are the same. -/

namespace Verif

/-! ### Beginnings of formulas -/

/-- The items of a state, by how they come into it. -/
inductive Reach (s : LrState) : LrItem → Prop
  | kernel {i} : i ∈ s → Reach s i
  | begin {i j b} : Reach s i → i.next = some (.a b) → lhsOf j = some b → Reach s ⟨j, 0⟩

theorem heads_reach {Q : Nonterminal → Prop} (hq : ∀ a, Q a → ∀ i ∈ beginnings a, ∀ b, i.next = some (.a b) → Q b) :
    ∀ (k : Nat) (seen todo : List Nonterminal), (∀ a ∈ seen, Q a) → (∀ a ∈ todo, Q a) → ∀ a ∈ heads k seen todo, Q a := by
  intro k
  induction k with
  | zero => intro seen todo h1 _ a ha; exact h1 a ha
  | succ k ih =>
    intro seen todo h1 h2 a ha
    cases todo with
    | nil => exact h1 a ha
    | cons c todo =>
      simp only [heads] at ha
      refine ih _ _ ?_ ?_ a ha
      · intro b hb
        rcases List.mem_append.mp hb with hb | hb
        · exact h1 b hb
        · exact h2 b hb
      · intro b hb
        rw [List.mem_eraseDups] at hb
        obtain ⟨c', hc', hb⟩ := List.mem_flatMap.mp hb
        obtain ⟨i, hi, hb⟩ := List.mem_filterMap.mp hb
        split at hb
        · rename_i b' hn
          split at hb
          · cases hb
          · cases hb
            exact hq c' (h2 c' hc') i hi _ hn
        · cases hb

theorem closure_reach {s : LrState} {i : LrItem} (h : i ∈ closure s) : Reach s i := by
  rcases List.mem_append.mp h with h | h
  · exact .kernel h
  · obtain ⟨a, ha, hi⟩ := List.mem_flatMap.mp h
    have hQ : ∃ i', Reach s i' ∧ i'.next = some (.a a) := by
      refine heads_reach (Q := fun a => ∃ i', Reach s i' ∧ i'.next = some (.a a)) ?_ 12 [] _ (by simp) ?_ a ha
      · rintro a ⟨i', h1, h2⟩ i hi b hb
        obtain ⟨hd, hl⟩ := beginnings_dot hi
        refine ⟨i, ?_, hb⟩
        have := Reach.begin (j := i.prod) h1 h2 hl
        rwa [← hd] at this
      · intro a ha
        rw [List.mem_eraseDups] at ha
        obtain ⟨i', h1, h2⟩ := List.mem_filterMap.mp ha
        split at h2
        · rename_i hn; cases h2; exact ⟨i', .kernel h1, hn⟩
        · cases h2
    obtain ⟨i', h1, h2⟩ := hQ
    obtain ⟨hd, hl⟩ := beginnings_dot hi
    have := Reach.begin (j := i.prod) h1 h2 hl
    rwa [← hd] at this

theorem der_single {j : Nat} {p : Production} (hp : productions[j]? = some p) {w : List Tok} {vs : List LrValue} (h : Der p.rhs w vs) (hn : p.lhs ≠ .num) :
    ∃ v, Der [.a p.lhs] w [v] := by
  rcases act_typed (List.mem_of_getElem? hp) _ h.typed with ⟨v, hv, _⟩ | ⟨hl, _⟩
  · exact ⟨v, by simpa using Der.nt hp h hv .nil⟩
  · exact absurd hl hn

theorem der_up {j : Nat} {p : Production} (hp : productions[j]? = some p) {b : Nonterminal} (hr : p.rhs = [.a b]) (hn : p.lhs ≠ .num) {w : List Tok}
    (h : ∃ v, Der [.a b] w [v]) : ∃ v, Der [.a p.lhs] w [v] := by
  obtain ⟨v, h⟩ := h
  rw [← hr] at h
  exact der_single hp h hn

theorem der_nonterminal (b : Nonterminal) : ∃ w v, Der [.a b] w [v] := by
  by_cases hb : b = .num
  · subst hb
    exact ⟨[.num ['0']], .num 0, Der.nt (j := 32) (w₂ := []) (vs := []) rfl (.tok (t := .num ['0']) .nil) rfl .nil⟩
  · have h0 : ∃ v, Der [.a .term] [.n] [v] := der_single (j := 30) rfl (.tok (t := .n) .nil) (by decide)
    have h1 : ∃ v, Der [.a .factor] [.n] [v] := der_up (j := 28) rfl rfl (by decide) h0
    have h2 : ∃ v, Der [.a .mul] [.n] [v] := der_up (j := 26) rfl rfl (by decide) h1
    have h3 : ∃ v, Der [.a .add] [.n] [v] := der_up (j := 22) rfl rfl (by decide) h2
    have h4 : ∃ v, Der [.a .not] [.n] [v] := der_up (j := 19) rfl rfl (by decide) h3
    have h5 : ∃ v, Der [.a .logical] [.n] [v] := der_up (j := 16) rfl rfl (by decide) h4
    have h6 : ∃ v, Der [.a .and] [.n] [v] := der_up (j := 9) rfl rfl (by decide) h5
    have h7 : ∃ v, Der [.a .or] [.n] [v] := der_up (j := 6) rfl rfl (by decide) h6
    have h8 : ∃ v, Der [.a .expr] [.n] [v] := der_up (j := 3) rfl rfl (by decide) h7
    have h9 : ∃ v, Der [.a .formula] [.n] [v] := der_up (j := 1) rfl rfl (by decide) h8
    have h10 : ∃ v, Der [.a .start] [.n] [v] := der_up (j := 0) rfl rfl (by decide) h9
    refine ⟨[.n], ?_⟩
    cases b <;> first | exact absurd rfl hb | assumption

theorem der_terminal {a : Terminal} (h : a ≠ .eof) : ∃ w v, Der [.t a] w [v] := by
  have key : ∀ t : Tok, ∃ w v, Der [.t t.terminal] w [v] := fun t => ⟨[t], .tok t, .tok .nil⟩
  cases a
  case bang => exact key .bang
  case ne => exact key .ne
  case percent => exact key .percent
  case andand => exact key .andand
  case lpar => exact key .lpar
  case rpar => exact key .rpar
  case star => exact key .star
  case plus => exact key .plus
  case minus => exact key .minus
  case slash => exact key .slash
  case colon => exact key .colon
  case lt => exact key .lt
  case le => exact key .le
  case eqeq => exact key .eqeq
  case gt => exact key .gt
  case ge => exact key .ge
  case quest => exact key .quest
  case kwAnd => exact key .kwAnd
  case n => exact key .n
  case kwNot => exact key .kwNot
  case kwOr => exact key .kwOr
  case oror => exact key .oror
  case digits => exact key (.num ['0'])
  case eof => exact absurd rfl h

theorem der_any {xs : List Symbol} (h : Symbol.t .eof ∉ xs) : ∃ w vs, Der xs w vs := by
  induction xs with
  | nil => exact ⟨[], [], .nil⟩
  | cons x xs ih =>
    obtain ⟨w, vs, hd⟩ := ih (fun hx => h (List.mem_cons_of_mem _ hx))
    have : ∃ w v, Der [x] w [v] := by
      rcases x with a | b
      · exact der_terminal (fun he => h (by rw [he]; exact List.mem_cons_self ..))
      · exact der_nonterminal b
    obtain ⟨w', v, hd'⟩ := this
    exact ⟨w' ++ w, v :: vs, hd'.append hd⟩

theorem rhs_no_eof {j : Nat} {p : Production} (hp : productions[j]? = some p) : Symbol.t .eof ∉ p.rhs := by
  have hb : ((List.range 33).all fun j => decide (Symbol.t .eof ∉ rhsOf j)) = true := by decide
  have := List.all_eq_true.mp hb j (by simpa using production_lt hp)
  rwa [decide_eq_true_eq, rhsOf_eq hp] at this

/-- A word of the nonterminal in this place makes a formula. -/
def FitsIn (w₀ : List Tok) (b : Nonterminal) (z : List Tok) : Prop := ∀ u v, Der [.a b] u [v] → ∃ t, Der [.a .formula] (w₀ ++ (u ++ z)) [.node t]

theorem lhsOf_some {j : Nat} {b : Nonterminal} (h : lhsOf j = some b) : ∃ p, productions[j]? = some p ∧ p.lhs = b := by
  unfold lhsOf at h
  cases hp : productions[j]? with
  | none => simp [hp] at h
  | some p => exact ⟨p, rfl, by simpa [hp] using h⟩

theorem der_formula {w : List Tok} {v : LrValue} (h : Der [.a .formula] w [v]) : ∃ t, v = .node t := by
  obtain ⟨t, ht⟩ := typed_single h.typed (by decide)
  cases ht
  exact ⟨t, rfl⟩

/-- Every item of the state on top can be completed to a formula. -/
theorem holds_fits {st : List (LrValue × LrState)} {xs : List Symbol} {w : List Tok} (h : Holds st xs w) : ∀ {j d : Nat}, ⟨j, d⟩ ∈ closure (topState st) →
    ∃ p w₀ w₁ vs z, productions[j]? = some p ∧ w = w₀ ++ w₁ ∧ Der (p.rhs.take d) w₁ vs ∧ FitsIn w₀ p.lhs z := by
  have key : ∀ {st : List (LrValue × LrState)} {w : List Tok}, (∀ {j d : Nat}, ⟨j, d⟩ ∈ topState st →
      ∃ p w₀ w₁ vs z, productions[j]? = some p ∧ w = w₀ ++ w₁ ∧ Der (p.rhs.take d) w₁ vs ∧ FitsIn w₀ p.lhs z) →
      ∀ {i : LrItem}, Reach (topState st) i → ∃ p w₀ w₁ vs z, productions[i.prod]? = some p ∧ w = w₀ ++ w₁ ∧ Der (p.rhs.take i.dot) w₁ vs ∧ FitsIn w₀ p.lhs z := by
    intro st w hk i hr
    induction hr with
    | kernel hi => exact hk hi
    | @begin i j b _ hn hl ih =>
      obtain ⟨p, w₀, w₁, vs, z, hp, rfl, hd, hf⟩ := ih
      obtain ⟨q, hq, rfl⟩ := lhsOf_some hl
      have hn' : p.rhs[i.dot]? = some (.a q.lhs) := by rw [← next_eq hp]; exact hn
      have hsplit : p.rhs = p.rhs.take i.dot ++ .a q.lhs :: p.rhs.drop (i.dot + 1) := by
        obtain ⟨hlt, he⟩ := List.getElem?_eq_some_iff.mp hn'
        rw [← he, List.getElem_cons_drop, List.take_append_drop]
      obtain ⟨y, ys, hy⟩ := der_any (xs := p.rhs.drop (i.dot + 1)) (fun hm => rhs_no_eof hp (List.mem_of_mem_drop hm))
      refine ⟨q, w₀ ++ w₁, [], [], y ++ z, hq, by simp, by simpa using Der.nil, ?_⟩
      intro u v hu
      have hpn : p.lhs ≠ .num := by
        intro hl'
        have := (num_production hp hl').2
        rw [this] at hn'
        cases hi : i.dot with
        | zero => rw [hi] at hn'; cases hn'
        | succ => rw [hi] at hn'; cases hn'
      have hd' : Der p.rhs (w₁ ++ (u ++ y)) (vs ++ v :: ys) := by
        rw [hsplit]
        exact hd.append (by simpa using hu.append hy)
      obtain ⟨v', hv'⟩ := der_single hp hd' hpn
      obtain ⟨t, ht⟩ := hf _ _ hv'
      exact ⟨t, by simpa using ht⟩
  induction h with
  | nil =>
    intro j d hi
    refine key (st := []) ?_ (closure_reach hi)
    intro j d hi
    simp only [topState, startState, List.mem_singleton, LrItem.mk.injEq] at hi
    obtain ⟨rfl, rfl⟩ := hi
    refine ⟨single .start .formula, [], [], [], [], rfl, rfl, by simpa using Der.nil, ?_⟩
    intro u v hu
    generalize hx : [Symbol.a (single .start .formula).lhs] = xs at hu
    generalize hvs : [v] = vs at hu
    cases hu with
    | nil => cases hx
    | tok => cases hx
    | @nt j p w₁ vs₁ v' xs w₂ vs hp h1 ha h2 =>
      simp only [List.cons.injEq, Symbol.a.injEq] at hx hvs
      obtain ⟨hl, rfl⟩ := hx
      have hj := start_production hp hl.symm
      subst hj
      have hpe : p = single .start .formula := by simpa [productions] using hp.symm
      subst hpe
      cases h2
      have hlen := h1.length
      obtain ⟨v1, rfl⟩ : ∃ v1, vs₁ = [v1] := by
        match vs₁, hlen with
        | [v1], _ => exact ⟨v1, rfl⟩
      obtain ⟨t, rfl⟩ := der_formula h1
      have h1' : Der [.a .formula] w₁ [.node t] := h1
      exact ⟨t, by simpa using h1'⟩
  | @cons st xs w x w' v h hg hd ih =>
    intro j d hi
    refine key (st := (v, goto (topState st) x) :: st) ?_ (closure_reach hi)
    intro j d hi
    obtain ⟨d', hd', hc, hn⟩ := mem_goto hi
    simp only at hd' hc hn
    subst hd'
    obtain ⟨p, w₀, w₁, vs, z, hp, rfl, hd1, hf⟩ := ih hc
    rw [next_eq hp] at hn
    refine ⟨p, w₀, w₁ ++ w', vs ++ [v], z, hp, by simp, ?_, hf⟩
    rw [List.take_add_one, hn]
    exact hd1.append hd

/-- What has been read can be completed to a formula, unless its last token is a numeral waiting for its value. -/
theorem holds_begins {st : List (LrValue × LrState)} {xs : List Symbol} {w : List Tok} (h : Holds st xs w) :
    (∃ q t, Der [.a .formula] (w ++ q) [.node t]) ∨
    (topState st = [⟨32, 1⟩] ∧ ∃ w₀ ds, w = w₀ ++ [.num ds] ∧ ∃ q t, Der [.a .formula] (w₀ ++ (.num ['0'] :: q)) [.node t]) := by
  obtain ⟨i, hi⟩ := List.exists_mem_of_ne_nil _ (state_ne h.state)
  obtain ⟨p, w₀, w₁, vs, z, hp, rfl, hd, hf⟩ := holds_fits h (List.mem_append_left _ hi : (⟨i.prod, i.dot⟩ : LrItem) ∈ closure (topState st))
  by_cases hl : p.lhs = .num
  · obtain ⟨hj, hr⟩ := num_production hp hl
    have hz : Der [.a p.lhs] [.num ['0']] [.num 0] := by
      rw [hl]
      exact Der.nt (j := 32) (w₂ := []) (vs := []) rfl (.tok (t := .num ['0']) .nil) rfl .nil
    rw [hr] at hd
    cases hdot : i.dot with
    | zero =>
      rw [hdot] at hd
      cases hd
      obtain ⟨t, ht⟩ := hf _ _ hz
      exact .inl ⟨[.num ['0']] ++ z, t, by simpa using ht⟩
    | succ n =>
      right
      rw [hdot] at hd
      have hn : n = 0 := by
        rcases closure_facts h.state (List.mem_append_left _ hi : (⟨i.prod, i.dot⟩ : LrItem) ∈ closure (topState st)) with ⟨h1, h2, _⟩ | ⟨_, p', hp', _, hle⟩
        · rw [hdot] at h2; cases h2
        · rw [hp] at hp'; cases hp'
          rw [hr, hdot] at hle
          simp at hle; exact hle
      subst hn
      have hi' : (⟨32, 1⟩ : LrItem) ∈ topState st := by
        have : i = ⟨32, 1⟩ := by cases i; simp_all
        rwa [← this]
      refine ⟨digits_state h.state hi', w₀, ?_⟩
      simp only [List.take_succ_cons, List.take_zero] at hd
      obtain ⟨t, vs', rfl, ht, hnil⟩ := typed_tok hd.typed
      have := typed_nil hnil
      subst this
      have hw := der_tok hd
      cases t <;> first | cases ht; done | skip
      rename_i ds
      refine ⟨ds, by rw [hw], z, ?_⟩
      obtain ⟨t, ht⟩ := hf _ _ hz
      exact ⟨t, by simpa using ht⟩
  · left
    obtain ⟨y, ys, hy⟩ := der_any (xs := p.rhs.drop i.dot) (fun hm => rhs_no_eof hp (List.mem_of_mem_drop hm))
    have hd' : Der p.rhs (w₁ ++ y) (vs ++ ys) := by
      have := hd.append hy
      rwa [List.take_append_drop] at this
    obtain ⟨v, hv⟩ := der_single hp hd' hl
    obtain ⟨t, ht⟩ := hf _ _ hv
    exact ⟨y ++ z, t, by simpa using ht⟩

/-! ### Tokens after the next one do not matter -/

/-- The tokens that are left when the parser stops. -/
def LrResult.rest : LrResult → Option (List Tok)
  | .unrecognized ts => some ts
  | .extra ts => some ts
  | .user ts => some ts
  | _ => none

/-- The same result with other tokens left. -/
def LrResult.withRest (ts : List Tok) : LrResult → LrResult
  | .unrecognized _ => .unrecognized ts
  | .extra _ => .extra ts
  | .user _ => .user ts
  | r => r

theorem step_local (eof : Bool) (st : List (LrValue × LrState)) (b : Tok) (r r' : List Tok) :
    (∃ res, lrStep eof st (b :: r) = .inl res ∧ lrStep true st (b :: r') = .inl (res.withRest (b :: r')) ∧ (res.rest = some (b :: r) ∨ res.rest = none)) ∨
    (∃ st', lrStep eof st (b :: r) = .inr (st', b :: r) ∧ lrStep true st (b :: r') = .inr (st', b :: r')) ∨
    (∃ st', lrStep eof st (b :: r) = .inr (st', r) ∧ lrStep true st (b :: r') = .inr (st', r')) := by
  simp only [lrStep, List.isEmpty_cons, Bool.false_and, Bool.false_eq_true, if_false, nextTerminal]
  cases move (topState st) b.terminal with
  | error => exact .inl ⟨_, rfl, rfl, .inl rfl⟩
  | shift => exact .inr (.inr ⟨_, rfl, rfl⟩)
  | reduce j =>
    dsimp only
    cases productions[j]? with
    | none => exact .inl ⟨_, rfl, rfl, .inr rfl⟩
    | some p =>
      dsimp only
      by_cases hl : st.length < p.rhs.length
      · simp only [hl, if_true]
        exact .inl ⟨_, rfl, rfl, .inr rfl⟩
      · simp only [hl, if_false]
        cases p.act ((st.take p.rhs.length).map (·.1)).reverse with
        | mismatch => exact .inl ⟨_, rfl, rfl, .inr rfl⟩
        | refused => exact .inl ⟨_, rfl, rfl, .inl rfl⟩
        | value v =>
          dsimp only
          by_cases hs : p.lhs = .start
          · simp only [hs, if_true]
            exact .inl ⟨_, rfl, rfl, .inl rfl⟩
          · simp only [hs, if_false]
            exact .inr (.inl ⟨_, rfl, rfl⟩)

theorem step_end (eof : Bool) (st : List (LrValue × LrState)) :
    (∃ res, lrStep eof st [] = .inl res ∧ (res.rest = some [] ∨ res.rest = none)) ∨ ∃ st', lrStep eof st [] = .inr (st', []) := by
  simp only [lrStep, List.isEmpty_nil, Bool.true_and, nextTerminal]
  cases eof with
  | false => exact .inl ⟨_, rfl, .inr rfl⟩
  | true =>
    simp only [Bool.not_true, Bool.false_eq_true, if_false]
    cases move (topState st) .eof with
    | error => exact .inl ⟨_, rfl, .inl rfl⟩
    | shift => exact .inl ⟨_, rfl, .inr rfl⟩
    | reduce j =>
      dsimp only
      cases productions[j]? with
      | none => exact .inl ⟨_, rfl, .inr rfl⟩
      | some p =>
        dsimp only
        by_cases hl : st.length < p.rhs.length
        · simp only [hl, if_true]
          exact .inl ⟨_, rfl, .inr rfl⟩
        · simp only [hl, if_false]
          cases p.act ((st.take p.rhs.length).map (·.1)).reverse with
          | mismatch => exact .inl ⟨_, rfl, .inr rfl⟩
          | refused => exact .inl ⟨_, rfl, .inl rfl⟩
          | value v =>
            dsimp only
            by_cases hs : p.lhs = .start
            · simp only [hs, if_true]
              cases v <;> exact .inl ⟨_, rfl, .inr rfl⟩
            · simp only [hs, if_false]
              exact .inr ⟨_, rfl⟩

/-- A step that does not shift depends only on the next terminal. -/
theorem step_terminal (eof : Bool) (st : List (LrValue × LrState)) {b b' : Tok} (hb : b.terminal = b'.terminal) (r r' : List Tok) :
    (∃ res, lrStep eof st (b :: r) = .inl res ∧ lrStep true st (b' :: r') = .inl (res.withRest (b' :: r'))) ∨
    (∃ st', lrStep eof st (b :: r) = .inr (st', b :: r) ∧ lrStep true st (b' :: r') = .inr (st', b' :: r')) ∨
    (∃ st', lrStep eof st (b :: r) = .inr (st', r)) := by
  simp only [lrStep, List.isEmpty_cons, Bool.false_and, Bool.false_eq_true, if_false, nextTerminal, ← hb]
  cases move (topState st) b.terminal with
  | error => exact .inl ⟨_, rfl, rfl⟩
  | shift => exact .inr (.inr ⟨_, rfl⟩)
  | reduce j =>
    dsimp only
    cases productions[j]? with
    | none => exact .inl ⟨_, rfl, rfl⟩
    | some p =>
      dsimp only
      by_cases hl : st.length < p.rhs.length
      · simp only [hl, if_true]
        exact .inl ⟨_, rfl, rfl⟩
      · simp only [hl, if_false]
        cases p.act ((st.take p.rhs.length).map (·.1)).reverse with
        | mismatch => exact .inl ⟨_, rfl, rfl⟩
        | refused => exact .inl ⟨_, rfl, rfl⟩
        | value v =>
          dsimp only
          by_cases hs : p.lhs = .start
          · simp only [hs, if_true]
            exact .inl ⟨_, rfl, rfl⟩
          · simp only [hs, if_false]
            exact .inr (.inl ⟨_, rfl, rfl⟩)

theorem rest_suffix (eof : Bool) : ∀ {k : Nat} {st : List (LrValue × LrState)} {ts rest : List Tok}, (lrLoop eof k st ts).rest = some rest → rest.length ≤ ts.length := by
  intro k
  induction k with
  | zero => intro st ts rest h; cases h
  | succ k ih =>
    intro st ts rest h
    rw [lrLoop] at h
    cases ts with
    | nil =>
      rcases step_end eof st with ⟨res, h1, h2 | h2⟩ | ⟨st', h1⟩
      · rw [h1] at h
        simp only at h
        rw [h2] at h; cases h; exact Nat.le_refl _
      · rw [h1] at h
        simp only at h
        rw [h2] at h; cases h
      · rw [h1] at h
        exact ih h
    | cons b r =>
      rcases step_local eof st b r r with ⟨res, h1, _, h2 | h2⟩ | ⟨st', h1, _⟩ | ⟨st', h1, _⟩
      · rw [h1] at h
        simp only at h
        rw [h2] at h; cases h; exact Nat.le_refl _
      · rw [h1] at h
        simp only at h
        rw [h2] at h; cases h
      · rw [h1] at h
        exact ih h
      · rw [h1] at h
        have := ih h
        simp; omega

theorem loop_local (eof : Bool) {a a' : Tok} (ha : a.terminal = a'.terminal) {r r' : List Tok} : ∀ {k : Nat} {st : List (LrValue × LrState)} {q : List Tok},
    (lrLoop eof k st (q ++ a :: r)).rest = some (a :: r) →
    lrLoop true k st (q ++ a' :: r') = (lrLoop eof k st (q ++ a :: r)).withRest (a' :: r') := by
  intro k
  induction k with
  | zero => intro st q h; cases h
  | succ k ih =>
    intro st q h
    rw [lrLoop] at h
    rw [lrLoop, lrLoop]
    cases q with
    | nil =>
      rw [List.nil_append] at h ⊢
      rw [List.nil_append]
      rcases step_terminal eof st ha r r' with ⟨res, h1, h2⟩ | ⟨st', h1, h2⟩ | ⟨st', h1⟩
      · rw [h1, h2]
      · rw [h1] at h
        rw [h1, h2]
        exact ih (q := []) h
      · rw [h1] at h
        have := rest_suffix eof h
        simp at this; omega
    | cons b q =>
      rw [List.cons_append] at h ⊢
      rw [List.cons_append]
      rcases step_local eof st b (q ++ a :: r) (q ++ a' :: r') with ⟨res, h1, h2, h3 | h3⟩ | ⟨st', h1, h2⟩ | ⟨st', h1, h2⟩
      · rw [h1] at h
        simp only at h
        rw [h3] at h
        have := congrArg List.length (Option.some.inj h)
        simp at this; omega
      · rw [h1] at h
        simp only at h
        rw [h3] at h; cases h
      · rw [h1] at h
        rw [h1, h2]
        exact ih (q := b :: q) h
      · rw [h1] at h
        rw [h1, h2]
        exact ih h

/-- More fuel changes nothing. -/
theorem loop_fuel (eof : Bool) : ∀ {k : Nat} {st : List (LrValue × LrState)} {ts : List Tok}, lrLoop eof k st ts ≠ .stuck → ∀ f, lrLoop eof (k + f) st ts = lrLoop eof k st ts := by
  intro k
  induction k with
  | zero => intro st ts h; exact absurd rfl h
  | succ k ih =>
    intro st ts h f
    rw [Nat.add_right_comm]
    rw [lrLoop] at h ⊢
    rw [lrLoop]
    cases hs : lrStep eof st ts with
    | inl r => rfl
    | inr c =>
      rw [hs] at h
      exact ih h f

end Verif
