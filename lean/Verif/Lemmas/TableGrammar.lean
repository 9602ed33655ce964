import Verif.Lemmas.TablePrefix

/-! The derivations the table-driven parser works with are those of the grammar. -/

namespace Verif

/-- The nonterminals of `Derives`. -/
def NT.symbol : NT → Nonterminal
  | .expr => .expr | .or => .or | .and => .and | .logical => .logical | .not => .not | .add => .add | .mul => .mul | .factor => .factor | .term => .term

theorem der_unit {j : Nat} {a b : Nonterminal} (hp : productions[j]? = some (single a b)) {w : List Tok} {v : LrValue} (h : Der [.a b] w [v]) : Der [.a a] w [v] := by
  have := Der.nt (p := single a b) (v := v) hp (show Der (single a b).rhs w [v] from h) rfl .nil
  rw [List.append_nil] at this
  exact this

theorem der_binary {j : Nat} {a b : Nonterminal} {op : Terminal} {o : BinOp} (hp : productions[j]? = some (binary a op b o)) {t : Tok} (ht : t.terminal = op)
    {w w' : List Tok} {x y : Node} (h : Der [.a a] w [.node x]) (h' : Der [.a b] w' [.node y]) : Der [.a a] (w ++ t :: w') [.node (.binop o x y)] := by
  subst ht
  have hr : Der (binary a t.terminal b o).rhs (w ++ t :: w') [.node x, .tok t, .node y] := h.append (.tok h')
  have := Der.nt (v := .node (.binop o x y)) hp hr rfl .nil
  rw [List.append_nil] at this
  exact this

theorem der_unary {j : Nat} {a b : Nonterminal} {op : Terminal} {o : UnOp} (hp : productions[j]? = some ⟨a, [.t op, .a b], actUn o⟩) {t : Tok} (ht : t.terminal = op)
    {w : List Tok} {x : Node} (h : Der [.a b] w [.node x]) : Der [.a a] (t :: w) [.node (.unop o x)] := by
  subst ht
  have hr : Der [.t t.terminal, .a b] (t :: w) [.tok t, .node x] := .tok h
  have := Der.nt (v := .node (.unop o x)) hp hr rfl .nil
  rw [List.append_nil] at this
  exact this

theorem derives_der {nt : NT} {w : List Tok} {t : Node} (h : Derives nt w t) : Der [.a nt.symbol] w [.node t] := by
  induction h with
  | @exprCond w₁ w₂ w₃ a b c _ _ _ h1 h2 h3 =>
    have hr : Der [.a .or, .t .quest, .a .expr, .t .colon, .a .expr] (w₁ ++ .quest :: (w₂ ++ .colon :: w₃)) [.node a, .tok .quest, .node b, .tok .colon, .node c] :=
      h1.append (.tok (t := .quest) (h2.append (.tok (t := .colon) h3)))
    have := Der.nt (j := 2) (v := .node (.cond a b c)) rfl hr rfl .nil
    rw [List.append_nil] at this
    exact this
  | exprOr _ h => exact der_unit (j := 3) rfl h
  | or1 _ _ h h' => exact der_binary (j := 4) rfl rfl h h'
  | or2 _ _ h h' => exact der_binary (j := 5) rfl rfl h h'
  | orAnd _ h => exact der_unit (j := 6) rfl h
  | and1 _ _ h h' => exact der_binary (j := 7) rfl rfl h h'
  | and2 _ _ h h' => exact der_binary (j := 8) rfl rfl h h'
  | andLogical _ h => exact der_unit (j := 9) rfl h
  | logEq _ _ h h' => exact der_binary (j := 10) rfl rfl h h'
  | logNe _ _ h h' => exact der_binary (j := 11) rfl rfl h h'
  | logLt _ _ h h' => exact der_binary (j := 12) rfl rfl h h'
  | logLte _ _ h h' => exact der_binary (j := 13) rfl rfl h h'
  | logGt _ _ h h' => exact der_binary (j := 14) rfl rfl h h'
  | logGte _ _ h h' => exact der_binary (j := 15) rfl rfl h h'
  | logNot _ h => exact der_unit (j := 16) rfl h
  | not1 _ h => exact der_unary (j := 17) rfl rfl h
  | not2 _ h => exact der_unary (j := 18) rfl rfl h
  | notAdd _ h => exact der_unit (j := 19) rfl h
  | addAdd _ _ h h' => exact der_binary (j := 20) rfl rfl h h'
  | addSub _ _ h h' => exact der_binary (j := 21) rfl rfl h h'
  | addMul _ h => exact der_unit (j := 22) rfl h
  | mulMul _ _ h h' => exact der_binary (j := 23) rfl rfl h h'
  | mulDiv _ _ h h' => exact der_binary (j := 24) rfl rfl h h'
  | mulMod _ _ h h' => exact der_binary (j := 25) rfl rfl h h'
  | mulFactor _ h => exact der_unit (j := 26) rfl h
  | factorNeg _ h => exact der_unary (j := 27) rfl rfl h
  | factorTerm _ h => exact der_unit (j := 28) rfl h
  | @termNum ds v hn =>
    have h1 : Der [.a .num] [.num ds] [.num v] :=
      Der.nt (j := 32) (w₂ := []) (vs := []) rfl (.tok (t := .num ds) .nil) (by simp [actDigits, hn]) .nil
    exact Der.nt (j := 29) (w₂ := []) (vs := []) (v := .node (.num v)) rfl h1 rfl .nil
  | termVar => exact Der.nt (j := 30) (w₂ := []) (vs := []) (v := .node .var) rfl (.tok (t := .n) .nil) rfl .nil
  | @termParen w a _ h =>
    have hr : Der [.t .lpar, .a .expr, .t .rpar] (.lpar :: (w ++ [.rpar])) [.tok .lpar, .node a, .tok .rpar] :=
      .tok (t := .lpar) (h.append (.tok (t := .rpar) .nil))
    have := Der.nt (j := 31) (v := .node a) rfl hr rfl .nil
    rw [List.append_nil] at this
    exact this

/-- What the words and values of a symbol are in the grammar. -/
def Means : Symbol → List Tok → LrValue → Prop
  | .t a, w, v => ∃ t, w = [t] ∧ v = .tok t ∧ t.terminal = a
  | .a .start, w, v | .a .formula, w, v | .a .expr, w, v => ∃ t, v = .node t ∧ Derives .expr w t
  | .a .or, w, v => ∃ t, v = .node t ∧ Derives .or w t
  | .a .and, w, v => ∃ t, v = .node t ∧ Derives .and w t
  | .a .logical, w, v => ∃ t, v = .node t ∧ Derives .logical w t
  | .a .not, w, v => ∃ t, v = .node t ∧ Derives .not w t
  | .a .add, w, v => ∃ t, v = .node t ∧ Derives .add w t
  | .a .mul, w, v => ∃ t, v = .node t ∧ Derives .mul w t
  | .a .factor, w, v => ∃ t, v = .node t ∧ Derives .factor w t
  | .a .term, w, v => ∃ t, v = .node t ∧ Derives .term w t
  | .a .num, w, v => ∃ ds x, w = [.num ds] ∧ v = .num x ∧ numVal ds = some x

/-- `Means` for sequences. -/
inductive MeansAll : List Symbol → List Tok → List LrValue → Prop
  | nil : MeansAll [] [] []
  | cons {x xs w w' v vs} : Means x w v → MeansAll xs w' vs → MeansAll (x :: xs) (w ++ w') (v :: vs)

theorem meansAll_one {x : Symbol} {w : List Tok} {vs : List LrValue} (h : MeansAll [x] w vs) : ∃ v, vs = [v] ∧ Means x w v := by
  cases h with
  | cons h h' => cases h'; exact ⟨_, rfl, by simpa using h⟩

/-- The semantic action of the production agrees with the grammar. -/
def MeansWell (p : Production) : Prop := ∀ w vs v, MeansAll p.rhs w vs → p.act vs = .value v → Means (.a p.lhs) w v

theorem single_means {a b : Nonterminal} (h : ∀ w v, Means (.a b) w v → Means (.a a) w v) : MeansWell (single a b) := by
  intro w vs v hm ha
  obtain ⟨v', rfl, hv⟩ := meansAll_one hm
  cases ha
  exact h w v hv

theorem binary_means {a b : Nonterminal} {op : Terminal} {o : BinOp} (h : ∀ w w' x y t, Means (.a a) w (.node x) → t.terminal = op → Means (.a b) w' (.node y) →
    Means (.a a) (w ++ t :: w') (.node (.binop o x y))) : MeansWell (binary a op b o) := by
  intro w vs v hm ha
  cases hm with
  | @cons _ _ w1 _ v1 _ h1 hm =>
    cases hm with
    | cons h2 hm =>
      obtain ⟨t, rfl, rfl, ht⟩ := h2
      obtain ⟨v3, rfl, h3⟩ := meansAll_one hm
      cases v1 with
      | tok => cases ha
      | num => cases ha
      | node x =>
        cases v3 with
        | tok => cases ha
        | num => cases ha
        | node y =>
          cases ha
          exact h w1 _ x y t h1 ht h3

theorem unary_means {a b : Nonterminal} {op : Terminal} {o : UnOp} (h : ∀ w x t, t.terminal = op → Means (.a b) w (.node x) → Means (.a a) (t :: w) (.node (.unop o x))) :
    MeansWell ⟨a, [.t op, .a b], actUn o⟩ := by
  intro w vs v hm ha
  cases hm with
  | cons h2 hm =>
    obtain ⟨t, rfl, rfl, ht⟩ := h2
    obtain ⟨v3, rfl, h3⟩ := meansAll_one hm
    cases v3 with
    | tok => cases ha
    | num => cases ha
    | node y =>
      cases ha
      exact h _ y t ht h3

theorem production_means {p : Production} (hp : p ∈ productions) : MeansWell p := by
  simp only [productions, List.mem_cons, List.not_mem_nil, or_false] at hp
  have tk : ∀ {t : Tok} {a : Terminal}, t.terminal = a → ∀ t' : Tok, t'.terminal = a → a ≠ .digits → t = t' := by
    intro t a h t' h' hd
    subst h
    cases t <;> first | exact absurd rfl hd | (cases t' <;> first | rfl | cases h')
  rcases hp with rfl | rfl | rfl | rfl | rfl | rfl | rfl | rfl | rfl | rfl | rfl | rfl | rfl | rfl | rfl | rfl | rfl | rfl | rfl | rfl | rfl | rfl | rfl |
    rfl | rfl | rfl | rfl | rfl | rfl | rfl | rfl | rfl | rfl
  · exact single_means fun _ _ h => h
  · exact single_means fun _ _ h => h
  · intro w vs v hm ha
    cases hm with
    | @cons _ _ w1 _ v1 _ h1 hm =>
    cases hm with
    | cons h2 hm =>
    obtain ⟨t, rfl, rfl, ht⟩ := h2
    cases hm with
    | @cons _ _ w3 _ v3 _ h3 hm =>
    cases hm with
    | cons h4 hm =>
    obtain ⟨t', rfl, rfl, ht'⟩ := h4
    obtain ⟨v5, rfl, h5⟩ := meansAll_one hm
    obtain ⟨a, rfl, ha'⟩ := h1
    obtain ⟨b, rfl, hb⟩ := h3
    obtain ⟨c, rfl, hc⟩ := h5
    cases ha
    have e1 := tk ht .quest rfl (by decide)
    have e2 := tk ht' .colon rfl (by decide)
    subst e1 e2
    exact ⟨_, rfl, .exprCond ha' hb hc⟩
  · exact single_means fun _ _ ⟨t, h1, h2⟩ => ⟨t, h1, .exprOr h2⟩
  · exact binary_means fun _ _ _ _ t ⟨_, e1, h1⟩ ht ⟨_, e2, h2⟩ => by cases e1; cases e2; cases tk ht .oror rfl (by decide); exact ⟨_, rfl, .or1 h1 h2⟩
  · exact binary_means fun _ _ _ _ t ⟨_, e1, h1⟩ ht ⟨_, e2, h2⟩ => by cases e1; cases e2; cases tk ht .kwOr rfl (by decide); exact ⟨_, rfl, .or2 h1 h2⟩
  · exact single_means fun _ _ ⟨t, h1, h2⟩ => ⟨t, h1, .orAnd h2⟩
  · exact binary_means fun _ _ _ _ t ⟨_, e1, h1⟩ ht ⟨_, e2, h2⟩ => by cases e1; cases e2; cases tk ht .andand rfl (by decide); exact ⟨_, rfl, .and1 h1 h2⟩
  · exact binary_means fun _ _ _ _ t ⟨_, e1, h1⟩ ht ⟨_, e2, h2⟩ => by cases e1; cases e2; cases tk ht .kwAnd rfl (by decide); exact ⟨_, rfl, .and2 h1 h2⟩
  · exact single_means fun _ _ ⟨t, h1, h2⟩ => ⟨t, h1, .andLogical h2⟩
  · exact binary_means fun _ _ _ _ t ⟨_, e1, h1⟩ ht ⟨_, e2, h2⟩ => by cases e1; cases e2; cases tk ht .eqeq rfl (by decide); exact ⟨_, rfl, .logEq h1 h2⟩
  · exact binary_means fun _ _ _ _ t ⟨_, e1, h1⟩ ht ⟨_, e2, h2⟩ => by cases e1; cases e2; cases tk ht .ne rfl (by decide); exact ⟨_, rfl, .logNe h1 h2⟩
  · exact binary_means fun _ _ _ _ t ⟨_, e1, h1⟩ ht ⟨_, e2, h2⟩ => by cases e1; cases e2; cases tk ht .lt rfl (by decide); exact ⟨_, rfl, .logLt h1 h2⟩
  · exact binary_means fun _ _ _ _ t ⟨_, e1, h1⟩ ht ⟨_, e2, h2⟩ => by cases e1; cases e2; cases tk ht .le rfl (by decide); exact ⟨_, rfl, .logLte h1 h2⟩
  · exact binary_means fun _ _ _ _ t ⟨_, e1, h1⟩ ht ⟨_, e2, h2⟩ => by cases e1; cases e2; cases tk ht .gt rfl (by decide); exact ⟨_, rfl, .logGt h1 h2⟩
  · exact binary_means fun _ _ _ _ t ⟨_, e1, h1⟩ ht ⟨_, e2, h2⟩ => by cases e1; cases e2; cases tk ht .ge rfl (by decide); exact ⟨_, rfl, .logGte h1 h2⟩
  · exact single_means fun _ _ ⟨t, h1, h2⟩ => ⟨t, h1, .logNot h2⟩
  · exact unary_means fun _ _ t ht ⟨_, e1, h1⟩ => by cases e1; cases tk ht .bang rfl (by decide); exact ⟨_, rfl, .not1 h1⟩
  · exact unary_means fun _ _ t ht ⟨_, e1, h1⟩ => by cases e1; cases tk ht .kwNot rfl (by decide); exact ⟨_, rfl, .not2 h1⟩
  · exact single_means fun _ _ ⟨t, h1, h2⟩ => ⟨t, h1, .notAdd h2⟩
  · exact binary_means fun _ _ _ _ t ⟨_, e1, h1⟩ ht ⟨_, e2, h2⟩ => by cases e1; cases e2; cases tk ht .plus rfl (by decide); exact ⟨_, rfl, .addAdd h1 h2⟩
  · exact binary_means fun _ _ _ _ t ⟨_, e1, h1⟩ ht ⟨_, e2, h2⟩ => by cases e1; cases e2; cases tk ht .minus rfl (by decide); exact ⟨_, rfl, .addSub h1 h2⟩
  · exact single_means fun _ _ ⟨t, h1, h2⟩ => ⟨t, h1, .addMul h2⟩
  · exact binary_means fun _ _ _ _ t ⟨_, e1, h1⟩ ht ⟨_, e2, h2⟩ => by cases e1; cases e2; cases tk ht .star rfl (by decide); exact ⟨_, rfl, .mulMul h1 h2⟩
  · exact binary_means fun _ _ _ _ t ⟨_, e1, h1⟩ ht ⟨_, e2, h2⟩ => by cases e1; cases e2; cases tk ht .slash rfl (by decide); exact ⟨_, rfl, .mulDiv h1 h2⟩
  · exact binary_means fun _ _ _ _ t ⟨_, e1, h1⟩ ht ⟨_, e2, h2⟩ => by cases e1; cases e2; cases tk ht .percent rfl (by decide); exact ⟨_, rfl, .mulMod h1 h2⟩
  · exact single_means fun _ _ ⟨t, h1, h2⟩ => ⟨t, h1, .mulFactor h2⟩
  · exact unary_means fun _ _ t ht ⟨_, e1, h1⟩ => by cases e1; cases tk ht .minus rfl (by decide); exact ⟨_, rfl, .factorNeg h1⟩
  · exact single_means fun _ _ ⟨t, h1, h2⟩ => ⟨t, h1, .factorTerm h2⟩
  · intro w vs v hm ha
    obtain ⟨v1, rfl, ds, x, rfl, rfl, hn⟩ := meansAll_one hm
    cases ha
    exact ⟨_, rfl, .termNum hn⟩
  · intro w vs v hm ha
    obtain ⟨v1, rfl, t, rfl, rfl, ht⟩ := meansAll_one hm
    cases ha
    cases tk ht .n rfl (by decide)
    exact ⟨_, rfl, .termVar⟩
  · intro w vs v hm ha
    cases hm with
    | cons h2 hm =>
    obtain ⟨t, rfl, rfl, ht⟩ := h2
    cases hm with
    | @cons _ _ w3 _ v3 _ h3 hm =>
    obtain ⟨v5, rfl, t', rfl, rfl, ht'⟩ := meansAll_one hm
    obtain ⟨b, rfl, hb⟩ := h3
    cases ha
    cases tk ht .lpar rfl (by decide)
    cases tk ht' .rpar rfl (by decide)
    exact ⟨_, rfl, .termParen hb⟩
  · intro w vs v hm ha
    obtain ⟨v1, rfl, t, rfl, rfl, ht⟩ := meansAll_one hm
    cases t <;> first | cases ht; done | skip
    rename_i ds
    simp only [actDigits] at ha
    cases hn : numVal ds with
    | none => simp [hn] at ha
    | some x =>
      simp only [hn, Action.value.injEq] at ha
      exact ⟨ds, x, rfl, ha.symm, hn⟩

theorem der_means {xs : List Symbol} {w : List Tok} {vs : List LrValue} (h : Der xs w vs) : MeansAll xs w vs := by
  induction h with
  | nil => exact .nil
  | @tok t _ _ _ _ ih => exact .cons (w := [t]) ⟨t, rfl, rfl, rfl⟩ ih
  | nt hp _ ha _ ih1 ih2 => exact .cons (production_means (List.mem_of_getElem? hp) _ _ _ ih1 ha) ih2

theorem der_derives {w : List Tok} {t : Node} : Der [.a .formula] w [.node t] ↔ Derives .expr w t := by
  constructor
  · intro h
    obtain ⟨v, hv, t', rfl, ht⟩ := meansAll_one (der_means h)
    cases hv
    exact ht
  · intro h
    exact der_unit (j := 1) rfl (derives_der h)

/-! ### Tokens -/

theorem lexUntil_aux (k : Nat) : ∀ s : Str, lexAux k s = if (lexUntilAux k s).2 then some (lexUntilAux k s).1 else none := by
  induction k with
  | zero => intro s; rfl
  | succ k ih =>
    intro s
    simp only [lexAux, lexUntilAux]
    obtain ⟨x, hx⟩ : ∃ x, trimStart s = x := ⟨_, rfl⟩
    simp only [hx]
    cases x with
    | nil => rfl
    | cons c cs =>
      obtain ⟨y, hy⟩ : ∃ y, lexOne (c :: cs) = y := ⟨_, rfl⟩
      simp only [hy]
      cases y with
      | none => rfl
      | some p =>
        simp only [Option.bind_some, ih]
        cases (lexUntilAux k p.2).2 <;> rfl

theorem lex_lexUntil {s : Str} {ts : List Tok} : lex s = some ts ↔ lexUntil s = (ts, true) := by
  unfold lex lexUntil
  rw [lexUntil_aux]
  cases h : lexUntilAux s.length s with
  | mk a b => cases b <;> simp

end Verif
