import Verif.Spec.Grammar
import Verif.Lemmas.TableVerdict

/-! The text of the grammar file means the grammar of the model. -/

namespace Verif
open Spec

/-- `Name` -/
def gUnit (a : Str) : GAlt := ⟨[.plain (.id a)], .none⟩

/-- `<l:A> op <r:B> => Node::new_binop(BinOp::O, l, r)` -/
def gBin (a op b o : Str) : GAlt :=
  ⟨[.named (c!"l") (.id a), .plain (.str op), .named (c!"r") (.id b)],
   .plain (nodeCall (c!"new_binop") [.id (c!"BinOp"), .sign .path, .id o, .sign .comma, .id (c!"l"), .sign .comma, .id (c!"r")])⟩

/-- `op <r:A> => Node::new_unop(UnOp::O, r)` -/
def gUn (op a o : Str) : GAlt :=
  ⟨[.plain (.str op), .named (c!"r") (.id a)], .plain (nodeCall (c!"new_unop") [.id (c!"UnOp"), .sign .path, .id o, .sign .comma, .id (c!"r")])⟩

/-- The rules in the file. -/
def grammar : List GRule :=
  [⟨c!"Formula", [gUnit (c!"Expr")]⟩,
   ⟨c!"Expr",
    [⟨[.named (c!"test") (.id (c!"Or")), .plain (.str (c!"?")), .named (c!"if_true") (.id (c!"Expr")), .plain (.str (c!":")),
       .named (c!"if_false") (.id (c!"Expr"))],
      .plain (nodeCall (c!"new_cond") [.id (c!"test"), .sign .comma, .id (c!"if_true"), .sign .comma, .id (c!"if_false")])⟩,
     gUnit (c!"Or")]⟩,
   ⟨c!"Or", [gBin (c!"Or") (c!"||") (c!"And") (c!"Or"), gBin (c!"Or") (c!"or") (c!"And") (c!"Or"), gUnit (c!"And")]⟩,
   ⟨c!"And", [gBin (c!"And") (c!"&&") (c!"Logical") (c!"And"), gBin (c!"And") (c!"and") (c!"Logical") (c!"And"), gUnit (c!"Logical")]⟩,
   ⟨c!"Logical",
    [gBin (c!"Logical") (c!"==") (c!"Not") (c!"Eq"), gBin (c!"Logical") (c!"!=") (c!"Not") (c!"Ne"), gBin (c!"Logical") (c!"<") (c!"Not") (c!"Lt"),
     gBin (c!"Logical") (c!"<=") (c!"Not") (c!"Lte"), gBin (c!"Logical") (c!">") (c!"Not") (c!"Gt"), gBin (c!"Logical") (c!">=") (c!"Not") (c!"Gte"),
     gUnit (c!"Not")]⟩,
   ⟨c!"Not", [gUn (c!"!") (c!"Add") (c!"Not"), gUn (c!"not") (c!"Add") (c!"Not"), gUnit (c!"Add")]⟩,
   ⟨c!"Add", [gBin (c!"Add") (c!"+") (c!"Mul") (c!"Add"), gBin (c!"Add") (c!"-") (c!"Mul") (c!"Sub"), gUnit (c!"Mul")]⟩,
   ⟨c!"Mul",
    [gBin (c!"Mul") (c!"*") (c!"Factor") (c!"Mul"), gBin (c!"Mul") (c!"/") (c!"Factor") (c!"Div"), gBin (c!"Mul") (c!"%") (c!"Factor") (c!"Mod"),
     gUnit (c!"Factor")]⟩,
   ⟨c!"Factor", [gUn (c!"-") (c!"Term") (c!"Neg"), gUnit (c!"Term")]⟩,
   ⟨c!"Term",
    [⟨[.named (c!"n") (.id (c!"Num"))], .plain (nodeCall (c!"new_num") [.id (c!"n")])⟩,
     ⟨[.plain (.str (c!"n"))], .plain [.id (c!"Node"), .sign .path, .id (c!"Var")]⟩,
     ⟨[.plain (.str (c!"(")), .chosen (.id (c!"Expr")), .plain (.str (c!")"))], .none⟩]⟩,
   ⟨c!"Num", [⟨[.plain (.re (c!"[0-9]+"))], .fallible parseCode⟩]⟩]

set_option maxRecDepth 100000 in
theorem grammar_text : readGrammar grammarText = some grammar := by decide +kernel

/-- The names of the nonterminals. -/
def ntNames : List (Str × Nonterminal) :=
  [(c!"Formula", .formula), (c!"Expr", .expr), (c!"Or", .or), (c!"And", .and), (c!"Logical", .logical), (c!"Not", .not), (c!"Add", .add), (c!"Mul", .mul),
   (c!"Factor", .factor), (c!"Term", .term), (c!"Num", .num)]

/-- The symbol of the automaton. -/
def symOf : GSym → Option Symbol
  | .id s => (ntNames.lookup s).map .a
  | .str s => (literals.lookup s).map fun t => .t t.terminal
  | .re s => if s = c!"[0-9]+" then some (.t .digits) else none

/-! ### Alternatives and productions -/

/-- The alternative of this rule is the production. -/
def Agree (na : Str × GAlt) (q : Production) : Prop :=
  symOf (.id na.1) = some (.a q.lhs) ∧ na.2.parts.map (fun p => symOf p.sym) = q.rhs.map some ∧
  ∀ vs v, typed q.rhs vs → (Gives na.2 vs v ↔ q.act vs = .value v)

theorem typed_num {xs : List Symbol} {vs : List LrValue} (h : typed (.a .num :: xs) vs) : ∃ v vs', vs = .num v :: vs' ∧ typed xs vs' := by
  rcases vs with _ | ⟨v, vs⟩
  · cases h
  · cases v with
    | tok => cases h
    | num v => exact ⟨v, vs, rfl, h.2⟩
    | node t => exact absurd rfl h.1

theorem unit_gives {a : Str} {vs : List LrValue} {v : LrValue} : Gives (gUnit a) vs v ↔ vs = [v] := by
  constructor
  · intro h
    cases h with
    | only _ _ h => exact h
    | @chosen i _ _ _ h _ =>
      cases i <;> simp [gUnit] at h
    | var h => cases h
    | num h => cases h
    | unop h => cases h
    | binop h => cases h
    | cond h => cases h
    | parse h => cases h
  · intro h; exact .only rfl rfl h

theorem unit_agree {n a : Str} {x y : Nonterminal} (hn : symOf (.id n) = some (.a x)) (ha : symOf (.id a) = some (.a y)) :
    Agree (n, gUnit a) (single x y) := by
  refine ⟨hn, by simp [gUnit, GPart.sym, ha, single], fun vs v h => ?_⟩
  rw [unit_gives]
  rcases vs with _ | ⟨v', _ | ⟨v'', vs⟩⟩
  · simp [single, actSame]
  · simp [single, actSame]
  · simp [single, actSame]

theorem named_three {n₁ n₃ : Str} {x₁ x₃ : GSym} {p : GSym} {c : GCode} {v₁ v₂ v₃ : LrValue} (hne : n₁ ≠ n₃) {v : LrValue} :
    (Named ⟨[.named n₁ x₁, .plain p, .named n₃ x₃], c⟩ [v₁, v₂, v₃] n₁ v ↔ v = v₁) ∧ (Named ⟨[.named n₁ x₁, .plain p, .named n₃ x₃], c⟩ [v₁, v₂, v₃] n₃ v ↔ v = v₃) := by
  constructor <;> constructor
  · rintro ⟨i, x, h, h'⟩
    match i with
    | 0 => simpa using h'.symm
    | 1 => simp at h
    | 2 => simp only [List.getElem?_cons_succ, List.getElem?_cons_zero, Option.some.injEq, GPart.named.injEq] at h; exact absurd h.1.symm hne
    | i + 3 => simp at h
  · rintro rfl; exact ⟨0, x₁, rfl, rfl⟩
  · rintro ⟨i, x, h, h'⟩
    match i with
    | 0 => simp only [List.getElem?_cons_zero, Option.some.injEq, GPart.named.injEq] at h; exact absurd h.1 hne
    | 1 => simp at h
    | 2 => simpa using h'.symm
    | i + 3 => simp at h
  · rintro rfl; exact ⟨2, x₃, rfl, rfl⟩

theorem bin_agree {n a op b o : Str} {x y : Nonterminal} {t : Terminal} {bo : BinOp} (hn : symOf (.id n) = some (.a x)) (ha : a = n) (hop : symOf (.str op) = some (.t t))
    (hb : symOf (.id b) = some (.a y)) (ho : ∀ op', (o, op') ∈ binNames ↔ op' = bo) (hx : x ≠ .num) (hy : y ≠ .num) :
    Agree (n, gBin a op b o) (binary x t y bo) := by
  subst ha
  refine ⟨hn, by simp [gBin, GPart.sym, hn, hop, hb, binary], fun vs v h => ?_⟩
  obtain ⟨l, vs, rfl, h1⟩ := typed_cons h hx
  obtain ⟨tk, vs, rfl, _, h2⟩ := typed_tok h1
  obtain ⟨r, rfl⟩ := typed_single h2 hy
  show _ ↔ Action.value (.node (.binop bo l r)) = Action.value v
  constructor
  · intro h
    cases h with
    | only h => cases h
    | chosen h => cases h
    | var h => simp [gBin, nodeCall] at h
    | num h => simp [gBin, nodeCall] at h
    | unop h => simp [gBin, nodeCall] at h
    | cond h => simp [gBin, nodeCall] at h
    | parse h => cases h
    | binop h h3 h4 h5 =>
      simp only [gBin, nodeCall, List.cons_append, List.nil_append, GCode.plain.injEq, List.cons.injEq, GTok.id.injEq, true_and, and_true] at h
      obtain ⟨rfl, rfl, rfl⟩ := h
      have e1 := (named_three (by decide)).1.mp h4
      have e2 := (named_three (by decide)).2.mp h5
      cases e1; cases e2
      rw [(ho _).mp h3]
  · intro h
    cases h
    exact .binop rfl ((ho _).mpr rfl) ((named_three (by decide)).1.mpr rfl) ((named_three (by decide)).2.mpr rfl)

theorem un_agree {n op a o : Str} {x y : Nonterminal} {t : Terminal} {uo : UnOp} (hn : symOf (.id n) = some (.a x)) (hop : symOf (.str op) = some (.t t))
    (ha : symOf (.id a) = some (.a y)) (ho : ∀ op', (o, op') ∈ unNames ↔ op' = uo) (hy : y ≠ .num) :
    Agree (n, gUn op a o) ⟨x, [.t t, .a y], actUn uo⟩ := by
  refine ⟨hn, by simp [gUn, GPart.sym, hop, ha], fun vs v h => ?_⟩
  obtain ⟨tk, vs, rfl, _, h2⟩ := typed_tok h
  obtain ⟨r, rfl⟩ := typed_single h2 hy
  show _ ↔ Action.value (.node (.unop uo r)) = Action.value v
  have hnm : ∀ v, Named (gUn op a o) [.tok tk, .node r] (c!"r") v ↔ v = .node r := by
    intro v
    constructor
    · rintro ⟨i, x, h, h'⟩
      match i with
      | 0 => simp [gUn] at h
      | 1 => simpa using h'.symm
      | i + 2 => simp at h'
    · rintro rfl; exact ⟨1, .id a, rfl, rfl⟩
  constructor
  · intro h
    cases h with
    | only h => cases h
    | chosen h => cases h
    | var h => simp [gUn, nodeCall] at h
    | num h => simp [gUn, nodeCall] at h
    | binop h => simp [gUn, nodeCall] at h
    | cond h => simp [gUn, nodeCall] at h
    | parse h => cases h
    | unop h h3 h4 =>
      simp only [gUn, nodeCall, List.cons_append, List.nil_append, GCode.plain.injEq, List.cons.injEq, GTok.id.injEq, true_and, and_true] at h
      obtain ⟨rfl, rfl⟩ := h
      have e1 := (hnm _).mp h4
      cases e1
      rw [(ho _).mp h3]
  · intro h
    cases h
    exact .unop rfl ((ho _).mpr rfl) ((hnm _).mpr rfl)

/-- All of them, in order. -/
def agrees : List (Str × GAlt) → List Production → Prop
  | [], [] => True
  | a :: as, q :: qs => Agree a q ∧ agrees as qs
  | _, _ => False

/-- The alternatives with the names of their rules. -/
def alternatives (g : List GRule) : List (Str × GAlt) := g.flatMap fun r => r.alts.map fun a => (r.name, a)

theorem grammar_agrees : agrees (alternatives grammar) productions.tail := by
  have hb : ∀ o bo, (binNames.lookup o = some bo) → (∀ op', (o, op') ∈ binNames ↔ op' = bo) := by
    intro o bo h op'
    have hm : (o, bo) ∈ binNames := by
      obtain ⟨l₁, l₂, h, _⟩ := List.lookup_eq_some_iff.mp h
      rw [h]; simp
    have key : ∀ p ∈ binNames, ∀ q ∈ binNames, p.1 = q.1 → p.2 = q.2 := by decide
    exact ⟨fun h' => key _ h' _ hm rfl, fun h' => h' ▸ hm⟩
  have hu : ∀ o uo, (unNames.lookup o = some uo) → (∀ op', (o, op') ∈ unNames ↔ op' = uo) := by
    intro o bo h op'
    have hm : (o, bo) ∈ unNames := by
      obtain ⟨l₁, l₂, h, _⟩ := List.lookup_eq_some_iff.mp h
      rw [h]; simp
    have key : ∀ p ∈ unNames, ∀ q ∈ unNames, p.1 = q.1 → p.2 = q.2 := by decide
    exact ⟨fun h' => key _ h' _ hm rfl, fun h' => h' ▸ hm⟩
  simp only [alternatives, grammar, productions, List.tail_cons, List.flatMap_cons, List.flatMap_nil, List.map_cons, List.map_nil, List.cons_append, List.nil_append,
    List.append_nil, agrees]
  refine ⟨?_, ?_, ?_, ?_, ?_, ?_, ?_, ?_, ?_, ?_, ?_, ?_, ?_, ?_, ?_, ?_, ?_, ?_, ?_, ?_, ?_, ?_, ?_, ?_, ?_, ?_, ?_, ?_, ?_, ?_, ?_, ?_, trivial⟩
  all_goals first
    | exact unit_agree (by decide) (by decide)
    | exact bin_agree (by decide) rfl (by decide) (by decide) (hb _ _ (by decide)) (by decide) (by decide)
    | exact un_agree (by decide) (by decide) (by decide) (hu _ _ (by decide)) (by decide)
    | skip
  · -- the conditional
    refine ⟨by decide, by decide, fun vs v h => ?_⟩
    obtain ⟨a, vs, rfl, h1⟩ := typed_cons h (by decide)
    obtain ⟨t, vs, rfl, _, h2⟩ := typed_tok h1
    obtain ⟨b, vs, rfl, h3⟩ := typed_cons h2 (by decide)
    obtain ⟨t', vs, rfl, _, h4⟩ := typed_tok h3
    obtain ⟨c, rfl⟩ := typed_single h4 (by decide)
    show _ ↔ Action.value (.node (.cond a b c)) = Action.value v
    constructor
    · intro h
      cases h with
      | only h => cases h
      | chosen h => cases h
      | var h => simp [nodeCall] at h
      | num h => simp [nodeCall] at h
      | unop h => simp [nodeCall] at h
      | binop h => simp [nodeCall] at h
      | parse h => cases h
      | cond h h5 h6 h7 =>
        simp only [nodeCall, List.cons_append, List.nil_append, GCode.plain.injEq, List.cons.injEq, GTok.id.injEq, true_and, and_true] at h
        obtain ⟨rfl, rfl, rfl⟩ := h
        obtain ⟨i, x, e, e'⟩ := h5
        obtain ⟨i', x', f, f'⟩ := h6
        obtain ⟨i'', x'', g, g'⟩ := h7
        have e0 : i = 0 := by
          match i with
          | 0 => rfl
          | 1 => simp at e
          | 2 => simp at e
          | 3 => simp at e
          | 4 => simp at e
          | i + 5 => simp at e
        have f0 : i' = 2 := by
          match i' with
          | 0 => simp at f
          | 1 => simp at f
          | 2 => rfl
          | 3 => simp at f
          | 4 => simp at f
          | i + 5 => simp at f
        have g0 : i'' = 4 := by
          match i'' with
          | 0 => simp at g
          | 1 => simp at g
          | 2 => simp at g
          | 3 => simp at g
          | 4 => rfl
          | i + 5 => simp at g
        subst e0; subst f0; subst g0
        simp at e' f' g'
        subst e'; subst f'; subst g'
        rfl
    · intro h
      cases h
      exact .cond rfl ⟨0, _, rfl, rfl⟩ ⟨2, _, rfl, rfl⟩ ⟨4, _, rfl, rfl⟩
  · -- a numeral
    refine ⟨by decide, by decide, fun vs v h => ?_⟩
    obtain ⟨x, vs, rfl, h1⟩ := typed_num h
    have := typed_nil h1
    subst this
    show _ ↔ Action.value (.node (.num x)) = Action.value v
    constructor
    · intro h
      cases h with
      | only h => cases h
      | chosen h => cases h
      | var h => simp [nodeCall] at h
      | cond h => simp [nodeCall] at h
      | unop h => simp [nodeCall] at h
      | binop h => simp [nodeCall] at h
      | parse h => cases h
      | num h h2 =>
        obtain ⟨i, y, e, e'⟩ := h2
        match i with
        | 0 => simp at e'; subst e'; rfl
        | i + 1 => simp at e'
    · intro h
      cases h
      exact .num rfl ⟨0, _, rfl, rfl⟩
  · -- `n`
    refine ⟨by decide, by decide, fun vs v h => ?_⟩
    obtain ⟨t, vs, rfl, _, h1⟩ := typed_tok h
    have := typed_nil h1
    subst this
    show _ ↔ Action.value (.node .var) = Action.value v
    constructor
    · intro h
      cases h with
      | only h => cases h
      | chosen h => cases h
      | var h => rfl
      | cond h => simp [nodeCall] at h
      | unop h => simp [nodeCall] at h
      | binop h => simp [nodeCall] at h
      | parse h => cases h
      | num h h2 => simp [nodeCall] at h
    · intro h
      cases h
      exact .var rfl
  · -- parentheses
    refine ⟨by decide, by decide, fun vs v h => ?_⟩
    obtain ⟨t, vs, rfl, _, h1⟩ := typed_tok h
    obtain ⟨b, vs, rfl, h2⟩ := typed_cons h1 (by decide)
    obtain ⟨t', vs, rfl, _, h3⟩ := typed_tok h2
    have := typed_nil h3
    subst this
    show _ ↔ Action.value (.node b) = Action.value v
    constructor
    · intro h
      cases h with
      | only _ h => cases h
      | @chosen i _ _ _ h h' =>
        match i with
        | 0 => simp at h
        | 1 => simp at h'; subst h'; rfl
        | 2 => simp at h
        | i + 3 => simp at h
      | var h => cases h
      | cond h => cases h
      | unop h => cases h
      | binop h => cases h
      | parse h => cases h
      | num h h2 => cases h
    · intro h
      cases h
      exact .chosen (i := 1) rfl rfl rfl
  · -- digits
    refine ⟨by decide, by decide, fun vs v h => ?_⟩
    obtain ⟨t, vs, rfl, ht, h1⟩ := typed_tok h
    have := typed_nil h1
    subst this
    obtain ⟨ds, rfl⟩ := terminal_digits ht
    show _ ↔ (match numVal ds with | some v => Action.value (.num v) | none => .refused) = Action.value v
    have e : digitsVal ds = Nat.ofDigitChars 10 ds 0 := by rw [Nat.ofDigitChars_eq_foldl]; rfl
    unfold numVal
    rw [e]
    constructor
    · intro h
      cases h with
      | only h => cases h
      | chosen h => cases h
      | var h => cases h
      | cond h => cases h
      | unop h => cases h
      | binop h => cases h
      | num h h2 => cases h
      | parse _ _ h h' =>
        cases h
        rw [if_pos h']
    · intro h
      by_cases hlt : Nat.ofDigitChars 10 ds 0 < 2 ^ 63
      · rw [if_pos hlt] at h
        cases h
        exact .parse rfl rfl rfl hlt
      · rw [if_neg hlt] at h
        cases h

/-! ### Derivations -/

theorem agrees_left : ∀ {as : List (Str × GAlt)} {qs : List Production}, agrees as qs → ∀ a ∈ as, ∃ (j : Nat) (q : Production), qs[j]? = some q ∧ Agree a q := by
  intro as
  induction as with
  | nil => intro qs _ a ha; cases ha
  | cons b as ih =>
    intro qs h a ha
    cases qs with
    | nil => cases h
    | cons q qs =>
      rcases List.mem_cons.mp ha with rfl | ha
      · exact ⟨0, q, rfl, h.1⟩
      · obtain ⟨j, q', h1, h2⟩ := ih h.2 a ha
        exact ⟨j + 1, q', h1, h2⟩

theorem agrees_right : ∀ {as : List (Str × GAlt)} {qs : List Production}, agrees as qs → ∀ {j : Nat} {q}, qs[j]? = some q → ∃ a ∈ as, Agree a q := by
  intro as
  induction as with
  | nil =>
    intro qs h j q hq
    cases qs with
    | nil => simp at hq
    | cons => cases h
  | cons b as ih =>
    intro qs h j q hq
    cases qs with
    | nil => cases h
    | cons q' qs =>
      cases j with
      | zero =>
        simp at hq
        subst hq
        exact ⟨b, List.mem_cons_self .., h.1⟩
      | succ j =>
        obtain ⟨a, h1, h2⟩ := ih h.2 hq
        exact ⟨a, List.mem_cons_of_mem _ h1, h2⟩

theorem mem_alternatives {g : List GRule} {na : Str × GAlt} : na ∈ alternatives g ↔ ∃ r ∈ g, r.name = na.1 ∧ na.2 ∈ r.alts := by
  obtain ⟨n, a⟩ := na
  simp only [alternatives, List.mem_flatMap, List.mem_map, Prod.mk.injEq]
  constructor
  · rintro ⟨r, hr, a', ha, rfl, rfl⟩; exact ⟨r, hr, rfl, ha⟩
  · rintro ⟨r, hr, rfl, ha⟩; exact ⟨r, hr, a, ha, rfl, rfl⟩

theorem literal_lookup {s : Str} {t : Tok} : literals.lookup s = some t ↔ Lexeme s t ∧ ∀ ds, t ≠ .num ds := by
  constructor
  · intro h
    obtain ⟨l₁, l₂, h, _⟩ := List.lookup_eq_some_iff.mp h
    have hm : (s, t) ∈ literals := by rw [h]; simp
    refine ⟨(mem_literals hm).1, fun ds e => ?_⟩
    have key : ∀ p ∈ literals, p.2.terminal ≠ .digits := by decide
    exact key _ hm (by rw [e]; rfl)
  · rintro ⟨h, hn⟩
    cases h with
    | num => exact absurd rfl (hn _)
    | _ => rfl

theorem sym_str {s : Str} {a : Terminal} (h : symOf (.str s) = some (.t a)) : ∃ t, Lexeme s t ∧ t.terminal = a ∧ a ≠ .digits := by
  simp only [symOf, Option.map_eq_some_iff, Symbol.t.injEq] at h
  obtain ⟨t, h, rfl⟩ := h
  obtain ⟨h1, h2⟩ := literal_lookup.mp h
  refine ⟨t, h1, rfl, fun hd => ?_⟩
  obtain ⟨ds, rfl⟩ := terminal_digits hd
  exact h2 ds rfl

theorem terminal_inj {t t' : Tok} (h : t.terminal = t'.terminal) (hd : t.terminal ≠ .digits) : t = t' := by
  cases t <;> cases t' <;> first | rfl | (exact absurd rfl hd) | cases h

theorem gen_der {xs : List GSym} {w : List Tok} {vs : List LrValue} (h : Gen grammar xs w vs) : ∀ {ys}, xs.map symOf = ys.map some → Der ys w vs := by
  induction h with
  | nil =>
    intro ys h
    cases ys with
    | nil => exact .nil
    | cons => cases h
  | @literal s tok xs w vs hl _ ih =>
    intro ys h
    cases ys with
    | nil => cases h
    | cons y ys =>
      simp only [List.map_cons, List.cons.injEq] at h
      have hy : y = .t tok.terminal := by
        have h1 := h.1
        simp only [symOf, Option.map_eq_some_iff] at h1
        obtain ⟨t, ht, rfl⟩ := h1
        rw [lexeme_unique hl (literal_lookup.mp ht).1]
      rw [hy]
      exact .tok (ih h.2)
  | @digits ds xs w vs _ ih =>
    intro ys h
    cases ys with
    | nil => cases h
    | cons y ys =>
      simp only [List.map_cons, List.cons.injEq] at h
      have hy : y = .t (Tok.num ds).terminal := (Option.some.inj h.1).symm
      rw [hy]
      exact .tok (ih h.2)
  | @rule r a w₁ vs₁ v xs w₂ vs hr ha _ hg _ ih1 ih2 =>
    intro ys h
    cases ys with
    | nil => cases h
    | cons y ys =>
      simp only [List.map_cons, List.cons.injEq] at h
      obtain ⟨j, q, hq, h1, h2, h3⟩ := agrees_left grammar_agrees (r.name, a) (mem_alternatives.mpr ⟨r, hr, rfl, ha⟩)
      have hd := ih1 (ys := q.rhs) (by rw [List.map_map]; exact h2)
      have hy : y = .a q.lhs := by
        have := h.1
        rw [h1] at this
        exact (Option.some.inj this).symm
      rw [hy]
      exact .nt (j := j + 1) (by simpa using hq) hd ((h3 _ _ hd.typed).mp hg) (ih2 h.2)

theorem names_inj {x : GSym} {n : Str} {b : Nonterminal} (h : symOf x = some (.a b)) (h' : symOf (.id n) = some (.a b)) : x = .id n := by
  cases x with
  | str s =>
    simp only [symOf, Option.map_eq_some_iff] at h
    obtain ⟨_, _, h⟩ := h; cases h
  | re s =>
    simp only [symOf] at h
    split at h <;> cases h
  | id s =>
    simp only [symOf, Option.map_eq_some_iff, Symbol.a.injEq, exists_eq_right] at h h'
    have hm : ∀ {s : Str}, ntNames.lookup s = some b → (s, b) ∈ ntNames := by
      intro s h
      obtain ⟨l₁, l₂, h, _⟩ := List.lookup_eq_some_iff.mp h
      rw [h]; simp
    have key : ∀ p ∈ ntNames, ∀ q ∈ ntNames, p.2 = q.2 → p.1 = q.1 := by decide
    exact congrArg GSym.id (key _ (hm h) _ (hm h') rfl)

theorem der_gen {ys : List Symbol} {w : List Tok} {vs : List LrValue} (h : Der ys w vs) : ∀ {xs : List GSym}, xs.map symOf = ys.map some → Gen grammar xs w vs := by
  induction h with
  | nil =>
    intro xs h
    cases xs with
    | nil => exact .nil
    | cons => cases h
  | @tok t ys w vs _ ih =>
    intro xs h
    cases xs with
    | nil => cases h
    | cons x xs =>
      simp only [List.map_cons, List.cons.injEq] at h
      obtain ⟨h1, h2⟩ := h
      cases x with
      | id s =>
        simp only [symOf, Option.map_eq_some_iff] at h1
        obtain ⟨_, _, h1⟩ := h1; cases h1
      | str s =>
        obtain ⟨t', hl, ht, hd⟩ := sym_str h1
        have := terminal_inj ht (by rw [ht]; exact hd)
        subst this
        exact .literal hl (ih h2)
      | re s =>
        simp only [symOf] at h1
        split at h1
        · rename_i hs
          subst hs
          obtain ⟨ds, rfl⟩ := terminal_digits (Symbol.t.inj (Option.some.inj h1)).symm
          exact .digits (ih h2)
        · cases h1
  | @nt j p w₁ vs₁ v ys w₂ vs hp hd ha _ ih1 ih2 =>
    intro xs h
    cases xs with
    | nil => cases h
    | cons x xs =>
      simp only [List.map_cons, List.cons.injEq] at h
      obtain ⟨h1, h2⟩ := h
      cases j with
      | zero =>
        have : p = single .start .formula := (Option.some.inj hp).symm
        subst this
        exfalso
        have key : ∀ p ∈ ntNames, p.2 ≠ .start := by decide
        cases x with
        | id s =>
          simp only [symOf, Option.map_eq_some_iff, Symbol.a.injEq] at h1
          obtain ⟨b, hb, rfl⟩ := h1
          obtain ⟨l₁, l₂, h, _⟩ := List.lookup_eq_some_iff.mp hb
          exact key (s, .start) (by rw [h]; simp [single]) rfl
        | str s =>
          simp only [symOf, Option.map_eq_some_iff] at h1
          obtain ⟨_, _, h1⟩ := h1; cases h1
        | re s =>
          simp only [symOf] at h1
          split at h1 <;> cases h1
      | succ j =>
        obtain ⟨⟨n, a⟩, hm, h3, h4, h5⟩ := agrees_right grammar_agrees (j := j) (q := p) (by simpa using hp)
        obtain ⟨r, hr, rfl, har⟩ := mem_alternatives.mp hm
        rw [names_inj h1 h3]
        exact .rule hr har (ih1 (by rw [List.map_map]; exact h4)) ((h5 _ _ hd.typed).mpr ha) (ih2 h2)

theorem gen_derives {w : List Tok} {t : Node} : Gen grammar [.id (c!"Formula")] w [.node t] ↔ Derives .expr w t := by
  rw [← der_derives]
  exact ⟨fun h => gen_der h rfl, fun h => der_gen h rfl⟩

theorem grammar_literals {s : Str} : HasLiteral grammar s ↔ ∃ tok, Lexeme s tok ∧ ∀ ds, tok ≠ .num ds := by
  have h1 : ∀ r ∈ grammar, ∀ a ∈ r.alts, ∀ p ∈ a.parts, (match p.sym with | .str s => (literals.lookup s).isSome | _ => true) = true := by decide
  have h2 : ∀ l ∈ literals, (grammar.any fun r => r.alts.any fun a => a.parts.any fun p => decide (p.sym = .str l.1)) = true := by decide
  constructor
  · rintro ⟨r, hr, a, ha, p, hp, e⟩
    have := h1 r hr a ha p hp
    rw [e] at this
    obtain ⟨t, ht⟩ := Option.isSome_iff_exists.mp this
    exact ⟨t, literal_lookup.mp ht⟩
  · rintro ⟨t, ht⟩
    obtain ⟨l₁, l₂, h, _⟩ := List.lookup_eq_some_iff.mp (literal_lookup.mpr ht)
    have := h2 (s, t) (by rw [h]; simp)
    simp only [List.any_eq_true, decide_eq_true_eq] at this
    exact this

end Verif
