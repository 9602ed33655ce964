import Verif.Model.Steps
import Verif.Spec.Steps
import Verif.Props.Formula
import Verif.Props.Size
import Verif.Props.Accessors

/-! C66: size of formulas, work and depth of their evaluation. -/

namespace Verif
open Spec

theorem bind_result (x : Steps) (f : Int64 → Steps) : (x.bind f).result = x.result.bind fun v => (f v).result := by
  unfold Steps.bind Out.bind
  cases x.result <;> rfl

/-- **C66** Counting changes nothing. -/
theorem C66_same (dbg : Bool) (n : Int64) (t : Node) : (t.steps dbg n).result = t.execute dbg n := by
  induction t with
  | var => rfl
  | num => rfl
  | unop o a ih => cases o <;> (rw [Node.steps, Node.execute, Steps.call, bind_result, ih]; rfl)
  | binop o a b iha ihb =>
    rw [Node.steps, Node.execute, Steps.call, bind_result, iha]
    congr 1
    funext l
    cases o
    case and =>
      simp only
      split
      · rw [bind_result, ihb]; rfl
      · rfl
    case or =>
      simp only
      split
      · rfl
      · rw [bind_result, ihb]; rfl
    all_goals (simp only; rw [bind_result, ihb]; rfl)
  | cond a b c iha ihb ihc =>
    rw [Node.steps, Node.execute, Steps.call, bind_result, iha]
    congr 1
    funext l
    split
    · exact ihb
    · exact ihc

theorem bind_calls {x : Steps} {f : Int64 → Steps} {k m : Nat} (h1 : x.calls ≤ k) (h2 : ∀ v, (f v).calls ≤ m) : (x.bind f).calls ≤ k + m := by
  unfold Steps.bind
  cases x.result with
  | ok v => have := h2 v; simp only; omega
  | err => simp only; omega
  | panic => simp only; omega

theorem bind_depth {x : Steps} {f : Int64 → Steps} {k m : Nat} (h1 : x.depth ≤ k) (h2 : ∀ v, (f v).depth ≤ m) : (x.bind f).depth ≤ max k m := by
  unfold Steps.bind
  cases x.result with
  | ok v => have := h2 v; simp only; omega
  | err => simp only; omega
  | panic => simp only; omega

/-- **C66** An evaluation makes at most one call for each node of the formula, and its recursion is at most as deep as the formula is nested. -/
theorem C66_work (dbg : Bool) (n : Int64) (t : Node) : (t.steps dbg n).calls ≤ nodeCount t ∧ (t.steps dbg n).depth ≤ nesting t := by
  induction t with
  | var => exact ⟨Nat.le_refl _, Nat.le_refl _⟩
  | num => exact ⟨Nat.le_refl _, Nat.le_refl _⟩
  | unop o a ih =>
    cases o <;>
    · rw [Node.steps]
      simp only [Steps.call, nodeCount, nesting]
      have h1 := bind_calls (f := fun v => .done (.ok (boolToNum (v == 0)))) ih.1 (m := 0) fun v => Nat.le_refl _
      have h2 := bind_depth (f := fun v => .done (.ok (boolToNum (v == 0)))) ih.2 (m := 0) fun v => Nat.le_refl _
      have h3 := bind_calls (f := fun v => .done (negI64 dbg v)) ih.1 (m := 0) fun v => Nat.le_refl _
      have h4 := bind_depth (f := fun v => .done (negI64 dbg v)) ih.2 (m := 0) fun v => Nat.le_refl _
      constructor <;> omega
  | binop o a b iha ihb =>
    have hb1 : ∀ g : Int64 → Out Int64, ((b.steps dbg n).bind fun r => .done (g r)).calls ≤ nodeCount b := by
      intro g
      have := bind_calls (f := fun v => .done (g v)) ihb.1 (m := 0) fun v => Nat.le_refl _
      omega
    have hb2 : ∀ g : Int64 → Out Int64, ((b.steps dbg n).bind fun r => .done (g r)).depth ≤ nesting b := by
      intro g
      have := bind_depth (f := fun v => .done (g v)) ihb.2 (m := 0) fun v => Nat.le_refl _
      omega
    rw [Node.steps]
    simp only [Steps.call, nodeCount, nesting]
    constructor
    · rw [Nat.add_comm]
      refine Nat.add_le_add_left (bind_calls iha.1 fun l => ?_) 1
      cases o
      case and =>
        simp only
        split
        · exact hb1 fun r => .ok (boolToNum (r != 0))
        · exact Nat.zero_le _
      case or =>
        simp only
        split
        · exact Nat.zero_le _
        · exact hb1 fun r => .ok (boolToNum (r != 0))
      all_goals exact hb1 _
    · rw [Nat.add_comm]
      refine Nat.add_le_add_left (bind_depth iha.2 fun l => ?_) 1
      cases o
      case and =>
        simp only
        split
        · exact hb2 fun r => .ok (boolToNum (r != 0))
        · exact Nat.zero_le _
      case or =>
        simp only
        split
        · exact Nat.zero_le _
        · exact hb2 fun r => .ok (boolToNum (r != 0))
      all_goals exact hb2 _
  | cond a b c iha ihb ihc =>
    rw [Node.steps]
    simp only [Steps.call, nodeCount, nesting]
    constructor
    · rw [Nat.add_comm]
      refine Nat.add_le_add_left (bind_calls iha.1 fun l => ?_) 1
      split
      · exact Nat.le_trans ihb.1 (Nat.le_add_right _ _)
      · exact Nat.le_trans ihc.1 (Nat.le_add_left _ _)
    · rw [Nat.add_comm]
      refine Nat.add_le_add_left (bind_depth iha.2 fun l => ?_) 1
      split
      · exact Nat.le_trans ihb.2 (Nat.le_max_left _ _)
      · exact Nat.le_trans ihc.2 (Nat.le_max_right _ _)

theorem nesting_nodes (t : Node) : nesting t ≤ nodeCount t := by
  induction t <;> simp only [nesting, nodeCount] <;> omega

theorem derives_nodes {nt : NT} {w : List Tok} {t : Node} (h : Derives nt w t) : nodeCount t ≤ w.length := by
  induction h <;> (try simp only [nodeCount, List.length_append, List.length_cons, List.length_nil]) <;> omega

theorem tokens_length {s : Str} {toks : List Tok} (h : Tokens s toks) : toks.length ≤ s.length := by
  induction h with
  | nil => exact Nat.zero_le _
  | @cons ws lx rest tok toks _ h _ _ ih =>
    have : 1 ≤ lx.length := by
      cases h with
      | @num ds h1 h2 =>
        cases lx with
        | nil => exact absurd rfl h1
        | cons c l => simp
      | _ => simp
    simp only [List.length_append, List.length_cons]
    omega

/-- **C66** A formula has at most as many nodes as its text has characters (one if the text is blank); so this bounds the calls of an evaluation, too. -/
theorem C66_size {s : Str} {t : Node} (h : formulaParse s = some t) : nodeCount t ≤ max 1 s.length ∧ nesting t ≤ nodeCount t := by
  refine ⟨?_, nesting_nodes t⟩
  rcases formulaParse_iff.mp h with ⟨_, rfl⟩ | ⟨toks, h1, h2⟩
  · simp only [nodeCount]; omega
  · have := derives_nodes h2
    have := tokens_length h1
    omega

theorem pairs_length {s : Str} {ps : List (Str × Str)} (h : PairsOf s ps) : ∀ p ∈ ps, p.2.length ≤ s.length := by
  induction h with
  | nil => intro p hp; cases hp
  | @cons skip s k v rest ps h1 _ _ ih =>
    obtain ⟨⟨_, _, w, y, _, e1, a, b, _, _, e2, _⟩, _⟩ := h1
    subst e1 e2
    intro p hp
    rcases List.mem_cons.mp hp with rfl | hp
    · simp only [List.length_append, List.length_cons]; omega
    · have := ih p hp
      simp only [List.length_append, List.length_cons]; omega

theorem lookup_mem {l : List (Str × Str)} {k v : Str} (h : l.lookup k = some v) : (k, v) ∈ l := by
  induction l with
  | nil => cases h
  | cons p l ih =>
    obtain ⟨a, b⟩ := p
    rw [List.lookup_cons] at h
    split at h
    · rename_i e
      cases h
      rw [eq_of_beq e]
      exact List.mem_cons_self
    · exact List.mem_cons_of_mem _ (ih h)

/-- **C66** The formula of a `Plural-Forms` property has at most as many nodes as the property has characters. -/
theorem C66_forms {s : Str} {f : PluralForms} (h : FormsOf s f) : nodeCount f.formula ≤ max 1 s.length := by
  obtain ⟨_, _, ps, h1, h2, h3, _⟩ := h
  have h4 : f.formulaSource.length ≤ s.length := by
    rw [h2]
    unfold lastValue
    cases hl : ps.reverse.lookup (c!"plural") with
    | none => exact Nat.zero_le _
    | some v => exact pairs_length h1 _ (List.mem_reverse.mp (lookup_mem hl))
  have := (C66_size (formulaParse_iff.mpr h3)).1
  omega

/-- **C66** So `get_plural_text` of a delivered unit makes at most as many calls of `execute` as the input has bytes. -/
theorem C66_unit {env : Env} {stream : List Event} {hdr : Header env.Lang} {xs : List (Except Err PoUnit)} (h : Yields (parse env stream) hdr xs)
    {u : PoUnit} (hu : .ok u ∈ xs) {p : Plural} (hp : u.message.getPlural = some p ∨ u.prevMessage.getPlural = some p) {f : PluralForms}
    (hf : p.getForms = some f) (dbg : Bool) (n : Int64) :
    (f.formula.steps dbg n).calls < (flatten stream).1.length ∧ (f.formula.steps dbg n).depth < (flatten stream).1.length := by
  have hp' : u.message = .plural p ∨ u.prevMessage = .plural p := by
    rcases hp with hp | hp
    · left; cases hm : u.message <;> simp_all [Message.getPlural]
    · right; cases hm : u.prevMessage <;> simp_all [Message.getPlural]
  obtain ⟨forms, h1, h2⟩ := C24_forms h
  have e : some f = forms := hf.symm.trans (h2 u hu p hp')
  subst e
  generalize hq : hdr.properties.lookup (c!"Plural-Forms") = q at h1
  cases h1 with
  | @given s _ hne hs =>
    obtain ⟨_, us, e, rfl, _⟩ := yields_reads h
    have h3 := (C65_bounds h).2.2
    have h4 := C66_forms hs
    have h5 := C66_work dbg n f.formula
    have h6 := nesting_nodes f.formula
    have h7 : ∀ l : List (Str × Str), ∀ p ∈ l, (p.1.length + p.2.length) ≤ ((l.flatMap fun p => [p.1, p.2]).map List.length).sum := by
      intro l
      induction l with
      | nil => intro p hp; cases hp
      | cons q l ih =>
        intro p hp
        rw [List.flatMap_cons, List.map_append, List.sum_append]
        rcases List.mem_cons.mp hp with rfl | hp
        · simp only [List.map_cons, List.map_nil, List.sum_cons, List.sum_nil]; omega
        · have := ih p hp; omega
    have h8 := h7 hdr.properties _ (lookup_mem hq)
    dsimp only at h8
    simp only [headerTexts, List.map_append, List.sum_append] at h3
    have h9 : (c!"Plural-Forms").length = 12 := rfl
    omega

theorem longSumText_length (k : Nat) : (longSumText k).length = 2 * k + 1 := by
  induction k with
  | zero => rfl
  | succ k ih => simp only [longSumText, List.length_append, ih, List.length_cons, List.length_nil]; omega

/-- The tokens of a long sum. -/
def sumToks : Nat → List Tok
  | 0 => [.n]
  | k + 1 => sumToks k ++ [.plus, .n]

theorem sum_derives (k : Nat) : Derives .add (sumToks k) (longSum k) := by
  induction k with
  | zero => exact .addMul (.mulFactor (.factorTerm .termVar))
  | succ k ih => exact .addAdd ih (.mulFactor (.factorTerm .termVar))

theorem sum_writes (k : Nat) : Writes (sumToks k) (longSumText k) := by
  have white : White ([] : Str) := fun c hc => by cases hc
  have key : ∀ k toks s, Writes toks s → (∀ t ts, toks = t :: ts → t = .plus) → Writes (sumToks k ++ toks) (longSumText k ++ s) := by
    intro k
    induction k with
    | zero =>
      intro toks s h ht
      exact .cons (ws := []) white .n h fun t ts he hc => by rw [ht t ts he] at hc; exact hc.elim
    | succ k ih =>
      intro toks s h ht
      rw [sumToks, longSumText, List.append_assoc, List.append_assoc]
      refine ih _ _ ?_ (by intro t ts he; cases he; rfl)
      exact .cons (ws := []) (lx := c!"+") white .plus (.cons (ws := []) (lx := c!"n") white .n h fun t ts he hc => by rw [ht t ts he] at hc; exact hc.elim)
        fun t ts he hc => by cases he; exact hc.elim
  have := key k [] [] (.nil white) (by intro t ts he; cases he)
  simpa using this

theorem sum_steps (dbg : Bool) (n : Int64) (k : Nat) :
    ∃ v, (longSum k).steps dbg n = ⟨.ok v, 2 * k + 1, k + 1⟩ := by
  induction k with
  | zero => exact ⟨n, rfl⟩
  | succ k ih =>
    obtain ⟨v, ih⟩ := ih
    refine ⟨v + n, ?_⟩
    rw [longSum, Node.steps, ih]
    simp only [Steps.bind, Steps.call, Steps.done, Node.steps, BinOp.apply, Steps.mk.injEq, true_and]
    omega

/-- **C66** There is no bound on the depth of the recursion other than the text: the sum of `k + 1` variables, `2 k + 1` characters long, is accepted, and every
evaluation makes `2 k + 1` calls of which `k + 1` are active at the same time. -/
theorem C66_deep (k : Nat) : (longSumText k).length = 2 * k + 1 ∧ ∃ t, formulaParse (longSumText k) = some t ∧
    ∀ dbg n, (t.steps dbg n).calls = 2 * k + 1 ∧ (t.steps dbg n).depth = k + 1 := by
  refine ⟨longSumText_length k, longSum k, ?_, fun dbg n => ?_⟩
  · exact formulaParse_iff.mpr (.inr ⟨_, writes_tokens (sum_writes k), .exprOr (.orAnd (.andLogical (.logNot (.notAdd (sum_derives k)))))⟩)
  · obtain ⟨v, h⟩ := sum_steps dbg n k
    rw [h]
    exact ⟨rfl, rfl⟩

-- `n+n+n` makes five calls, three of them nested; `n==0 && n/0==1` makes four of nine when `n` is not 0
example : formulaParse (c!"n+n+n") = some (longSum 2) ∧ ((longSum 2).steps true 5).calls = 5 ∧ ((longSum 2).steps true 5).depth = 3 := by decide
example : ∃ t, formulaParse (c!"n==0&&n/0==1") = some t ∧ nodeCount t = 9 ∧ nesting t = 4 ∧ (t.steps true 5).calls = 4 ∧ (t.steps true 5).depth = 3 :=
  ⟨.binop .and (.binop .eq .var (.num 0)) (.binop .eq (.binop .div .var (.num 0)) (.num 1)), by decide, by decide, by decide, by decide, by decide⟩
example : (richForms.formula.steps false 5).calls = 3 := by decide
example := C66_unit rich_yields rich_mem (.inl rfl) rfl true 5

end Verif
