import Verif.Props.Plural
import Verif.Spec.Compose

/-! C70: formulas are put together from parts. -/

namespace Verif
open Spec

theorem tokens_writes {s : Str} {toks : List Tok} (h : Tokens s toks) : Writes toks s := by
  induction h with
  | nil h => exact .nil h
  | @cons ws lx rest tok toks hw hl hmax hr ih =>
    refine .cons hw hl ih ?_
    rintro t ts rfl hc
    cases hr with
    | @cons ws' lx' rest' _ _ hw' hl' _ _ =>
      cases ws' with
      | cons c cs => exact ⟨c, _, rfl, hw' c (List.mem_cons_self ..)⟩
      | nil =>
        exfalso
        have long : ∀ lx'' tok'', Lexeme lx'' tok'' → lx'' <+: lx ++ (lx' ++ rest') → lx''.length ≤ lx.length := hmax
        cases tok <;> cases t <;> try exact hc.elim
        · cases hl; cases hl'
          have := long (c!"!=") .ne .ne ⟨'=' :: rest', rfl⟩
          simp at this
        · cases hl; cases hl'
          have := long (c!"<=") .le .le ⟨'=' :: rest', rfl⟩
          simp at this
        · cases hl; cases hl'
          have := long (c!">=") .ge .ge ⟨'=' :: rest', rfl⟩
          simp at this
        · cases hl with
          | num h1 h2 =>
            cases hl' with
            | num h3 h4 =>
              have := long (lx ++ lx') _ (.num (by simp [h1]) (fun c hc => (List.mem_append.mp hc).elim (h2 c) (h4 c))) ⟨rest', by simp⟩
              have := List.length_pos_iff.mpr h3
              simp at *
              omega

theorem writes_rpar {toks : List Tok} {s w : Str} (h : Writes toks s) (hw : White w) : Writes (toks ++ [.rpar]) (s ++ ')' :: w) := by
  induction h with
  | @nil ws h => exact .cons h .rpar (.nil hw) (by intro t ts h; cases h)
  | @cons ws lx tok toks s h1 h2 h3 h4 ih =>
    have := Writes.cons h1 h2 ih (by
      intro t ts e hc
      cases toks with
      | nil =>
        cases e
        cases tok <;> exact hc.elim
      | cons t' ts' =>
        cases e
        obtain ⟨c, cs, rfl, hcs⟩ := h4 _ _ rfl hc
        exact ⟨c, _, rfl, hcs⟩)
    simpa using this

/-- **C70** A formula in parentheses is the same formula, with any white space around them. -/
theorem C70_parens {s w w' : Str} {t : Node} (h : formulaParse s = some t) (hs : ¬ White s) (hw : White w) (hw' : White w') :
    formulaParse (w ++ '(' :: (s ++ ')' :: w')) = some t := by
  rcases formulaParse_iff.mp h with ⟨h', _⟩ | ⟨toks, h1, h2⟩
  · exact absurd h' hs
  · refine formulaParse_iff.mpr (.inr ⟨.lpar :: (toks ++ [.rpar]), ?_, derives_up_expr (.termParen h2)⟩)
    exact writes_tokens (.cons hw .lpar (writes_rpar (tokens_writes h1) hw') (by intro t ts _ hc; cases t <;> exact hc.elim))

/-- **C70** So parentheses around the formula of a `Plural-Forms` property change nothing for any count. -/
theorem C70_forms {env : Env} {p p' w w' : Str} {f f' : PluralForms} (h : PluralForms.parse env p = .ok f) (h' : PluralForms.parse env p' = .ok f')
    (hc : f'.getCount = f.getCount) (hf : f'.getFormula = w ++ '(' :: (f.getFormula ++ ')' :: w')) (hs : ¬ White f.getFormula) (hw : White w) (hw' : White w')
    (dbg : Bool) (count : UInt64) : f'.getValue dbg count = f.getValue dbg count := by
  have tree : ∀ {p f}, PluralForms.parse env p = .ok f → formulaParse f.getFormula = some f.formula := by
    intro p f h
    obtain ⟨_, _, _, _, _, h, _⟩ := formsParse_iff.mp h
    exact formulaParse_iff.mpr h
  have := tree h'
  rw [hf, C70_parens (tree h) hs hw hw'] at this
  unfold PluralForms.getCount at hc
  unfold PluralForms.getValue
  rw [hc, Option.some.inj this]

/-- The tree with another one in the place of the variable. -/
def substNode (t' : Node) : Node → Node
  | .var => t'
  | .num v => .num v
  | .unop o a => .unop o (substNode t' a)
  | .binop o a b => .binop o (substNode t' a) (substNode t' b)
  | .cond a b c => .cond (substNode t' a) (substNode t' b) (substNode t' c)

theorem derives_subst {toks' : List Tok} {t' : Node} (h' : Derives .expr toks' t') {nt : NT} {toks : List Tok} {t : Node} (h : Derives nt toks t) :
    Derives nt (insertTokens toks' toks) (substNode t' t) := by
  have happ : ∀ a b, insertTokens toks' (a ++ b) = insertTokens toks' a ++ insertTokens toks' b := fun a b => List.flatMap_append
  have hcons : ∀ x b, x ≠ .n → insertTokens toks' (x :: b) = x :: insertTokens toks' b := by
    intro x b hx
    simp [insertTokens, hx]
  induction h with
  | termVar =>
    simp only [insertTokens, List.flatMap_cons, List.flatMap_nil, if_true, List.append_nil, substNode]
    exact .termParen h'
  | termNum h =>
    rw [hcons _ _ (by simp)]
    exact .termNum h
  | termParen _ ih =>
    rw [hcons _ _ (by simp), happ, hcons _ _ (by simp)]
    exact .termParen ih
  | exprCond _ _ _ iha ihb ihc =>
    rw [happ, hcons _ _ (by simp), happ, hcons _ _ (by simp)]
    exact .exprCond iha ihb ihc
  | exprOr _ ih => exact .exprOr ih
  | orAnd _ ih => exact .orAnd ih
  | andLogical _ ih => exact .andLogical ih
  | logNot _ ih => exact .logNot ih
  | notAdd _ ih => exact .notAdd ih
  | addMul _ ih => exact .addMul ih
  | mulFactor _ ih => exact .mulFactor ih
  | factorTerm _ ih => exact .factorTerm ih
  | not1 _ ih => rw [hcons _ _ (by simp)]; exact .not1 ih
  | not2 _ ih => rw [hcons _ _ (by simp)]; exact .not2 ih
  | factorNeg _ ih => rw [hcons _ _ (by simp)]; exact .factorNeg ih
  | or1 _ _ iha ihb => rw [happ, hcons _ _ (by simp)]; exact .or1 iha ihb
  | or2 _ _ iha ihb => rw [happ, hcons _ _ (by simp)]; exact .or2 iha ihb
  | and1 _ _ iha ihb => rw [happ, hcons _ _ (by simp)]; exact .and1 iha ihb
  | and2 _ _ iha ihb => rw [happ, hcons _ _ (by simp)]; exact .and2 iha ihb
  | logEq _ _ iha ihb => rw [happ, hcons _ _ (by simp)]; exact .logEq iha ihb
  | logNe _ _ iha ihb => rw [happ, hcons _ _ (by simp)]; exact .logNe iha ihb
  | logLt _ _ iha ihb => rw [happ, hcons _ _ (by simp)]; exact .logLt iha ihb
  | logLte _ _ iha ihb => rw [happ, hcons _ _ (by simp)]; exact .logLte iha ihb
  | logGt _ _ iha ihb => rw [happ, hcons _ _ (by simp)]; exact .logGt iha ihb
  | logGte _ _ iha ihb => rw [happ, hcons _ _ (by simp)]; exact .logGte iha ihb
  | addAdd _ _ iha ihb => rw [happ, hcons _ _ (by simp)]; exact .addAdd iha ihb
  | addSub _ _ iha ihb => rw [happ, hcons _ _ (by simp)]; exact .addSub iha ihb
  | mulMul _ _ iha ihb => rw [happ, hcons _ _ (by simp)]; exact .mulMul iha ihb
  | mulDiv _ _ iha ihb => rw [happ, hcons _ _ (by simp)]; exact .mulDiv iha ihb
  | mulMod _ _ iha ihb => rw [happ, hcons _ _ (by simp)]; exact .mulMod iha ihb

theorem meaning_subst (n : Int) (t' t : Node) : meaning n (substNode t' t) = meaning (meaning n t') t := by
  induction t with
  | var => rfl
  | num => rfl
  | unop o a ih => cases o <;> simp only [substNode, meaning, ih]
  | binop o a b iha ihb => cases o <;> simp only [substNode, meaning, iha, ihb]
  | cond a b c iha ihb ihc => simp only [substNode, meaning, iha, ihb, ihc]

theorem negatesMin_subst {n : Int} {t' : Node} (h' : ¬ NegatesMin n t') (t : Node) : NegatesMin n (substNode t' t) ↔ NegatesMin (meaning n t') t := by
  have hm := meaning_subst n t'
  induction t with
  | var => exact ⟨fun h => absurd h h', fun h => h.elim⟩
  | num => exact Iff.rfl
  | unop o a ih => cases o <;> simp only [substNode, NegatesMin, ih, hm]
  | binop o a b iha ihb => cases o <;> simp only [substNode, NegatesMin, iha, ihb, hm]
  | cond a b c iha ihb ihc => simp only [substNode, NegatesMin, iha, ihb, ihc, hm]

theorem parsed_tree {s : Str} {toks : List Tok} {t : Node} (h : formulaParse s = some t) (hs : Tokens s toks) (hne : toks ≠ []) : Derives .expr toks t := by
  rcases formulaParse_iff.mp h with ⟨hw, _⟩ | ⟨toks', h1, h2⟩
  · exact absurd (tokens_unique hs (.nil hw)) hne
  · rwa [tokens_unique h1 hs] at h2

/-- **C70** A formula with another one, in parentheses, in the place of the variable is accepted; its value at `n` is the value of the first at the value of the
second at `n`; and if the evaluation of the second does not panic, it panics iff that of the first does. -/
theorem C70_insert {s s' s'' : Str} {t t' : Node} {toks toks' : List Tok} (h : formulaParse s = some t) (h' : formulaParse s' = some t')
    (hs : Tokens s toks) (hs' : Tokens s' toks') (hne : toks ≠ []) (hne' : toks' ≠ []) (hs'' : Writes (insertTokens toks' toks) s'') :
    ∃ t'', formulaParse s'' = some t'' ∧ ∀ n, meaning n t'' = meaning (meaning n t') t ∧ (¬ NegatesMin n t' → (NegatesMin n t'' ↔ NegatesMin (meaning n t') t)) := by
  exact ⟨substNode t' t, formulaParse_iff.mpr (.inr ⟨_, writes_tokens hs'', derives_subst (parsed_tree h' hs' hne') (parsed_tree h hs hne)⟩),
    fun n => ⟨meaning_subst n t' t, fun hn => negatesMin_subst hn t⟩⟩

theorem execute_subst {dbg : Bool} {n m : Int64} {t' : Node} (h' : t'.execute dbg n = .ok m) (t : Node) : (substNode t' t).execute dbg n = t.execute dbg m := by
  induction t with
  | var => exact h'
  | num => rfl
  | unop o a ih => cases o <;> simp only [substNode, Node.execute, ih]
  | binop o a b iha ihb => simp only [substNode, Node.execute, iha, ihb]
  | cond a b c iha ihb ihc => simp only [substNode, Node.execute, iha, ihb, ihc]

/-- **C70** The same in terms of evaluation: if the second formula, evaluated at `n`, gives `m`, then the new formula, evaluated at `n`, does what the first does, evaluated
at `m`. -/
theorem C70_execute {s s' s'' : Str} {t t' : Node} {toks toks' : List Tok} (h : formulaParse s = some t) (h' : formulaParse s' = some t')
    (hs : Tokens s toks) (hs' : Tokens s' toks') (hne : toks ≠ []) (hne' : toks' ≠ []) (hs'' : Writes (insertTokens toks' toks) s'') :
    ∃ t'', formulaParse s'' = some t'' ∧ ∀ dbg n m, t'.execute dbg n = .ok m → t''.execute dbg n = t.execute dbg m := by
  obtain ⟨d, d'⟩ : Derives .expr toks t ∧ Derives .expr toks' t' := ⟨parsed_tree h hs hne, parsed_tree h' hs' hne'⟩
  exact ⟨substNode t' t, formulaParse_iff.mpr (.inr ⟨_, writes_tokens hs'', derives_subst d' d⟩), fun dbg n m hm => execute_subst hm t⟩

-- `n)+(n` in parentheses is a formula although it is none itself: the converse of `C70_parens` is not true
example : formulaParse (c!"n)+(n") = none ∧ (formulaParse (c!"(n)+(n)")).isSome = true := by decide
-- nor is it for a blank text, which stands for `n`
example : formulaParse (c!" ") = some .var ∧ formulaParse (c!"( )") = none := by decide
-- `C70_parens`
example : formulaParse (c!" ( n != 1 ? 1 : 0)") = some (.cond (.binop .ne .var (.num 1)) (.num 1) (.num 0)) :=
  C70_parens (w := [' ']) (s := c!" n != 1 ? 1 : 0") (w' := []) (by decide) (by decide) (by decide) (by decide)

-- `C70_forms`
example (dbg : Bool) (count : UInt64) : ∃ f f', PluralForms.parse demoEnv (c!"nplurals=2; plural=n!=1;") = .ok f ∧ PluralForms.parse demoEnv (c!"nplurals=2; plural=(n!=1);") = .ok f' ∧
    f'.getValue dbg count = f.getValue dbg count := by
  have h : PluralForms.parse demoEnv (c!"nplurals=2; plural=n!=1;") = .ok ⟨.binop .ne .var (.num 1), 2, c!"nplurals=2; plural=n!=1;", c!"n!=1"⟩ := by rfl
  have h' : PluralForms.parse demoEnv (c!"nplurals=2; plural=(n!=1);") = .ok ⟨.binop .ne .var (.num 1), 2, c!"nplurals=2; plural=(n!=1);", c!"(n!=1)"⟩ := by rfl
  exact ⟨_, _, h, h', C70_forms (w := []) (w' := []) h h' rfl rfl (by decide) (by decide) (by decide) dbg count⟩

-- `C70_execute`: `n*n` with `n-1` for `n`
example : ∃ t, formulaParse (c!"(n-1)*(n-1)") = some t ∧ t.execute true 5 = .ok 16 := by
  obtain ⟨t, h1, h2⟩ := C70_execute (s := c!"n*n") (s' := c!"n-1") (s'' := c!"(n-1)*(n-1)") (toks := [.n, .star, .n]) (toks' := [.n, .minus, .num ['1']])
    (t := .binop .mul .var .var) (t' := .binop .sub .var (.num 1)) (by decide) (by decide) (lex_iff.mp (by decide)) (lex_iff.mp (by decide)) (by decide) (by decide)
    (tokens_writes (lex_iff.mp (by decide)))
  exact ⟨t, h1, (h2 true 5 4 (by decide)).trans (by decide)⟩

-- `C70_insert`: its value at every count
example : ∃ t, formulaParse (c!"(n % 10) == 1") = some t ∧ ∀ n, meaning n t = meaning (meaning n (.binop .mod .var (.num 10))) (.binop .eq .var (.num 1)) := by
  obtain ⟨t, h1, h2⟩ := C70_insert (s := c!"n==1") (s' := c!"n%10") (s'' := c!"(n % 10) == 1") (toks := [.n, .eqeq, .num ['1']]) (toks' := [.n, .percent, .num ['1', '0']])
    (t := .binop .eq .var (.num 1)) (t' := .binop .mod .var (.num 10)) (by decide) (by decide) (lex_iff.mp (by decide)) (lex_iff.mp (by decide)) (by decide) (by decide)
    (tokens_writes (lex_iff.mp (by decide)))
  exact ⟨t, h1, fun n => (h2 n).1⟩

end Verif
