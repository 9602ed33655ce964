import Verif.Lemmas.FormulaLex
import Verif.Lemmas.FormulaEval

/-! Plural formulas: C27 - C31. -/

namespace Verif
open Spec

/-! ### C27 -/

/-- **C27** A text is accepted as a formula iff it is blank, which means `n`, or its tokens are derivable in the grammar; the tree is that of
the derivation. -/
theorem C27_accepts (s : Str) (t : Node) :
    formulaParse s = some t ↔ (White s ∧ t = .var) ∨ ∃ toks, Tokens s toks ∧ Derives .expr toks t := formulaParse_iff

/-- **C27** A text has at most one division into tokens, and a token sequence at most one tree in the grammar. -/
theorem C27_unambiguous :
    (∀ s toks toks', Tokens s toks → Tokens s toks' → toks = toks') ∧
    (∀ toks t t', Derives .expr toks t → Derives .expr toks t' → t = t') :=
  ⟨fun _ _ _ => tokens_unique, fun _ _ _ => derives_unique⟩

-- a formula and its tree
example : formulaParse (c!"n%10==1 && n%100!=11 ? 0 : n != 0 ? 1 : 2") = some
    (.cond (.binop .and (.binop .eq (.binop .mod .var (.num 10)) (.num 1)) (.binop .ne (.binop .mod .var (.num 100)) (.num 11))) (.num 0)
      (.cond (.binop .ne .var (.num 0)) (.num 1) (.num 2))) := by decide

-- so the right side of `C27_accepts` holds for it
example : ∃ toks, Tokens (c!"n - 1 - 2") toks ∧ Derives .expr toks (.binop .sub (.binop .sub .var (.num 1)) (.num 2)) := by
  have h : formulaParse (c!"n - 1 - 2") = some (.binop .sub (.binop .sub .var (.num 1)) (.num 2)) := by decide
  rcases (C27_accepts _ _).mp h with ⟨_, h⟩ | h
  · cases h
  · exact h

-- rejected: repeated unary operators, one `=`, a literal of 2^63
example : formulaParse (c!"!!n") = none ∧ formulaParse (c!"--n") = none ∧ formulaParse (c!"n = 1") = none ∧
    formulaParse (c!"9223372036854775808") = none ∧ (formulaParse (c!"9223372036854775807")).isSome = true := by decide

/-! ### C28 -/

theorem digitsVal_toDigits (n : Nat) : digitsVal (Nat.toDigits 10 n) = n := by
  have h := Nat.ofDigitChars_ten_toDigits (n := n)
  rwa [Nat.ofDigitChars_eq_foldl] at h

theorem numVal_literal {v : Int64} (h : 0 ≤ v.toInt) : numVal (literal v) = some v := by
  have hr := toInt_range v
  unfold InRange at hr
  unfold numVal literal
  rw [digitsVal_toDigits, if_pos (by omega)]
  congr 1
  rw [← Int64.toInt_inj, Int64.toInt_ofNat_of_lt (by omega)]
  omega

theorem derives_up_mul {w : List Tok} {t : Node} (h : Derives .term w t) : Derives .mul w t := .mulFactor (.factorTerm h)
theorem derives_up_add {w : List Tok} {t : Node} (h : Derives .term w t) : Derives .add w t := .addMul (derives_up_mul h)
theorem derives_up_not {w : List Tok} {t : Node} (h : Derives .term w t) : Derives .not w t := .notAdd (derives_up_add h)
theorem derives_up_logical {w : List Tok} {t : Node} (h : Derives .term w t) : Derives .logical w t := .logNot (derives_up_not h)
theorem derives_up_and {w : List Tok} {t : Node} (h : Derives .term w t) : Derives .and w t := .andLogical (derives_up_logical h)
theorem derives_up_or {w : List Tok} {t : Node} (h : Derives .term w t) : Derives .or w t := .orAnd (derives_up_and h)
theorem derives_up_expr {w : List Tok} {t : Node} (h : Derives .term w t) : Derives .expr w t := .exprOr (derives_up_or h)

theorem derives_print {t : Node} (h : Printable t) : Derives .term (print t) t := by
  have par : ∀ {w t}, Derives .expr w t → Derives .term (.lpar :: (w ++ [.rpar])) t := fun h => .termParen h
  induction t with
  | var => exact .termVar
  | num v => exact .termNum (numVal_literal h)
  | unop o a ih =>
    have iha := ih h
    cases o with
    | neg => exact par (.exprOr (.orAnd (.andLogical (.logNot (.notAdd (.addMul (.mulFactor (.factorNeg iha))))))))
    | not => exact par (.exprOr (.orAnd (.andLogical (.logNot (.not1 (derives_up_add iha))))))
  | binop o a b iha ihb =>
    have ha := iha h.1
    have hb := ihb h.2
    have e : ∀ tok, Tok.lpar :: (print a ++ tok :: (print b ++ [.rpar])) = .lpar :: ((print a ++ tok :: print b) ++ [.rpar]) := by simp
    show Derives .term (.lpar :: (print a ++ opTok o :: (print b ++ [.rpar]))) _
    rw [e]
    apply par
    cases o with
    | add => exact .exprOr (.orAnd (.andLogical (.logNot (.notAdd (.addAdd (derives_up_add ha) (derives_up_mul hb))))))
    | sub => exact .exprOr (.orAnd (.andLogical (.logNot (.notAdd (.addSub (derives_up_add ha) (derives_up_mul hb))))))
    | mul => exact .exprOr (.orAnd (.andLogical (.logNot (.notAdd (.addMul (.mulMul (derives_up_mul ha) (.factorTerm hb)))))))
    | div => exact .exprOr (.orAnd (.andLogical (.logNot (.notAdd (.addMul (.mulDiv (derives_up_mul ha) (.factorTerm hb)))))))
    | mod => exact .exprOr (.orAnd (.andLogical (.logNot (.notAdd (.addMul (.mulMod (derives_up_mul ha) (.factorTerm hb)))))))
    | and => exact .exprOr (.orAnd (.and1 (derives_up_and ha) (derives_up_logical hb)))
    | or => exact .exprOr (.or1 (derives_up_or ha) (derives_up_and hb))
    | eq => exact .exprOr (.orAnd (.andLogical (.logEq (derives_up_logical ha) (derives_up_not hb))))
    | ne => exact .exprOr (.orAnd (.andLogical (.logNe (derives_up_logical ha) (derives_up_not hb))))
    | lt => exact .exprOr (.orAnd (.andLogical (.logLt (derives_up_logical ha) (derives_up_not hb))))
    | lte => exact .exprOr (.orAnd (.andLogical (.logLte (derives_up_logical ha) (derives_up_not hb))))
    | gt => exact .exprOr (.orAnd (.andLogical (.logGt (derives_up_logical ha) (derives_up_not hb))))
    | gte => exact .exprOr (.orAnd (.andLogical (.logGte (derives_up_logical ha) (derives_up_not hb))))
  | cond a b c iha ihb ihc =>
    have ha := iha h.1
    have hb := ihb h.2.1
    have hc := ihc h.2.2
    have e : print (.cond a b c) = .lpar :: ((print a ++ .quest :: (print b ++ .colon :: print c)) ++ [.rpar]) := by simp [print]
    rw [e]
    exact par (.exprCond (derives_up_or ha) (derives_up_expr hb) (derives_up_expr hc))

/-- **C28** Every tree without negative literals, written with parentheses and with any white space, is read back as the same tree. -/
theorem C28_round_trip {t : Node} (ht : Printable t) {s : Str} (hs : Writes (print t) s) : formulaParse s = some t :=
  formulaParse_iff.mpr (.inr ⟨_, writes_tokens hs, derives_up_expr (derives_print ht)⟩)

theorem lexeme_of (t : Tok) (ht : ∀ ds, t = .num ds → ds ≠ [] ∧ ∀ c ∈ ds, '0' ≤ c ∧ c ≤ '9') : ∃ lx, Lexeme lx t := by
  cases t with
  | num ds => exact ⟨ds, .num (ht ds rfl).1 (ht ds rfl).2⟩
  | _ => exact ⟨_, by constructor⟩

/-- Every sequence of tokens can be written, with spaces. -/
theorem writes_exists (toks : List Tok) (ht : ∀ ds, .num ds ∈ toks → ds ≠ [] ∧ ∀ c ∈ ds, '0' ≤ c ∧ c ≤ '9') :
    ∃ s, Writes toks (' ' :: s) := by
  have hsp : White [' '] := by intro c hc; rw [List.mem_singleton.mp hc]; decide
  induction toks with
  | nil => exact ⟨[], .nil hsp⟩
  | cons t ts ih =>
    obtain ⟨s, hs⟩ := ih (fun ds h => ht ds (List.mem_cons_of_mem _ h))
    obtain ⟨lx, hl⟩ := lexeme_of t (fun ds h => ht ds (h ▸ List.mem_cons_self ..))
    exact ⟨_, .cons hsp hl hs (fun _ _ _ _ => ⟨' ', s, rfl, by decide⟩)⟩

theorem print_nums (t : Node) : ∀ ds, Tok.num ds ∈ print t → ds ≠ [] ∧ ∀ c ∈ ds, '0' ≤ c ∧ c ≤ '9' := by
  induction t with
  | var => intro ds h; simp [print] at h
  | num v =>
    intro ds h
    simp only [print, List.mem_singleton, Tok.num.injEq] at h
    subst h
    refine ⟨Nat.toDigits_ne_nil, fun c hc => ?_⟩
    have := Nat.isDigit_of_mem_toDigits (by omega) (by omega) hc
    simp only [Char.isDigit, Bool.and_eq_true, decide_eq_true_eq] at this
    exact this
  | unop o a ih => cases o <;> · intro ds h; simp [print] at h; exact ih ds h
  | binop o a b iha ihb =>
    intro ds h
    simp only [print, List.mem_cons, List.mem_append, reduceCtorEq, List.not_mem_nil, or_false, false_or] at h
    rcases h with h | h | h
    · exact iha ds h
    · cases o <;> simp [opTok] at h
    · exact ihb ds h
  | cond a b c iha ihb ihc =>
    intro ds h
    simp only [print, List.mem_cons, List.mem_append, reduceCtorEq, List.not_mem_nil, or_false, false_or] at h
    rcases h with h | h | h
    · exact iha ds h
    · exact ihb ds h
    · exact ihc ds h

/-- **C28** Every tree without negative literals is the tree of some formula text. -/
theorem C28_expressible {t : Node} (ht : Printable t) : ∃ s, formulaParse s = some t := by
  obtain ⟨s, hs⟩ := writes_exists (print t) (print_nums t)
  exact ⟨_, C28_round_trip ht hs⟩

theorem numVal_nonneg {ds : Str} {v : Int64} (h : numVal ds = some v) : 0 ≤ v.toInt := by
  unfold numVal at h
  split at h
  · cases h
    rw [Int64.toInt_ofNat_of_lt (by omega)]
    omega
  · cases h

theorem derives_printable {nt : NT} {w : List Tok} {t : Node} (h : Derives nt w t) : Printable t := by
  induction h with
  | termNum h => exact numVal_nonneg h
  | termVar => trivial
  | exprCond _ _ _ h1 h2 h3 => exact ⟨h1, h2, h3⟩
  | termParen _ h | not1 _ h | not2 _ h | factorNeg _ h => exact h
  | exprOr _ h | orAnd _ h | andLogical _ h | logNot _ h | notAdd _ h | addMul _ h | mulFactor _ h | factorTerm _ h => exact h
  | _ => rename_i h1 h2; exact ⟨h1, h2⟩

/-- **C28** Every tree that is read has no negative literals; so printing and reading again gives the same tree. -/
theorem C28_reread {s s' : Str} {t : Node} (h : formulaParse s = some t) (hs : Writes (print t) s') : formulaParse s' = some t := by
  refine C28_round_trip ?_ hs
  rcases formulaParse_iff.mp h with ⟨_, rfl⟩ | ⟨_, _, h⟩
  · trivial
  · exact derives_printable h

/-- A token directly before the next one. -/
theorem Spec.Writes.tight {tok : Tok} {toks : List Tok} {lx s : Str} (h1 : Lexeme lx tok) (h2 : Writes toks s)
    (h3 : ∀ t ts, toks = t :: ts → ¬ Clash tok t) : Writes (tok :: toks) (lx ++ s) :=
  .cons (ws := []) (fun _ h => nomatch h) h1 h2 (fun t ts e c => absurd c (h3 t ts e))

-- `C28_round_trip` without any white space
example : formulaParse (c!"((-n)==10)") = some (.binop .eq (.unop .neg .var) (.num 10)) := by
  refine C28_round_trip (t := .binop .eq (.unop .neg .var) (.num 10)) ⟨trivial, show (0 : Int) ≤ 10 by decide⟩ ?_
  have hx : ∀ {a : Tok} {t : Tok} {ts : List Tok}, ¬ Clash a t → ∀ t' ts', t :: ts = t' :: ts' → ¬ Clash a t' := by
    intro a t ts h t' ts' e; cases e; exact h
  exact .tight .lpar (.tight .lpar (.tight .minus (.tight .n (.tight .rpar (.tight .eqeq (.tight (.num (ds := ['1', '0']) (by decide) (by decide))
    (.tight .rpar (.nil (ws := []) (fun _ h => nomatch h)) (fun _ _ h => nomatch h)) (hx id)) (hx id)) (hx id)) (hx id)) (hx id)) (hx id)) (hx id)

/-! ### C29 -/

/-- **C29** Two texts that write the same tokens, with whatever white space, are the same formula (or are both rejected). -/
theorem C29_space {toks : List Tok} {s s' : Str} (h : Writes toks s) (h' : Writes toks s') : formulaParse s = formulaParse s' := by
  have key : ∀ {s s'}, Writes toks s → Writes toks s' → ∀ t, formulaParse s = some t → formulaParse s' = some t := by
    intro s s' h h' t ht
    rcases formulaParse_iff.mp ht with ⟨hw, rfl⟩ | ⟨toks', h1, h2⟩
    · have : toks = [] := tokens_unique (writes_tokens h) (.nil hw)
      subst this
      cases h' with
      | nil hw' => exact formulaParse_iff.mpr (.inl ⟨hw', rfl⟩)
    · rw [tokens_unique h1 (writes_tokens h)] at h2
      exact formulaParse_iff.mpr (.inr ⟨_, writes_tokens h', h2⟩)
  exact Option.ext fun t => ⟨key h h' t, key h' h t⟩

/-- **C29** Two texts whose tokens differ only in `or` for `||`, `and` for `&&`, `not` for `!` are the same formula (or are both rejected). -/
theorem C29_words {toks toks' : List Tok} {s s' : Str} (h : Tokens s toks) (h' : Tokens s' toks') (he : toks.map sign = toks'.map sign) :
    formulaParse s = formulaParse s' := by
  have key : ∀ {s s' toks toks'}, Tokens s toks → Tokens s' toks' → toks.map sign = toks'.map sign → ∀ t, formulaParse s = some t → formulaParse s' = some t := by
    intro s s' toks toks' h h' he t ht
    rcases formulaParse_iff.mp ht with ⟨hw, rfl⟩ | ⟨toks'', h1, h2⟩
    · have : toks = [] := tokens_unique h (.nil hw)
      subst this
      have : toks' = [] := by simpa using he.symm
      subst this
      cases h' with
      | nil hw' => exact formulaParse_iff.mpr (.inl ⟨hw', rfl⟩)
    · rw [tokens_unique h1 h] at h2
      exact formulaParse_iff.mpr (.inr ⟨_, h', derives_sign h2 _ he.symm⟩)
  exact Option.ext fun t => ⟨key h h' he t, key h' h he.symm t⟩

example : formulaParse (c!"n>1or not n and 1") = formulaParse (c!" n > 1 || ! n\t&& 1") :=
  C29_words (toks := [.n, .gt, .num ['1'], .kwOr, .kwNot, .n, .kwAnd, .num ['1']]) (toks' := [.n, .gt, .num ['1'], .oror, .bang, .n, .andand, .num ['1']])
    (lex_iff.mp (by decide)) (lex_iff.mp (by decide)) rfl

-- white space matters between clashing tokens only
example : Clash .lt .eqeq ∧ lex (c!"< ==") = some [.lt, .eqeq] ∧ lex (c!"<==") = none ∧ lex (c!"<=") = some [.le] := ⟨trivial, by decide, by decide, by decide⟩

/-! ### C30 -/

/-- **C30** If over the mathematical integers the formula has a value without division by zero and without leaving the signed 64-bit range,
evaluation gives this value, with or without overflow checks. -/
theorem C30_value (dbg : Bool) {t : Node} {n : Int64} {v : Int} (h : Value n.toInt t v) : ∃ r, t.execute dbg n = .ok r ∧ r.toInt = v := by
  obtain ⟨h1, h2⟩ := value_meaning h
  rcases execute_outcome dbg n t with ⟨_, h3, _⟩ | ⟨_, r, h3, h4⟩
  · exact absurd h3 h2
  · exact ⟨r, h3, h4.trans h1⟩

/-- **C30** In all other cases: results are reduced to the signed 64-bit range, a quotient by zero is the largest number of its sign, a remainder
by zero is the dividend. -/
theorem C30_meaning (t : Node) (n : Int64) : ∃ r, t.execute false n = .ok r ∧ r.toInt = meaning n.toInt t := by
  rcases execute_outcome false n t with ⟨h, _⟩ | ⟨_, h⟩
  · cases h
  · exact h

example : Value 5 (.binop .or (.binop .gt .var (.num 1)) (.binop .div .var (.num 0))) 1 :=
  .orTrue (v := 1) (.binop (o := .gt) (v := 5) (w := 1) (by decide) (by decide) .var (.num (v := 1)) (by decide) ⟨by decide, by decide⟩) (by decide)

example : meaning 5 (.binop .div (.binop .sub (.num 0) .var) (.num 0)) = -2 ^ 63 ∧ meaning (2 ^ 63 - 1) (.binop .add .var (.num 1)) = -2 ^ 63 := by decide

/-! ### C31 -/

/-- **C31** Without overflow checks evaluation never panics. -/
theorem C31_release (t : Node) (count : UInt64) : formulaExecute false t count ≠ .panic := by
  rcases formulaExecute_eq false t count with ⟨h, _⟩ | ⟨_, h⟩
  · cases h
  · rw [h]; simp

/-- **C31** With overflow checks evaluation panics iff a negation is evaluated whose operand is -2^63. -/
theorem C31_checked (t : Node) (count : UInt64) : formulaExecute true t count = .panic ↔ NegatesMin (signed count) t := by
  rcases formulaExecute_eq true t count with ⟨_, h1, h2⟩ | ⟨h1, h2⟩
  · simp [h1, h2]
  · rw [h2]
    simp only [reduceCtorEq, false_iff]
    exact fun h => h1 ⟨rfl, h⟩

/-- **C31** refuted as first stated: there is a formula text whose evaluation panics with overflow checks. -/
theorem C31_refuted : ∃ s t, formulaParse s = some t ∧ ∀ count, formulaExecute true t count = .panic :=
  ⟨c!"-((0-1)/0)", .unop .neg (.binop .div (.binop .sub (.num 0) (.num 1)) (.num 0)), by decide,
    fun count => (C31_checked _ _).mpr (.inr (show (_ : Int) = -2 ^ 63 from rfl))⟩

end Verif
