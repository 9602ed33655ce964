import Verif.Lemmas.FormulaLex
import Verif.Lemmas.ValueList
import Verif.Spec.Plural

/-! The `Plural-Forms` property: the code reads the specified plural forms. -/

namespace Verif
open Spec

theorem digit_iff (c : Char) : isDigit09 c = true ↔ Digit c := isDigit09_iff

theorem numeralValue_snoc (ds : Str) (c : Char) : numeralValue (ds ++ [c]) = 10 * numeralValue ds + (c.toNat - '0'.toNat) := by
  simp [numeralValue]

/-- The loop, with the digits already read. -/
theorem usizeAux (ds rest : Str) (hd : ∀ c ∈ ds, Digit c) (hv : numeralValue ds < 2 ^ 64) :
    (∃ n, parseUsizeAux (numeralValue ds) rest = .ok n ∧ (∀ c ∈ ds ++ rest, Digit c) ∧ numeralValue (ds ++ rest) = n ∧ n < 2 ^ 64) ∨
    (∃ ds' c rest', ds ++ rest = ds' ++ c :: rest' ∧ (∀ d ∈ ds', Digit d) ∧ numeralValue ds' < 2 ^ 64 ∧
      ((¬ Digit c ∧ parseUsizeAux (numeralValue ds) rest = .error (c!"invalid digit found in string")) ∨
       (Digit c ∧ 2 ^ 64 ≤ numeralValue (ds' ++ [c]) ∧ parseUsizeAux (numeralValue ds) rest = .error (c!"number too large to fit in target type")))) := by
  induction rest generalizing ds with
  | nil => exact .inl ⟨_, rfl, by simpa using hd, by simp, hv⟩
  | cons c cs ih =>
    rw [parseUsizeAux]
    by_cases hc : isDigit09 c = true
    · simp only [hc, Bool.not_true, Bool.false_eq_true, if_false]
      have hc' := (digit_iff c).mp hc
      rw [← numeralValue_snoc]
      split
      · rename_i hlt
        have hd' : ∀ x ∈ ds ++ [c], Digit x := by
          intro x hx
          rcases List.mem_append.mp hx with hx | hx
          · exact hd x hx
          · rw [List.mem_singleton.mp hx]; exact hc'
        have := ih (ds ++ [c]) hd' hlt
        rw [List.append_assoc, List.singleton_append] at this
        exact this
      · rename_i hlt
        exact .inr ⟨ds, c, cs, rfl, hd, hv, .inr ⟨hc', by omega, rfl⟩⟩
    · have hc' : ¬ Digit c := fun h => hc ((digit_iff c).mpr h)
      simp only [hc, Bool.not_false, if_true]
      exact .inr ⟨ds, c, cs, rfl, hd, hv, .inl ⟨hc', trivial⟩⟩

theorem unsigned_exists (x : Str) : ∃ ds, Unsigned x ds := by
  cases x with
  | nil => exact ⟨[], .inr ⟨rfl, by simp⟩⟩
  | cons c x =>
    by_cases h : c = '+'
    · exact ⟨x, .inl (by rw [h])⟩
    · exact ⟨c :: x, .inr ⟨rfl, by simpa using h⟩⟩

theorem unsigned_unique {x ds ds' : Str} (h : Unsigned x ds) (h' : Unsigned x ds') : ds = ds' := by
  rcases h with rfl | ⟨rfl, h⟩ <;> rcases h' with h' | ⟨h', h''⟩
  · exact (List.cons.inj h').2
  · subst h'; simp at h''
  · subst h'; simp at h
  · exact h'

theorem not_digit_sign : ¬ Digit '-' ∧ ¬ Digit '+' := ⟨by unfold Digit; decide, by unfold Digit; decide⟩

theorem parseUsize_unsigned {x ds : Str} (h : Unsigned x ds) (hx : x ≠ []) (h1 : x ≠ c!"+") (h2 : x ≠ c!"-") : parseUsize x = parseUsizeAux 0 ds := by
  rcases h with rfl | ⟨rfl, h⟩
  · unfold parseUsize
    split
    · contradiction
    · contradiction
    · contradiction
    · rename_i he; cases he; rfl
    · rename_i hh; exact (hh _ rfl).elim
  · unfold parseUsize
    split
    · contradiction
    · contradiction
    · contradiction
    · simp at h
    · rfl

/-- The numerals that are accepted, and the messages for all others. -/
theorem parseUsize_spec (x : Str) : (∃ n, parseUsize x = .ok n ∧ Numeral x n) ∨ (∃ msg, parseUsize x = .error msg ∧ NumeralError x msg) := by
  by_cases hx : x = []
  · subst hx; exact .inr ⟨_, rfl, .empty⟩
  by_cases h1 : x = c!"+"
  · subst h1; exact .inr ⟨_, rfl, .sign (.inl rfl)⟩
  by_cases h2 : x = c!"-"
  · subst h2; exact .inr ⟨_, rfl, .sign (.inr rfl)⟩
  obtain ⟨ds, hu⟩ := unsigned_exists x
  rw [parseUsize_unsigned hu hx h1 h2]
  rcases usizeAux [] ds (fun _ h => nomatch h) (by decide) with ⟨n, g1, g2, g3, g4⟩ | ⟨ds', c, rest', g1, g2, g3, g4⟩
  · refine .inl ⟨n, g1, ds, hu, ?_, g2, g3, g4⟩
    rintro rfl
    rcases hu with rfl | ⟨rfl, _⟩
    · exact h1 rfl
    · exact hx rfl
  · rw [List.nil_append] at g1
    rw [g1] at hu
    rcases g4 with ⟨g4, g5⟩ | ⟨g4, g5, g6⟩
    · exact .inr ⟨_, g5, .digit hu g2 g3 g4⟩
    · exact .inr ⟨_, g6, .large hu g2 g3 g4 g5⟩

theorem numeral_unique {x : Str} {n n' : Nat} (h : Numeral x n) (h' : Numeral x n') : n = n' := by
  obtain ⟨ds, h1, _, _, h2, _⟩ := h
  obtain ⟨ds', h1', _, _, h2', _⟩ := h'
  rw [unsigned_unique h1 h1'] at h2
  exact h2.symm.trans h2'

theorem numeralValue_mono (ds rest : Str) : numeralValue ds ≤ numeralValue (ds ++ rest) := by
  have : ∀ (r : Str) (n : Nat), n ≤ r.foldl (fun n c => 10 * n + (c.toNat - '0'.toNat)) n := by
    intro r
    induction r with
    | nil => exact fun n => Nat.le_refl n
    | cons c r ih => intro n; exact Nat.le_trans (by show n ≤ 10 * n + _; omega) (ih _)
  rw [numeralValue, numeralValue, List.foldl_append]
  exact this rest _

theorem numeral_not_error {x msg : Str} {n : Nat} (h : Numeral x n) (h' : NumeralError x msg) : False := by
  obtain ⟨ds, h1, h2, h3, h4, h5⟩ := h
  cases h' with
  | empty => rcases h1 with h1 | ⟨h1, _⟩; cases h1; exact h2 h1.symm
  | sign hs =>
    rcases hs with rfl | rfl <;> rcases h1 with h1 | ⟨h1, h6⟩
    · simp at h1; exact h2 h1
    · subst h1; simp at h6
    · simp at h1
    · subst h1; exact not_digit_sign.1 (h3 '-' (by simp))
  | digit hu _ _ hc =>
    rw [unsigned_unique h1 hu] at h3
    exact hc (h3 _ (by simp))
  | @large _ ds' c rest hu _ _ hc hl =>
    rw [unsigned_unique h1 hu] at h4
    have := numeralValue_mono (ds' ++ [c]) rest
    rw [List.append_assoc, List.singleton_append] at this
    omega

theorem parseUsize_iff (x : Str) (n : Nat) : parseUsize x = .ok n ↔ Numeral x n := by
  rcases parseUsize_spec x with ⟨m, h1, h2⟩ | ⟨msg, h1, h2⟩
  · rw [h1]
    constructor
    · intro h; cases h; exact h2
    · intro h; rw [numeral_unique h h2]
  · rw [h1]
    constructor
    · intro h; cases h
    · intro h; exact (numeral_not_error h h2).elim

theorem numeralError_unique {x msg msg' : Str} (h : NumeralError x msg) (h' : parseUsize x = .error msg') : msg = msg' := by
  cases h with
  | empty => simp [parseUsize] at h'; exact h'
  | sign hs => rcases hs with rfl | rfl <;> · simp [parseUsize] at h'; exact h'
  | @digit _ ds c rest hu h1 h2 h3 =>
    by_cases e1 : x = c!"+"
    · subst e1; rcases hu with hu | ⟨hu, _⟩
      · simp at hu
      · simp [parseUsize] at h'; exact h'
    by_cases e2 : x = c!"-"
    · subst e2; simp [parseUsize] at h'; exact h'
    have hx : x ≠ [] := by rintro rfl; rcases hu with hu | ⟨hu, _⟩ <;> simp at hu
    rw [parseUsize_unsigned hu hx e1 e2] at h'
    have key : ∀ (ds pre : Str), numeralValue (pre ++ ds) < 2 ^ 64 → (∀ d ∈ ds, Digit d) →
        parseUsizeAux (numeralValue pre) (ds ++ c :: rest) = .error (c!"invalid digit found in string") := by
      intro ds
      induction ds with
      | nil =>
        intro pre _ _
        have : isDigit09 c = false := by
          cases hh : isDigit09 c with
          | false => rfl
          | true => exact absurd ((digit_iff c).mp hh) h3
        simp [parseUsizeAux, this]
      | cons d ds ih =>
        intro pre hl hd
        have hd1 := (digit_iff d).mpr (hd d (List.mem_cons_self ..))
        rw [show pre ++ d :: ds = (pre ++ [d]) ++ ds by simp] at hl
        have := numeralValue_mono (pre ++ [d]) ds
        rw [List.cons_append, parseUsizeAux]
        simp only [hd1, Bool.not_true, Bool.false_eq_true, if_false]
        rw [← numeralValue_snoc, if_pos (by omega)]
        exact ih _ hl (fun x hx => hd x (List.mem_cons_of_mem _ hx))
    have := key ds [] h2 h1
    rw [show numeralValue [] = 0 from rfl, h'] at this
    cases this; rfl
  | @large _ ds c rest hu h1 h2 h3 h4 =>
    by_cases e1 : x = c!"+"
    · subst e1; rcases hu with hu | ⟨hu, hp⟩
      · simp at hu
      · rw [← hu] at hp; simp at hp
    by_cases e2 : x = c!"-"
    · subst e2
      exfalso
      rcases hu with hu | ⟨hu, _⟩
      · simp at hu
      · cases ds with
        | nil => simp at hu; rw [← hu.1] at h3; exact not_digit_sign.1 h3
        | cons d ds => simp at hu
    have hx : x ≠ [] := by rintro rfl; rcases hu with hu | ⟨hu, _⟩ <;> simp at hu
    rw [parseUsize_unsigned hu hx e1 e2] at h'
    have key : ∀ (ds pre : Str), numeralValue (pre ++ ds) < 2 ^ 64 → 2 ^ 64 ≤ numeralValue (pre ++ ds ++ [c]) → (∀ d ∈ ds, Digit d) →
        parseUsizeAux (numeralValue pre) (ds ++ c :: rest) = .error (c!"number too large to fit in target type") := by
      intro ds
      induction ds with
      | nil =>
        intro pre _ hg _
        rw [List.append_nil] at hg
        simp only [List.nil_append, parseUsizeAux, (digit_iff c).mpr h3, Bool.not_true, Bool.false_eq_true, if_false]
        rw [← numeralValue_snoc, if_neg (by omega)]
      | cons d ds ih =>
        intro pre hl hg hd
        have hd1 := (digit_iff d).mpr (hd d (List.mem_cons_self ..))
        rw [show pre ++ d :: ds = (pre ++ [d]) ++ ds by simp] at hl hg
        have := numeralValue_mono (pre ++ [d]) ds
        rw [List.cons_append, parseUsizeAux]
        simp only [hd1, Bool.not_true, Bool.false_eq_true, if_false]
        rw [← numeralValue_snoc, if_pos (by omega)]
        exact ih _ hl hg (fun x hx => hd x (List.mem_cons_of_mem _ hx))
    have := key ds [] h2 h4 h1
    rw [show numeralValue [] = 0 from rfl, h'] at this
    cases this; rfl

/-! ### Plural forms -/

theorem formulaText_iff {s : Str} {t : Node} : formulaParse s = some t ↔ FormulaText s t := formulaParse_iff

theorem formsParse_spec (env : Env) (s : Str) :
    (∃ f, PluralForms.parse env s = .ok f ∧ FormsOf s f) ∨ (∃ e, PluralForms.parse env s = .error e ∧ FormsError env s e) := by
  by_cases hl : IsList s
  · obtain ⟨m, hm⟩ := parseMap_list hl
    obtain ⟨_, _, ps, hp, hlk⟩ := parseMap_ok hm
    rw [PluralForms.parse, hm]
    simp only [hlk]
    cases hf : formulaParse ((lastValue (c!"plural") ps).getD []) with
    | none =>
      refine .inr ⟨_, rfl, .formula hl hp ?_⟩
      intro t ht
      rw [formulaText_iff.mpr ht] at hf
      cases hf
    | some t =>
      have ht := formulaText_iff.mp hf
      cases hn : lastValue (c!"nplurals") ps with
      | none => exact .inl ⟨_, rfl, hl, rfl, ps, hp, rfl, ht, by rw [hn]; exact .default⟩
      | some x =>
        rcases parseUsize_spec x with ⟨n, h1, h2⟩ | ⟨msg, h1, h2⟩
        · simp only [h1]
          exact .inl ⟨_, rfl, hl, rfl, ps, hp, rfl, ht, by rw [hn]; exact .given h2⟩
        · simp only [h1]
          exact .inr ⟨_, rfl, .count hl hp ht hn h2⟩
  · rw [PluralForms.parse, parseMap_error hl]
    exact .inr ⟨_, rfl, .notList hl⟩

theorem formulaText_unique {s : Str} {t t' : Node} (h : FormulaText s t) (h' : FormulaText s t') : t = t' := by
  have h1 := formulaText_iff.mpr h
  rw [formulaText_iff.mpr h'] at h1
  exact (Option.some.inj h1).symm

theorem formsOf_unique {s : Str} {f f' : PluralForms} (h : FormsOf s f) (h' : FormsOf s f') : f = f' := by
  obtain ⟨_, d, ps, hp, hs, ht, hc⟩ := h
  obtain ⟨_, d', ps', hp', hs', ht', hc'⟩ := h'
  have := pairsOf_unique hp hp'
  subst this
  obtain ⟨fo, fc, fd, fs⟩ := f
  obtain ⟨fo', fc', fd', fs'⟩ := f'
  simp only at *
  subst d d' hs hs'
  have := formulaText_unique ht ht'
  subst this
  have : fc = fc' := by
    cases hn : lastValue (c!"nplurals") ps with
    | none => rw [hn] at hc hc'; cases hc; cases hc'; rfl
    | some x =>
      rw [hn] at hc hc'
      cases hc with
      | given h => cases hc' with
        | given h' => exact numeral_unique h h'
  rw [this]

theorem formsOf_not_error {env : Env} {s : Str} {f : PluralForms} {e : Err} (h : FormsOf s f) (h' : FormsError env s e) : False := by
  obtain ⟨hl, d, ps, hp, hs, ht, hc⟩ := h
  cases h' with
  | notList hn => exact hn hl
  | formula _ hp' hn =>
    have := pairsOf_unique hp hp'
    subst this
    rw [hs] at ht
    exact hn _ ht
  | count _ hp' _ hx he =>
    have := pairsOf_unique hp hp'
    subst this
    rw [hx] at hc
    cases hc with
    | given h => exact numeral_not_error h he

theorem numeralError_parse {x msg : Str} (h : NumeralError x msg) : parseUsize x = .error msg := by
  rcases parseUsize_spec x with ⟨n, h1, h2⟩ | ⟨msg', h1, h2⟩
  · exact (numeral_not_error h2 h).elim
  · rw [h1, numeralError_unique h h1]

theorem formsError_parse {env : Env} {s : Str} {e : Err} (h : FormsError env s e) : PluralForms.parse env s = .error e := by
  cases h with
  | notList hn => rw [PluralForms.parse, parseMap_error hn]
  | @formula ps hl hp hn =>
    obtain ⟨m, hm⟩ := parseMap_list hl
    obtain ⟨_, _, ps', hp', hlk⟩ := parseMap_ok hm
    have := pairsOf_unique hp hp'
    subst this
    have hf : formulaParse ((lastValue (c!"plural") ps).getD []) = none := by
      cases h : formulaParse ((lastValue (c!"plural") ps).getD []) with
      | none => rfl
      | some t => exact absurd (formulaText_iff.mp h) (hn t)
    rw [PluralForms.parse, hm]
    simp only [hlk, hf]
  | @count ps t x msg hl hp ht hx he =>
    obtain ⟨m, hm⟩ := parseMap_list hl
    obtain ⟨_, _, ps', hp', hlk⟩ := parseMap_ok hm
    have := pairsOf_unique hp hp'
    subst this
    rw [PluralForms.parse, hm]
    simp only [hlk, hx, formulaText_iff.mpr ht, numeralError_parse he]

/-- The `Plural-Forms` properties that are accepted. -/
theorem formsParse_iff {env : Env} {s : Str} {f : PluralForms} : PluralForms.parse env s = .ok f ↔ FormsOf s f := by
  rcases formsParse_spec env s with ⟨f', h1, h2⟩ | ⟨e, h1, h2⟩
  · rw [h1]
    constructor
    · intro h; cases h; exact h2
    · intro h; rw [formsOf_unique h h2]
  · rw [h1]
    constructor
    · intro h; cases h
    · intro h; exact (formsOf_not_error h h2).elim

/-- The others, with the error. -/
theorem formsError_iff {env : Env} {s : Str} {e : Err} : PluralForms.parse env s = .error e ↔ FormsError env s e := by
  constructor
  · intro h
    rcases formsParse_spec env s with ⟨f', h1, h2⟩ | ⟨e', h1, h2⟩
    · rw [h1] at h; cases h
    · rw [h1] at h; cases h; exact h2
  · exact formsError_parse

end Verif
