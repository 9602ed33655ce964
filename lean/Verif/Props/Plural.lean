import Verif.Props.Errors
import Verif.Props.Headers
import Verif.Props.Previous
import Verif.Props.Values
import Verif.Props.Formula

/-! C23, C25, C26, C32, C33, C35: value lists, numerals, plural forms, selection of plural texts. -/

namespace Verif
open Spec

/-! ### C25 -/

/-- A key that is read as it is: not empty, no white space, no `=` except in front. -/
def Spec.CleanKey (k : Str) : Prop := k ≠ [] ∧ Solid k ∧ '=' ∉ k.tail

/-- A value that is read as it is: no `;`, no line feed, no white space at the ends. -/
def Spec.CleanValue (v : Str) : Prop := ';' ∉ v ∧ '\n' ∉ v ∧ Trimmed v

/-- The texts of a list of pairs, with any white space around keys and values. -/
inductive Spec.Listed : List (Str × Str) → Str → Prop
  | nil {w} : White w → Listed [] w
  | cons {w0 k w1 a v b ps s} : White w0 → CleanKey k → White w1 → White a → CleanValue v → White b → Listed ps s →
      Listed ((k, v) :: ps) (w0 ++ (k ++ (w1 ++ '=' :: (a ++ (v ++ (b ++ ';' :: s))))))

theorem pairAt_head {s k v r : Str} (h : PairAt s k v r) : ∃ c t, s = c :: t ∧ isWhite c = false := by
  obtain ⟨h1, h2, w, y, _, rfl, _⟩ := h
  cases k with
  | nil => exact absurd rfl h1
  | cons c k => exact ⟨c, _, rfl, h2 c (List.mem_cons_self ..)⟩

theorem white_noPair {w s k v r : Str} (hw : White w) (hne : w ≠ []) : ¬ PairAt (w ++ s) k v r := by
  intro h
  obtain ⟨c, t, e, hc⟩ := pairAt_head h
  cases w with
  | nil => exact absurd rfl hne
  | cons d w =>
    cases e
    rw [hw c (List.mem_cons_self ..)] at hc
    cases hc

theorem clean_firstPair {k w1 a v b s : Str} (hk : CleanKey k) (h1 : White w1) (ha : White a) (hv : CleanValue v) (hb : White b) :
    FirstPair (k ++ (w1 ++ '=' :: (a ++ (v ++ (b ++ ';' :: s))))) k v s := by
  obtain ⟨hk1, hk2, hk3⟩ := hk
  obtain ⟨hv1, hv2, hv3⟩ := hv
  refine ⟨⟨hk1, hk2, w1, _, h1, rfl, a, b, ha, hb, rfl, hv1, hv3, hv2⟩, ?_⟩
  rintro k' v' rest' ⟨g1, g2, w, y, g3, g4, _⟩
  apply Nat.le_of_not_lt
  intro hlt
  rcases List.append_eq_append_iff.mp g4 with ⟨m, rfl, e⟩ | ⟨m, rfl, e⟩
  · simp at hlt; omega
  · cases m with
    | nil => simp at hlt
    | cons c m =>
      have hc : isWhite c = false := hk2 c (by simp)
      cases w with
      | nil =>
        rw [List.nil_append, List.cons_append] at e
        cases e
        cases k' with
        | nil => exact g1 rfl
        | cons d k' => exact hk3 (by simp)
      | cons d w =>
        rw [List.cons_append, List.cons_append] at e
        rw [← (List.cons.inj e).1, g3 _ (List.mem_cons_self ..)] at hc
        cases hc

theorem listed_pairs {ps : List (Str × Str)} {s : Str} (h : Listed ps s) : PairsOf s ps := by
  induction h with
  | @nil w hw =>
    refine .nil ?_
    intro s' k v r hs hp
    have hw' : White s' := fun c hc => hw c (hs.subset hc)
    obtain ⟨c, t, e, hc⟩ := pairAt_head hp
    rw [hw' c (by rw [e]; simp)] at hc
    cases hc
  | cons h0 hk h1 ha hv hb _ ih =>
    refine .cons (clean_firstPair hk h1 ha hv hb) ?_ ih
    intro x y e hy k' v' r'
    exact white_noPair (fun c hc => h0 c (by rw [e]; simp [hc])) hy

theorem listed_isList {ps : List (Str × Str)} {s : Str} (h : Listed ps s) : IsList s := by
  induction h with
  | @nil w hw => exact ⟨w, [], hw, by simp, by simp⟩
  | @cons w0 k w1 a v b ps s h0 hk h1 ha hv hb _ ih =>
    obtain ⟨w, es, g1, g2, rfl⟩ := ih
    refine ⟨w0, (k ++ (w1 ++ '=' :: (a ++ (v ++ (b ++ ';' :: w))))) :: es, h0, ?_, by simp⟩
    intro e he
    rcases List.mem_cons.mp he with rfl | he
    · exact ⟨k, w1, a, v, b, w, hk.1, hk.2.1, h1, ha, hb, hv.2.1, g1, rfl⟩
    · exact g2 e he

/-- **C25** A list of pairs is read as the map of its pairs, the last pair of a key winning, whatever the white space. -/
theorem C25_map {ps : List (Str × Str)} {s : Str} (h : Listed ps s) :
    ∃ m, parseMap s = .ok m ∧ (m.map Prod.fst).Nodup ∧ ∀ k, m.lookup k = lastValue k ps := by
  obtain ⟨m, hm⟩ := parseMap_list (listed_isList h)
  obtain ⟨_, h2, ps', h3, h4⟩ := parseMap_ok hm
  have := pairsOf_unique (listed_pairs h) h3
  subst this
  exact ⟨m, hm, h2, h4⟩

/-- **C25** For every text: it is accepted iff it is a list in the wider sense of `IsList`, and then the map is that of the pairs found from left
to right; otherwise the error quotes the text. -/
theorem C25_exact (s : Str) :
    (IsList s ∧ ∃ m ps, parseMap s = .ok m ∧ (m.map Prod.fst).Nodup ∧ PairsOf s ps ∧ ∀ k, m.lookup k = lastValue k ps) ∨
    (¬ IsList s ∧ parseMap s = .error (.unexpected 0 (c!"Bad value list definition: `" ++ s ++ c!"`"))) := by
  by_cases h : IsList s
  · obtain ⟨m, hm⟩ := parseMap_list h
    obtain ⟨_, h2, ps, h3, h4⟩ := parseMap_ok hm
    exact .inl ⟨h, m, ps, hm, h2, h3, h4⟩
  · exact .inr ⟨h, parseMap_error h⟩

theorem items_shape {es : List Str} (h : ∀ e ∈ es, ListItem e) (hne : es ≠ []) :
    ∃ k w z w', k ≠ [] ∧ Solid k ∧ White w ∧ White w' ∧ es.flatten = k ++ (w ++ '=' :: (z ++ ';' :: w')) := by
  induction es with
  | nil => exact absurd rfl hne
  | cons e es ih =>
    obtain ⟨k, w, a, v, b, w', h1, h2, h3, _, _, _, h4, rfl⟩ := h e (List.mem_cons_self ..)
    by_cases he : es = []
    · subst he
      exact ⟨k, w, a ++ (v ++ b), w', h1, h2, h3, h4, by simp⟩
    · obtain ⟨k2, w2, z2, w2', _, _, _, g4, g5⟩ := ih (fun e he => h e (List.mem_cons_of_mem _ he)) he
      exact ⟨k, w, a ++ (v ++ (b ++ ';' :: (w' ++ (k2 ++ (w2 ++ '=' :: z2))))), w2', h1, h2, h3, g4, by simp [g5]⟩

/-- **C25** Which texts on one line are accepted: blank ones, and those that begin with a key and `=` and end with `;`. -/
theorem C25_accepted {s : Str} (hs : '\n' ∉ s) :
    IsList s ↔ White s ∨ ∃ w0 k w z w', White w0 ∧ k ≠ [] ∧ Solid k ∧ White w ∧ White w' ∧ s = w0 ++ (k ++ (w ++ '=' :: (z ++ ';' :: w'))) := by
  constructor
  · rintro ⟨w0, es, h1, h2, rfl⟩
    by_cases he : es = []
    · subst he; left; simpa using h1
    · obtain ⟨k, w, z, w', g1, g2, g3, g4, g5⟩ := items_shape h2 he
      exact .inr ⟨w0, k, w, z, w', h1, g1, g2, g3, g4, by rw [g5]⟩
  · rintro (h | ⟨w0, k, w, z, w', h1, h2, h3, h4, h5, rfl⟩)
    · exact ⟨s, [], h, by simp, by simp⟩
    · refine ⟨w0, [k ++ (w ++ '=' :: (z ++ ';' :: w'))], h1, ?_, by simp⟩
      intro e he
      rw [List.mem_singleton.mp he]
      exact ⟨k, w, [], z, [], w', h2, h3, h4, (fun _ h => nomatch h), (fun _ h => nomatch h), fun h => hs (by simp [h]), h5, by simp⟩

/-- **C25** A text that is not blank and has no final `;` is rejected. -/
theorem C25_reject {s : Str} (hw : ¬ White s) (hl : ∀ z w, White w → s ≠ z ++ ';' :: w) : ∃ e, parseMap s = .error e := by
  refine ⟨_, parseMap_error ?_⟩
  rintro ⟨w0, es, h1, h2, rfl⟩
  by_cases he : es = []
  · subst he; exact hw (by simpa using h1)
  · obtain ⟨k, w, z, w', _, _, _, g4, g5⟩ := items_shape h2 he
    exact hl (w0 ++ (k ++ (w ++ '=' :: z))) w' g4 (by rw [g5]; simp)

example : Listed [(c!"nplurals", c!"2"), (c!"plural", c!"n != 1")] (c!" nplurals =2;plural= n != 1 ; ") :=
  .cons (w0 := [' ']) (w1 := [' ']) (a := []) (b := []) (by decide) ⟨by decide, by unfold Solid; decide, by decide⟩ (by decide) (by decide)
    ⟨by decide, by decide, by decide, by decide⟩ (by decide)
    (.cons (w0 := []) (w1 := []) (a := [' ']) (b := [' ']) (by decide) ⟨by decide, by unfold Solid; decide, by decide⟩ (by decide) (by decide)
      ⟨by decide, by decide, by decide, by decide⟩ (by decide) (.nil (by decide)))

-- what is read where the pairs are not clean
example : parseMap (c!"a=1; foo bar=2;") = .ok [(c!"a", c!"1"), (c!"bar", c!"2")] ∧ parseMap (c!"a=1;a=2;") = .ok [(c!"a", c!"2")] ∧
    parseMap (c!"a=1;;b=2;") = .ok [(c!"a", c!"1"), (c!";b", c!"2")] := ⟨by rfl, by rfl, by rfl⟩
example : ∃ e, parseMap (c!"nplurals=2; plural=n") = .error e := C25_reject (by decide) (by
  intro z w hw he
  have := congrArg List.getLast? he
  cases hl : w.getLast? with
  | none =>
    rw [List.getLast?_eq_none_iff.mp hl] at this
    simp at this
  | some c =>
    have hc := hw c (List.mem_of_getLast? hl)
    simp [List.getLast?_append, List.getLast?_cons, hl] at this
    rw [← this] at hc
    revert hc
    decide)

/-! ### C26 -/

/-- **C26** In a value list whose `plural` is a formula, `nplurals` is accepted iff it is absent or a numeral of a 64-bit number, and `get_count()` is 2
or its value. -/
theorem C26_count {env : Env} {s : Str} {ps : List (Str × Str)} {t : Node} (hl : IsList s) (hp : PairsOf s ps)
    (ht : FormulaText ((lastValue (c!"plural") ps).getD []) t) (n : Nat) :
    (∃ f, PluralForms.parse env s = .ok f ∧ f.getCount = n) ↔ CountRule (lastValue (c!"nplurals") ps) n := by
  constructor
  · rintro ⟨f, hf, rfl⟩
    obtain ⟨_, _, ps', h1, _, _, h2⟩ := formsParse_iff.mp hf
    rw [pairsOf_unique hp h1]
    exact h2
  · intro hn
    exact ⟨⟨t, n, s, (lastValue (c!"plural") ps).getD []⟩, formsParse_iff.mpr ⟨hl, rfl, ps, hp, rfl, ht, hn⟩, rfl⟩

/-- **C26** The numerals, and the message for everything else. -/
theorem C26_numeral (x : Str) : (∀ n, parseUsize x = .ok n ↔ Numeral x n) ∧ (∀ msg, parseUsize x = .error msg ↔ NumeralError x msg) := by
  refine ⟨parseUsize_iff x, fun msg => ⟨?_, numeralError_parse⟩⟩
  intro h
  rcases parseUsize_spec x with ⟨n, h1, _⟩ | ⟨msg', h1, h2⟩
  · rw [h1] at h; cases h
  · rw [h1] at h; cases h; exact h2

example : Numeral (c!"+007") 7 := ⟨c!"007", .inl rfl, by decide, by unfold Digit; decide, rfl, by decide⟩
example : Numeral (c!"18446744073709551615") (2 ^ 64 - 1) ∧ ¬ ∃ n, Numeral (c!"18446744073709551616") n :=
  ⟨⟨_, .inr ⟨rfl, by decide⟩, by decide, by unfold Digit; decide, rfl, by decide⟩, by
    rintro ⟨n, h⟩
    have := (parseUsize_iff _ _).mpr h
    simp [parseUsize, parseUsizeAux, isDigit09] at this⟩

/-! ### C23 -/

variable {env : Env} {stream : List Event}

/-- **C23** With a non-empty `Plural-Forms` property, `parse()` gives a reader iff the property is a value list, its `nplurals` a numeral and its
`plural` a formula; then these are the plural forms with which all units are read.  Otherwise `parse()` fails. -/
theorem C23_forms {ns : List Note} {cs : List Comment} {t : Str} {rest : List Item} {hdr : Header env.Lang} {s : Str}
    (hf : First (streamItems stream) (.header ns cs t rest)) (hr : HeaderRule env ns cs t hdr) (hs : hdr.properties.lookup (c!"Plural-Forms") = some s)
    (hne : s ≠ []) :
    (∃ f, FormsOf s f ∧ ∃ us e, Run (some f) rest us e ∧ ∃ hdr', SameHeader hdr' hdr ∧ Yields (parse env stream) hdr' (results us e)) ∨
    ((¬ ∃ f, FormsOf s f) ∧ ∃ e, FormsError env s e ∧ Fails (parse env stream) e) := by
  obtain ⟨hdr', hr', h⟩ := header_seen (env := env) hf
  have hsame := headerRule_unique hr' hr
  rw [hsame.properties, hs] at h
  rcases h with ⟨e, h1, h2⟩ | ⟨forms, us, e, h1, h2, h3⟩
  · cases h1 with
    | bad _ h1 => exact .inr ⟨fun ⟨_, h⟩ => formsOf_not_error h h1, e, h1, h2⟩
  · cases h1 with
    | empty => exact absurd rfl hne
    | given _ h1 => exact .inl ⟨_, h1, us, e, h2, hdr', hsame, h3⟩

/-- **C23** The header of the catalogue decides: a reader and a failure of `parse()` exclude each other. -/
theorem C23_iff {ns : List Note} {cs : List Comment} {t : Str} {rest : List Item} {hdr : Header env.Lang} {s : Str}
    (hf : First (streamItems stream) (.header ns cs t rest)) (hr : HeaderRule env ns cs t hdr) (hs : hdr.properties.lookup (c!"Plural-Forms") = some s)
    (hne : s ≠ []) : (∃ hdr' xs, Yields (parse env stream) hdr' xs) ↔ ∃ f, FormsOf s f := by
  rcases C23_forms hf hr hs hne with ⟨f, h1, us, e, _, hdr', _, h⟩ | ⟨h1, e, _, h⟩
  · exact ⟨fun _ => ⟨f, h1⟩, fun _ => ⟨_, _, h⟩⟩
  · refine ⟨?_, fun h' => absurd h' h1⟩
    rintro ⟨hdr', xs, hy⟩
    exfalso
    obtain ⟨_, us, e', _, hr'⟩ := yields_reads hy
    exact not_rejects_reads ((rejects_iff env stream e).mpr h) hr'

-- the plural forms of the demo catalogue, and an input for each way to fail
example : FormsOf (c!"nplurals=2; plural=(n > 1);") richForms := (formsParse_iff (env := demoEnv)).mp (by rfl)

/-- A catalogue with this `Plural-Forms` property and one unit. -/
def formsLines (s : Str) : List Str := [c!"msgid \"\"", c!"msgstr \"Plural-Forms: " ++ s ++ c!"\\n\"", c!"", c!"msgid \"a\"", c!"msgstr \"b\""]

set_option maxRecDepth 100000 in
example : Fails (parse demoEnv (textStream (formsLines (c!"nplurals=2; plural=n")))) (.unexpected 0 (c!"Bad value list definition: `nplurals=2; plural=n`")) :=
  fails_text (by decide) (by rfl)
set_option maxRecDepth 100000 in
example : Fails (parse demoEnv (textStream (formsLines (c!"nplurals=x; plural=n;")))) (.pluralForms (c!"invalid digit found in string")) :=
  fails_text (by decide) (by rfl)
set_option maxRecDepth 100000 in
example : Fails (parse demoEnv (textStream (formsLines (c!"plural=n n;")))) (.pluralForms (demoEnv.formulaMsg (c!"n n"))) :=
  fails_text (by decide) (by rfl)

/-! ### C32 -/

/-- **C32** `get_value` in all cases: a panic only with overflow checks and a negation of -2^63; else the value of the formula if it is an
index below `get_count()`. -/
theorem C32_value (dbg : Bool) (f : PluralForms) (count : UInt64) :
    (dbg = true ∧ NegatesMin (signed count) f.formula ∧ f.getValue dbg count = .panic) ∨
    (¬ (dbg = true ∧ NegatesMin (signed count) f.formula) ∧
      f.getValue dbg count = .ok (if 0 ≤ meaning (signed count) f.formula ∧ meaning (signed count) f.formula < f.getCount
        then some (meaning (signed count) f.formula).toNat else none)) := by
  rcases formulaExecute_eq dbg f.formula count with ⟨h1, h2, h3⟩ | ⟨h1, h2⟩
  · exact .inl ⟨h1, h2, by rw [PluralForms.getValue, h3]; rfl⟩
  · refine .inr ⟨h1, ?_⟩
    rw [PluralForms.getValue, h2]
    have hg : f.getCount = f.count := rfl
    simp only [Out.bind, Out.ok.injEq]
    generalize meaning (signed count) f.formula = v
    by_cases hv : v < 0
    · rw [if_pos hv, if_neg (by omega)]; rfl
    · rw [if_neg hv]
      by_cases hc : v < f.count
      · rw [if_pos ⟨by omega, hc⟩, Option.filter_some, if_pos (by simp; omega)]
      · rw [if_neg (by omega), Option.filter_some, if_neg (by simp; omega)]

/-- **C32** Every index that `get_value` gives is below `get_count()`. -/
theorem C32_range {dbg : Bool} {f : PluralForms} {count : UInt64} {i : Nat} (h : f.getValue dbg count = .ok (some i)) : i < f.getCount := by
  rcases C32_value dbg f count with ⟨_, _, h2⟩ | ⟨_, h2⟩
  · rw [h2] at h; cases h
  · rw [h2] at h
    split at h
    · cases h; omega
    · cases h

/-- **C32** When `get_value` gives an index: the formula's value is that index, and it is below `get_count()`. -/
theorem C32_iff (f : PluralForms) (count : UInt64) (i : Nat) :
    f.getValue false count = .ok (some i) ↔ meaning (signed count) f.formula = i ∧ i < f.getCount := by
  rcases C32_value false f count with ⟨h, _⟩ | ⟨_, h2⟩
  · cases h
  · rw [h2]
    split
    · simp only [Out.ok.injEq, Option.some.injEq]; omega
    · simp only [Out.ok.injEq, reduceCtorEq, false_iff]; omega

example : richForms.getValue true 5 = .ok (some 1) ∧ richForms.getValue true 1 = .ok (some 0) := ⟨rfl, rfl⟩
-- a value outside the range
example : PluralForms.getValue true ⟨.var, 2, [], []⟩ 2 = .ok none ∧ PluralForms.getValue true ⟨.binop .sub (.num 0) .var, 2, [], []⟩ 1 = .ok none := ⟨rfl, rfl⟩

/-! ### C35 -/

/-- **C35** A count of 2^63 and more is taken for the negative number `count - 2^64`. -/
theorem C35_signed {count : UInt64} (h : 2 ^ 63 ≤ count.toNat) (f : PluralForms) (i : Nat) :
    f.getValue false count = .ok (some i) ↔ meaning ((count.toNat : Int) - 2 ^ 64) f.formula = i ∧ i < f.getCount := by
  rw [C32_iff, signed, if_neg (by omega)]

/-- **C35** Counts below 2^63 stand for themselves. -/
theorem C35_small {count : UInt64} (h : count.toNat < 2 ^ 63) (f : PluralForms) (i : Nat) :
    f.getValue false count = .ok (some i) ↔ meaning count.toNat f.formula = i ∧ i < f.getCount := by
  rw [C32_iff, signed, if_pos h]

/-- **C35** The default formula, or the formula `n`: the index is the count itself if it is below `get_count()` and below 2^63. -/
theorem C35_default (dbg : Bool) {f : PluralForms} (hf : f.formula = .var) (count : UInt64) :
    f.getValue dbg count = .ok (if count.toNat < f.getCount ∧ count.toNat < 2 ^ 63 then some count.toNat else none) := by
  rcases C32_value dbg f count with ⟨_, h, _⟩ | ⟨_, h⟩
  · rw [hf] at h; exact h.elim
  · rw [h]
    have hm : meaning (signed count) f.formula = signed count := by rw [hf]; rfl
    generalize meaning (signed count) f.formula = v at hm ⊢
    have := count.toNat_lt
    unfold signed at hm
    congr 1
    by_cases hc : count.toNat < f.getCount ∧ count.toNat < 2 ^ 63
    · rw [if_pos hc.2] at hm
      rw [if_pos (by omega), if_pos hc, hm, Int.toNat_natCast]
    · rw [if_neg hc, if_neg ?_]
      intro h
      split at hm <;> omega

/-- **C35** Without `plural`, or with a blank one, the formula is `n`. -/
theorem C35_blank {s : Str} {ps : List (Str × Str)} {f : PluralForms} (hp : PairsOf s ps) (hf : FormsOf s f)
    (hb : lastValue (c!"plural") ps = none ∨ ∃ x, lastValue (c!"plural") ps = some x ∧ White x) : f.formula = .var := by
  obtain ⟨_, _, ps', h1, h2, h3, _⟩ := hf
  have := pairsOf_unique hp h1
  subst this
  refine formulaText_unique h3 (.inl ⟨?_, rfl⟩)
  rw [h2]
  rcases hb with hb | ⟨x, hb, hw⟩
  · rw [hb]; exact fun _ h => nomatch h
  · rw [hb]; exact hw

-- with 2^64 - 1 texts the largest counts still have none
example : PluralForms.getValue true ⟨.var, 18446744073709551615, [], []⟩ 9223372036854775808 = .ok none ∧
    PluralForms.getValue true ⟨.var, 18446744073709551615, [], []⟩ 9223372036854775807 = .ok (some 9223372036854775807) := ⟨by decide, by decide⟩

/-! ### C33 -/

theorem values_at {o : Bool} {hi lo : Nat} {b : List PoLine} {vs : List Str} (h : ValueFields o hi lo b vs) :
    (∀ i, i < lo → fieldText (valueKeyword i) b = none) ∧ (∀ i, hi ≤ i → fieldText (valueKeyword i) b = none) ∧
    vs = (List.range' lo (hi - lo)).filterMap fun i => fieldText (valueKeyword i) b := by
  induction h with
  | @nil lo =>
    refine ⟨fun _ _ => rfl, fun _ _ => rfl, ?_⟩
    symm
    rw [List.filterMap_eq_nil_iff]
    intro _ _; rfl
  | @cons lo i b v bs vs h1 h2 h3 h4 ih =>
    obtain ⟨g1, g2, g3⟩ := ih
    have hn : NoCont bs := by have := values_noCont h4 (r := []) (by simp [NoCont]); rwa [List.append_nil] at this
    have hft : ∀ j, fieldText (valueKeyword j) (b ++ bs) = if i = j then some v else fieldText (valueKeyword j) bs := by
      intro j
      rw [fieldText_field h3 hn]
      by_cases hij : i = j
      · simp [hij]
      · rw [if_neg hij, if_neg (fun h => hij (valueKeyword_inj h))]
    refine ⟨?_, ?_, ?_⟩
    · intro j hj
      rw [hft, if_neg (by omega)]
      exact g1 j (by omega)
    · intro j hj
      rw [hft, if_neg (by omega)]
      exact g2 j hj
    · simp only [hft]
      have e : List.range' lo (hi - lo) = List.range' lo (i - lo) ++ (i :: List.range' (i + 1) (hi - (i + 1))) := by
        rw [← List.range'_succ (n := hi - (i + 1)), show hi - (i + 1) + 1 = hi - i by omega]
        have := List.range'_append_1 (s := lo) (m := i - lo) (n := hi - i)
        rw [show lo + (i - lo) = i by omega, show i - lo + (hi - i) = hi - lo by omega] at this
        exact this.symm
      rw [e, List.filterMap_append]
      have e1 : (List.range' lo (i - lo)).filterMap (fun j => if i = j then some v else fieldText (valueKeyword j) bs) = [] := by
        rw [List.filterMap_eq_nil_iff]
        intro j hj
        rw [List.mem_range'_1] at hj
        rw [if_neg (by omega)]
        exact g1 j (by omega)
      rw [e1, List.nil_append, List.filterMap_cons_some (by rw [if_pos rfl])]
      congr 1
      rw [g3]
      have hcongr : ∀ (l : List Nat), (∀ j ∈ l, i < j) → l.filterMap (fun j => fieldText (valueKeyword j) bs) =
          l.filterMap (fun j => if i = j then some v else fieldText (valueKeyword j) bs) := by
        intro l
        induction l with
        | nil => intro _; rfl
        | cons j l ih =>
          intro hl
          have hj := hl j (List.mem_cons_self ..)
          rw [List.filterMap_cons, List.filterMap_cons, if_neg (by omega), ih (fun x hx => hl x (List.mem_cons_of_mem _ hx))]
      apply hcongr
      intro j hj
      rw [List.mem_range'_1] at hj
      omega

/-- The texts of a plural entry are those of its `msgstr[i]` fields in the order of `i`, and there are none from `nplurals` on. -/
theorem entry_values {forms : Option PluralForms} {block : List PoLine} {u : PoUnit} {p : Plural} (h : Entry forms block u) (hp : u.message = .plural p) :
    (∀ i, nplurals forms ≤ i → fieldText (valueKeyword i) block = none) ∧
    p.values = (List.range (nplurals forms)).filterMap fun i => fieldText (valueKeyword i) block := by
  obtain ⟨cs, b1, b2, b3, b4, b5, b6, b7, pid, ppl, id, idPl, rfl, f1, f2, f3, g3, f4, f5, f6, f7, hpm, _⟩ := h
  rw [hp] at f7
  have n7 : NoCont b7 := by have := text_noCont f7 []; rwa [List.append_nil] at this
  have n6 := opt_noCont f6 n7
  have n5 := field_noCont f5 (b6 ++ b7)
  have n4 := opt_noCont f4 n5
  have n3 := opt_noCont f3 n4
  have n2 := opt_noCont f2 n3
  have key : ∀ i, fieldText (valueKeyword i) (cs.map commentLine ++ (b1 ++ (b2 ++ (b3 ++ (b4 ++ (b5 ++ (b6 ++ b7))))))) = fieldText (valueKeyword i) b7 := by
    intro i
    have hne : ∀ {k : Str}, ¬ IsTextKw k → k ≠ valueKeyword i := fun h e => h (.inr ⟨i, e⟩)
    rw [fieldText_comments, fieldText_opt f1 n2, if_neg (fun h => hne (not_textKw (by decide) (by decide)) h.1),
      fieldText_opt f2 n3, if_neg (fun h => hne (not_textKw (by decide) (by decide)) h.1),
      fieldText_opt f3 n4, if_neg (fun h => hne (not_textKw (by decide) (by decide)) h.1),
      fieldText_opt f4 n5, if_neg (fun h => hne (not_textKw (by decide) (by decide)) h.1),
      fieldText_field f5 n6, if_neg (hne (not_textKw (by decide) (by decide))),
      fieldText_opt f6 n7, if_neg (fun h => hne (not_textKw (by decide) (by decide)) h.1)]
  simp only [key]
  cases f7 with
  | plural f _ =>
    obtain ⟨_, h2, h3⟩ := values_at f
    refine ⟨h2, ?_⟩
    rw [h3, List.range_eq_range']
    rfl

theorem filterMap_prefix {f : Nat → Option Str} {k n : Nat} (hk : k ≤ n) (h : ∀ i, f i ≠ none ↔ i < k) (i : Nat) :
    ((List.range n).filterMap f)[i]? = f i := by
  have h1 : (List.range n).filterMap f = (List.range k).filterMap f := by
    rw [List.range_eq_range', List.range_eq_range']
    have := List.range'_append_1 (s := 0) (m := k) (n := n - k)
    rw [show k + (n - k) = n by omega] at this
    rw [← this, List.filterMap_append]
    have : (List.range' (0 + k) (n - k)).filterMap f = [] := by
      rw [List.filterMap_eq_nil_iff]
      intro j hj
      rw [List.mem_range'_1] at hj
      have := (h j).mp
      cases hf : f j with
      | none => rfl
      | some v => have := this (by simp [hf]); omega
    rw [this, List.append_nil]
  rw [h1]
  have h2 : ∀ m, m ≤ k → ((List.range m).filterMap f).length = m ∧ ∀ i, i < m → ((List.range m).filterMap f)[i]? = f i := by
    intro m
    induction m with
    | zero => intro _; exact ⟨rfl, fun i hi => absurd hi (by omega)⟩
    | succ m ih =>
      intro hm
      obtain ⟨g1, g2⟩ := ih (by omega)
      cases hf : f m with
      | none => exact absurd hf ((h m).mpr (by omega))
      | some v =>
        have e : (List.range (m + 1)).filterMap f = (List.range m).filterMap f ++ [v] := by
          rw [List.range_succ, List.filterMap_append, List.filterMap_cons_some hf, List.filterMap_nil]
        rw [e]
        refine ⟨by simp [g1], ?_⟩
        intro i hi
        by_cases him : i < m
        · rw [List.getElem?_append_left (by omega)]; exact g2 i him
        · have : i = m := by omega
          subst this
          rw [List.getElem?_append_right (by omega), g1, hf]
          simp
  obtain ⟨g1, g2⟩ := h2 k (Nat.le_refl k)
  by_cases hi : i < k
  · exact g2 i hi
  · rw [List.getElem?_eq_none (by omega)]
    cases hf : f i with
    | none => rfl
    | some v => exact absurd ((h i).mp (by simp [hf])) hi

variable {hdr : Header env.Lang} {xs : List (Except Err PoUnit)}

/-- **C33** Every plural unit comes from a block of lines, and for a block whose `msgstr[i]` fields are without gap `get_plural_text(n)` is the text of
the field `msgstr[f(n)]`, where `f` is the formula of the `Plural-Forms` property; it is absent if there is no such field or `f(n)` is negative.  The only
exception is the panic of C31. -/
theorem C33_select (h : Yields (parse env stream) hdr xs) {u : PoUnit} (hu : .ok u ∈ xs) {p : Plural} (hp : u.message = .plural p) {s : Str}
    (hs : hdr.properties.lookup (c!"Plural-Forms") = some s) (hne : s ≠ []) :
    ∃ (f : PluralForms) (block : List PoLine), FormsOf s f ∧ block.map .ok <:+: streamItems stream ∧ Entry (some f) block u ∧
      ((∃ k, ∀ i, fieldText (valueKeyword i) block ≠ none ↔ i < k) → ∀ dbg count,
        (dbg = true ∧ NegatesMin (signed count) f.formula ∧ u.message.getPluralText dbg count = .panic) ∨
        (¬ (dbg = true ∧ NegatesMin (signed count) f.formula) ∧ u.message.getPluralText dbg count =
          .ok (if meaning (signed count) f.formula < 0 then none else fieldText (valueKeyword (meaning (signed count) f.formula).toNat) block))) := by
  obtain ⟨forms, block, h1, h2, _, h4⟩ := unit_entry h hu
  rw [hs] at h4
  cases h4 with
  | empty => exact absurd rfl hne
  | @given _ f _ hf =>
    refine ⟨f, block, hf, h1, h2, ?_⟩
    rintro ⟨k, hk⟩ dbg count
    obtain ⟨g1, g2⟩ := entry_values h2 hp
    have hkn : k ≤ f.count := by
      apply Nat.le_of_not_lt
      intro hlt
      exact (hk f.count).mpr hlt (g1 _ (Nat.le_refl _))
    have hget : ∀ i, p.values[i]? = fieldText (valueKeyword i) block := by
      intro i; rw [g2]; exact filterMap_prefix (n := nplurals (some f)) hkn hk i
    have hpf := entry_forms h2 (.inl hp)
    rw [hp, Message.getPluralText, Plural.get, hpf]
    simp only
    rcases C32_value dbg f count with ⟨e1, e2, e3⟩ | ⟨e1, e2⟩
    · left; exact ⟨e1, e2, by rw [e3]; rfl⟩
    · right
      refine ⟨e1, ?_⟩
      rw [e2]
      have hg : f.getCount = f.count := rfl
      simp only [Out.bind, Out.ok.injEq]
      generalize meaning (signed count) f.formula = v
      by_cases hv : v < 0
      · rw [if_neg (by omega), if_pos hv]; rfl
      · rw [if_neg hv]
        by_cases hc : v < f.count
        · rw [if_pos ⟨by omega, hc⟩]; exact hget _
        · rw [if_neg (by omega)]
          have := g1 v.toNat (show f.count ≤ v.toNat by omega)
          rw [this]; rfl

/-- **C33** The texts of a plural unit: those of its `msgstr[i]` fields, in the order of `i`; with a gap they move up. -/
theorem C33_values (h : Yields (parse env stream) hdr xs) {u : PoUnit} (hu : .ok u ∈ xs) {p : Plural} (hp : u.message = .plural p) :
    ∃ (forms : Option PluralForms) (block : List PoLine), FormsRule env (hdr.properties.lookup (c!"Plural-Forms")) (.ok forms) ∧
      block.map .ok <:+: streamItems stream ∧ Entry forms block u ∧ (∀ i, nplurals forms ≤ i → fieldText (valueKeyword i) block = none) ∧
      p.values = (List.range (nplurals forms)).filterMap fun i => fieldText (valueKeyword i) block := by
  obtain ⟨forms, block, h1, h2, _, h4⟩ := unit_entry h hu
  obtain ⟨g1, g2⟩ := entry_values h2 hp
  exact ⟨forms, block, h4, h1, h2, g1, g2⟩

example := C33_select rich_yields rich_mem rfl (s := c!"nplurals=2; plural=(n > 1);") rfl (by decide)
example : richUnit.message.getPluralText true 1 = .ok (some (c!"un")) ∧ richUnit.message.getPluralText true 5 = .ok (some (c!"des uns")) := ⟨rfl, rfl⟩

/-- A catalogue in which `msgstr[0]` is missing. -/
def gapLines : List Str := [c!"msgid \"\"", c!"msgstr \"Plural-Forms: nplurals=2; plural=n;\\n\"", c!"", c!"msgid \"a\"", c!"msgid_plural \"b\"", c!"msgstr[1] \"x\""]

/-- Its unit. -/
def gapUnit : PoUnit :=
  { PoUnit.default with message := .plural ⟨c!"a", c!"b", [c!"x"], some ⟨.var, 2, c!"nplurals=2; plural=n;", c!"n"⟩⟩, state := .final }

set_option maxRecDepth 100000 in
/-- **C33** is not true with a gap: the text of `msgstr[1]` is found at count 0, not at count 1. -/
theorem C33_gap : (∃ hdr, Yields (parse demoEnv (textStream gapLines)) hdr (results [gapUnit] none)) ∧
    gapUnit.message.getPluralText true 0 = .ok (some (c!"x")) ∧ gapUnit.message.getPluralText true 1 = .ok none :=
  ⟨⟨_, yields_text (res := ⟨⟨[], [], [(c!"Plural-Forms", c!"nplurals=2; plural=n;")], demoEnv.langInvariant⟩, some ⟨.var, 2, c!"nplurals=2; plural=n;", c!"n"⟩, [gapUnit], none⟩)
    (by decide) (by rfl)⟩, rfl, rfl⟩

/-! ### C31 at the API -/

/-- A catalogue whose formula negates -2^63. -/
def minLines : List Str := [c!"msgid \"\"", c!"msgstr \"Plural-Forms: plural=-((0-1)/0);\\n\"", c!"", c!"msgid \"a\"", c!"msgid_plural \"b\"", c!"msgstr[0] \"x\""]

/-- Its plural forms. -/
def minForms : PluralForms :=
  ⟨.unop .neg (.binop .div (.binop .sub (.num 0) (.num 1)) (.num 0)), 2, c!"plural=-((0-1)/0);", c!"-((0-1)/0)"⟩

/-- Its unit. -/
def minUnit : PoUnit := { PoUnit.default with message := .plural ⟨c!"a", c!"b", [c!"x"], some minForms⟩, state := .final }

set_option maxRecDepth 100000 in
/-- **C31** refuted at the API: a catalogue that is read without error, with a unit whose `get_plural_text` panics for every count when overflow is
checked, and is absent for every count when it is not. -/
theorem C31_api : (∃ hdr, Yields (parse demoEnv (textStream minLines)) hdr (results [minUnit] none)) ∧
    ∀ count, minUnit.message.getPluralText true count = .panic ∧ minUnit.message.getPluralText false count = .ok none := by
  refine ⟨⟨_, yields_text (res := ⟨⟨[], [], [(c!"Plural-Forms", c!"plural=-((0-1)/0);")], demoEnv.langInvariant⟩, some minForms, [minUnit], none⟩) (by decide) (by rfl)⟩, ?_⟩
  intro count
  have hn : NegatesMin (signed count) minForms.formula := .inr (show (_ : Int) = -2 ^ 63 from rfl)
  constructor
  · rw [show minUnit.message.getPluralText true count = (minForms.getValue true count).bind (fun i => .ok (i.bind fun index => [c!"x"][index]?)) from rfl]
    rcases C32_value true minForms count with ⟨_, _, h⟩ | ⟨h, _⟩
    · rw [h]; rfl
    · exact absurd ⟨rfl, hn⟩ h
  · rw [show minUnit.message.getPluralText false count = (minForms.getValue false count).bind (fun i => .ok (i.bind fun index => [c!"x"][index]?)) from rfl]
    rcases C32_value false minForms count with ⟨h, _⟩ | ⟨_, h⟩
    · cases h
    · rw [h]
      have hm : meaning (signed count) minForms.formula = -2 ^ 63 := rfl
      rw [if_neg (by rw [hm]; intro h; exact absurd h.1 (by decide))]
      rfl

end Verif
