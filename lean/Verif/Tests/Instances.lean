import Verif.Props.Accessors
import Verif.Props.CGrammar
import Verif.Props.Cause
import Verif.Props.Change
import Verif.Props.Choice
import Verif.Props.CommentRuns
import Verif.Props.Equality
import Verif.Props.Errors
import Verif.Props.Exact
import Verif.Props.Formula
import Verif.Props.Gettext
import Verif.Props.Input
import Verif.Props.Layout
import Verif.Props.Lines
import Verif.Props.Messages
import Verif.Props.Opaque
import Verif.Props.Plural
import Verif.Props.Program
import Verif.Props.Reorder
import Verif.Props.Resume
import Verif.Props.RoundTrip
import Verif.Props.Size
import Verif.Props.Steps
import Verif.Props.Units
import Verif.Props.Width
import Verif.Props.Work

/-!
The theorems of the manifest applied to concrete data: their hypotheses can be met, and what they then say.  (Theorems that are applied in an
example beside them are not repeated here.)
-/

namespace Verif
open Spec

/-- The catalogue of `demoLines'`, which ends with an error in line 5, after one unit. -/
theorem demo_yields : Yields (parse demoEnv (textStream demoLines')) (noHeader demoEnv) (results [unitAB (c!"a") (c!"b")] (some (.parse 6 (c!"garbage") []))) :=
  yields_text (res := ⟨noHeader demoEnv, none, [unitAB (c!"a") (c!"b")], some (.parse 6 (c!"garbage") [])⟩) (by decide) (by rfl)

theorem demo_raw : rawLines (flatten (textStream demoLines')) = demoLines'.map .ok := rawLines_text (by decide)

theorem two_yields : Yields (parse demoEnv (textStream twoLines)) (noHeader demoEnv) (results [unitAB (c!"a") (c!"b"), unitAB (c!"c") (c!"d")] none) :=
  yields_text (res := ⟨noHeader demoEnv, none, [unitAB (c!"a") (c!"b"), unitAB (c!"c") (c!"d")], none⟩) (by decide) (by rfl)

/-! ### Input -/

-- `C01_no_panic`: input with a line that is not UTF-8
example : observe 7 (parse demoEnv brokenStream) ≠ .panic := C01_no_panic demoEnv brokenStream 7

-- `C02_fused`: the reader of `demoLines'` is the second case
example : ∃ hdr us err, Yields (parse demoEnv (textStream demoLines')) hdr (results us err) :=
  (C02_fused demoEnv (textStream demoLines')).resolve_left fun ⟨_, h⟩ => not_rejects_reads ((rejects_iff _ _ _).mpr h) (yields_reads demo_yields).choose_spec.choose_spec.choose_spec.2

-- `C02_after_end`: the calls after the error
example : ∃ calls, observe 9 (parse demoEnv (textStream demoLines')) = .ok (noHeader demoEnv, calls) ∧ (calls[1]?.map Prod.snd) = some (some (.error (.parse 6 (c!"garbage") []))) ∧
    (calls[8]?.map Prod.snd) = some none := by
  have h := demo_yields 9
  refine ⟨_, h, rfl, C02_after_end h (i := 1) (j := 8) (by decide) (by decide) (.inr ⟨_, rfl⟩)⟩

-- `C43_flatten`: the same bytes in other pieces, before a failure
example : flatten ([.data 109 [115], .interrupted, .data 103 []] ++ [.fail 5]) = flatten ([.interrupted, .data 109 [115, 103]] ++ [.fail 5]) :=
  C43_flatten _ _ _ (by simp) rfl

/-! ### Lines -/

-- `C06_unique`
example : ∃ x, Classified (c!"#, fuzzy") 3 x ∧ ∀ y, Classified (c!"#, fuzzy") 3 y → y = x := C06_unique _ _ (by decide)

-- `C07_comment_iff`, in both directions
example : (∃ kind content, parseLine (c!"#~ msgid \"x") 3 = some (.comment 3 kind content)) ∧ ¬ ∃ kind content, parseLine (c!"#~ msgid \"x\"") 3 = some (.comment 3 kind content) := by
  refine ⟨⟨'~', c!"msgid \"x", by rfl⟩, fun h => ?_⟩
  have := ((C07_comment_iff _ _ (by decide)).mp h).2 (some (c!"~")) (some (c!"msgid")) (c!"x")
  exact this (quoted_spaces _ _ _ _ 1 1 (by simp [IsMarker]) (by simp [IsKeyword]) rfl)

-- `C08_unescape_escape`, `C09_no_backslash`
example : unescape (c!"a\\\\n\\n\\\"\\t") = c!"a\\n\n\"\t" := C08_unescape_escape (c!"a\\n\n\"\t")
example : unescape (c!"é\"%s") = c!"é\"%s" := C09_no_backslash _ (by decide)

/-! ### Errors -/

-- `C05_where`: the third line of `brokenStream` is not UTF-8
example : ∃ l, (segments (flatten brokenStream))[2]? = some l ∧ ∀ s, l ≠ utf8 s := by
  rcases (C05_where (flatten brokenStream) 2 .invalidUtf8).mp (by rw [broken_lines]; rfl) with ⟨_, h⟩ | ⟨c, h, _⟩
  · exact h
  · cases h

-- `C05_nothing_later`: other lines after it
example (stream' : List Event) (more : List (Except IoErr Str))
    (h : rawLines (flatten stream') = [.ok (c!"msgid \"a\""), .ok (c!"msgstr \"b\""), .error .invalidUtf8] ++ more) (n : Nat) :
    observe n (parse demoEnv brokenStream) = observe n (parse demoEnv stream') :=
  C05_nothing_later (k := 2) (x := .invalidUtf8) (by rw [broken_lines]; rfl) (by rw [broken_lines, h]; rfl) n

-- `C38_next`: the error of `demoLines'` is that of its line 5
example : ErrorAt (rawLines (flatten (textStream demoLines'))) (.parse 6 (c!"garbage") []) := C38_next demo_yields (by simp [results])

-- `C38_parse`: an error of a line, and one of the header
example := C38_parse (env := demoEnv) (stream := textStream [c!"msgid \"a\"", c!"# note", c!"msgstr \"b\""]) (e := .parse 2 (c!"# ") (c!"msgstr")) (fails_text (by decide) (by rfl))
example := C38_parse (env := demoEnv) (stream := textStream [c!"msgid \"\"", c!"msgstr \"Plural-Forms: nplurals=2\""])
  (e := .unexpected 0 (c!"Bad value list definition: `nplurals=2`")) (fails_text (by decide) (by rfl))

-- `C39_complete`: a catalogue of two units, and one with an incomplete entry at its end
example := C39_complete two_yields
example := C39_complete (env := demoEnv) (stream := textStream [c!"msgid \"a\"", c!"msgstr \"b\"", c!"#. note", c!"msgctxt \"x\"", c!"msgid \"c\""]) (us := [unitAB (c!"a") (c!"b")])
  (yields_text (res := ⟨noHeader demoEnv, none, [unitAB (c!"a") (c!"b")], none⟩) (by decide) (by rfl))

-- `C69_before`: from the statement, what the first four lines of `demoLines'` give
example : ∃ hdr' us' e', Yields (parse demoEnv (textStream (demoLines'.take 4))) hdr' (results us' e') ∧
    (us' = [unitAB (c!"a") (c!"b")] ∧ e' = none ∨ (e' = none ∧ (∃ u, us' = [unitAB (c!"a") (c!"b")] ++ [u]) ∨
      us' = [unitAB (c!"a") (c!"b")] ∧ ∃ j, j < 5 ∧ e' = some (.unexpected j (c!"Source should not be empty")))) := by
  obtain ⟨k, hk, _, _, h⟩ := C69_before demo_yields
  have : k = 5 := by
    cases hk with
    | unrecognised => rfl
    | missing _ hne => exact absurd rfl hne
  subst this
  obtain ⟨hdr', us', e', h1, h2, _⟩ := h (textStream (demoLines'.take 4)) (by rw [rawLines_text (by decide), demo_raw]; rfl)
  refine ⟨hdr', us', e', h1, ?_⟩
  rcases h2 with h2 | ⟨_, h2⟩
  · exact .inl h2
  · exact .inr h2

-- `C69_first`: whatever follows the second line
example (stream' : List Event) (more : List (Except IoErr Str)) (h : rawLines (flatten stream') = [.ok (c!"msgid \"a\""), .ok (c!"# note")] ++ more) :
    Fails (parse demoEnv stream') (.parse 2 (c!"# ") (c!"msgstr")) := by
  have hf : Fails (parse demoEnv (textStream [c!"msgid \"a\"", c!"# note", c!"msgstr \"b\""])) (.parse 2 (c!"# ") (c!"msgstr")) := fails_text (by decide) (by rfl)
  obtain ⟨k, hk, _, _, _, h2⟩ := C69_first hf (fun s h => by cases h)
  have : k = 2 := by cases hk; rfl
  subst this
  exact h2 _ (by rw [h, rawLines_text (by decide)]; rfl)

/-! ### Layout, round trip -/

-- `C10_layout`: a blank line, spaces, and a text in two pieces
example : SameResults (parse demoEnv (textStream [c!"msgid \"a\"", c!"", c!"  msgstr  \"b\"", c!"\"c\" "])) (parse demoEnv (textStream [c!"msgid \"a\"", c!"msgstr \"bc\""])) := by
  refine C10_layout demoEnv ?_
  rw [rawLines_text (by decide), rawLines_text (by decide)]
  refine .line (fun _ _ => Iff.rfl) (fun _ => rfl) (.blankLeft (by decide) (.field (m := none) (k := c!"msgstr") (raw := c!"b") (raw' := c!"bc") (cs := [(c!"\"c\" ", c!"c")]) (cs' := [])
    (quoted_spaces _ _ _ _ 2 2 (by simp) (by simp [IsKeyword]) rfl) (quoted_spaces _ _ _ _ 0 1 (by simp) (by simp [IsKeyword]) rfl) ?_ (by simp) (by decide) .nil))
  intro c hc
  rw [List.mem_singleton.mp hc]
  exact ⟨by simp, by simp, [], [], [], [' '], by decide, by decide, by decide, by decide, rfl⟩

-- `C13_layout`: the demo catalogue with a blank line before its text
example : ∃ hdr, SameHeader hdr richHeader ∧ Yields (parse demoEnv (textStream (c!"  " :: richText))) hdr (results [richUnit, goneUnit] none) := by
  refine C13_layout richCat_writable ?_
  rw [rawLines_text (by decide)]
  refine .blankLeft (by decide) ?_
  have : ∀ ls : List Str, Layout (ls.map .ok) (ls.map .ok) := by
    intro ls
    induction ls with
    | nil => exact .nil
    | cons a l ih => exact .line (fun _ _ => Iff.rfl) (fun _ => rfl) ih
  exact this richText

-- `C13_injective`
example {c : Cat demoEnv.Lang} {forms : Option PluralForms} (w : WritableCat demoEnv c forms) (h : catLines richCat = catLines c) : c.units = [richUnit, goneUnit] :=
  (C13_injective richCat_writable w h).2.2.symm

-- `C46_normal`
example := C46_normal demo_yields

/-! ### Plural forms -/

-- `C24_immutable`
example : ∀ n calls, observe n (parse demoEnv (textStream richLines)) = .ok (richHeader, calls) → ∀ c ∈ calls, c.1.language = c!"fr" := by
  intro n calls h c hc
  rw [C24_immutable _ h c hc]
  rfl

-- `C25_map`, `C25_exact`, `C25_accepted`
example : ∃ m, parseMap (c!" nplurals =2;plural= n != 1 ; ") = .ok m ∧ m.lookup (c!"plural") = some (c!"n != 1") := by
  obtain ⟨m, h1, _, h2⟩ := C25_map (ps := [(c!"nplurals", c!"2"), (c!"plural", c!"n != 1")]) (s := c!" nplurals =2;plural= n != 1 ; ")
    (.cons (w0 := [' ']) (w1 := [' ']) (a := []) (b := []) (by decide) ⟨by decide, by unfold Solid; decide, by decide⟩ (by decide) (by decide)
      ⟨by decide, by decide, by decide, by decide⟩ (by decide)
      (.cons (w0 := []) (w1 := []) (a := [' ']) (b := [' ']) (by decide) ⟨by decide, by unfold Solid; decide, by decide⟩ (by decide) (by decide)
        ⟨by decide, by decide, by decide, by decide⟩ (by decide) (.nil (by decide))))
  exact ⟨m, h1, by rw [h2]; rfl⟩
example : ¬ IsList (c!"nplurals=2") := by
  rcases C25_exact (c!"nplurals=2") with ⟨_, m, _, h, _⟩ | ⟨h, _⟩
  · cases h
  · exact h
example : IsList (c!"a=b=c;d;") := (C25_accepted (by decide)).mpr (.inr ⟨[], c!"a", [], c!"b=c;d", [], by decide, by decide, by unfold Solid; decide, by decide, by decide, rfl⟩)

/-- The pairs of the demo property. -/
theorem rich_pairs : ∃ ps, IsList (c!"nplurals=2; plural=(n > 1);") ∧ PairsOf (c!"nplurals=2; plural=(n > 1);") ps ∧ lastValue (c!"plural") ps = some (c!"(n > 1)") ∧
    lastValue (c!"nplurals") ps = some (c!"2") := by
  rcases C25_exact (c!"nplurals=2; plural=(n > 1);") with ⟨h, m, ps, h1, _, h3, h4⟩ | ⟨_, h⟩
  · cases h1
    exact ⟨ps, h, h3, (h4 _).symm, (h4 _).symm⟩
  · cases h

-- `C26_count`, `C26_numeral`
example : ∀ n, (∃ f, PluralForms.parse demoEnv (c!"nplurals=2; plural=(n > 1);") = .ok f ∧ f.getCount = n) ↔ n = 2 := by
  intro n
  obtain ⟨ps, h1, h2, h3, h4⟩ := rich_pairs
  have ht : FormulaText ((lastValue (c!"plural") ps).getD []) (.binop .gt .var (.num 1)) := by
    rw [h3]; exact formulaParse_iff.mp (by decide)
  rw [C26_count h1 h2 ht, h4]
  constructor
  · rintro ⟨⟨hx⟩⟩
    have := ((C26_numeral (c!"2")).1 _).mpr ‹_›
    cases this
    rfl
  · rintro rfl
    exact .given (((C26_numeral (c!"2")).1 _).mp rfl)

-- `C23_forms`, `C23_iff`, `formsParse_iff`, `formsError_iff`: the first entry of the demo catalogue
example := fun ns cs t rest (hf : First (streamItems (textStream richLines)) (.header ns cs t rest)) hdr (hr : HeaderRule demoEnv ns cs t hdr)
  (hs : hdr.properties.lookup (c!"Plural-Forms") = some (c!"nplurals=2; plural=(n > 1);")) => (C23_iff hf hr hs (by decide)).mpr ⟨richForms, formsParse_iff.mp (by rfl : PluralForms.parse demoEnv _ = _)⟩
example : FormsError demoEnv (c!"nplurals=x;") (.pluralForms (c!"invalid digit found in string")) := formsError_iff.mp (by rfl)

-- `C32_value`, `C32_range`, `C32_iff`
example (dbg : Bool) (count : UInt64) : ∃ i, richForms.getValue dbg count = .ok i ∧ (i = none ∨ i = some 0 ∨ i = some 1) := by
  rcases C32_value dbg richForms count with ⟨_, h, _⟩ | ⟨_, h⟩
  · rcases h with h | h <;> exact h.elim
  · refine ⟨_, h, ?_⟩
    split
    · rename_i hi
      have := C32_range (h.trans (by rw [if_pos hi]))
      have h2 : richForms.getCount = 2 := rfl
      rw [h2] at this
      generalize (meaning (signed count) richForms.formula).toNat = j at this
      match j, this with
      | 0, _ => exact .inr (.inl rfl)
      | 1, _ => exact .inr (.inr rfl)
    · exact .inl rfl
example : richForms.getValue false 7 = .ok (some 1) := (C32_iff richForms 7 1).mpr ⟨by decide, by decide⟩

-- `C33_values`
example := C33_values rich_yields rich_mem rfl

-- `C35_signed`, `C35_small`, `C35_default`, `C35_blank`
example : PluralForms.getValue false ⟨.binop .lt .var (.num 0), 2, [], []⟩ 18446744073709551615 = .ok (some 1) := (C35_signed (by decide) _ _).mpr ⟨by decide, by decide⟩
example : PluralForms.getValue false ⟨.binop .lt .var (.num 0), 2, [], []⟩ 9223372036854775807 = .ok (some 0) := (C35_small (by decide) _ _).mpr ⟨by decide, by decide⟩
example : PluralForms.getValue true ⟨.var, 3, [], []⟩ 2 = .ok (some 2) := C35_default true rfl 2
example (f : PluralForms) (h : FormsOf (c!"nplurals=3;") f) : f.formula = .var := by
  rcases C25_exact (c!"nplurals=3;") with ⟨_, m, ps, h1, _, h3, h4⟩ | ⟨_, h'⟩
  · cases h1
    exact C35_blank h3 h (.inl (h4 (c!"plural")).symm)
  · cases h'

/-! ### Formulas -/

-- `C27_unambiguous`
example {t : Node} (h : Derives .expr [.n, .minus, .num ['1'], .minus, .num ['2']] t) : t = .binop .sub (.binop .sub .var (.num 1)) (.num 2) := by
  have h1 : formulaParse (c!"n - 1 - 2") = some (.binop .sub (.binop .sub .var (.num 1)) (.num 2)) := by decide
  rcases (C27_accepts _ _).mp h1 with ⟨_, h1⟩ | ⟨toks, h1, h2⟩
  · cases h1
  · rw [C27_unambiguous.1 _ _ _ h1 (lex_iff.mp (by decide) : Tokens _ [.n, .minus, .num ['1'], .minus, .num ['2']])] at h2
    exact C27_unambiguous.2 _ _ _ h h2

-- `C28_expressible`, `C28_reread`: a tree with nested negations, whose text needs parentheses
example : ∃ s, formulaParse s = some (.unop .neg (.unop .neg (.cond .var (.num 1) .var))) := C28_expressible ⟨trivial, show (0 : Int) ≤ 1 by decide, trivial⟩
example {s : Str} (hs : Writes (print (.binop .mod .var (.num 7))) s) : formulaParse s = some (.binop .mod .var (.num 7)) :=
  C28_reread (s := c!"n % 7") (by decide) hs

-- `C29_space`
example : formulaParse (c!"n\t%  7") = formulaParse (c!"n%7") := by
  have h : ∀ w1 w2 : Str, White w1 → White w2 → Writes [.n, .percent, .num ['7']] (c!"n" ++ (w1 ++ (c!"%" ++ (w2 ++ (c!"7" ++ []))))) := fun w1 w2 h1 h2 =>
    .cons (ws := []) (by decide) .n (.cons h1 .percent (.cons h2 (.num (ds := ['7']) (by decide) (by decide)) (.nil (by decide)) (by intro t ts h; cases h))
      (by intro t ts h hc; cases h; exact hc.elim)) (by intro t ts h hc; cases h; exact hc.elim)
  exact C29_space (h (c!"\t") (c!"  ") (by decide) (by decide)) (h [] [] (by decide) (by decide))

-- `C30_value`, `C30_meaning`
example (dbg : Bool) : ∃ r, Node.execute dbg 5 (.binop .or (.binop .gt .var (.num 1)) (.binop .div .var (.num 0))) = .ok r ∧ r.toInt = 1 :=
  C30_value dbg (n := 5) (.orTrue (v := 1) (.binop (o := .gt) (v := 5) (w := 1) (by decide) (by decide) .var (.num (v := 1)) (by decide) ⟨by decide, by decide⟩) (by decide))
example : ∃ r, Node.execute false 5 (.binop .div (.binop .sub (.num 0) .var) (.num 0)) = .ok r ∧ r.toInt = -2 ^ 63 := C30_meaning _ 5

-- `C31_release`, `C31_checked`
example (count : UInt64) : formulaExecute false (.unop .neg (.binop .sub (.num (-9223372036854775807)) (.num 1))) count ≠ .panic := C31_release _ _
example (count : UInt64) : formulaExecute true (.unop .neg (.binop .sub (.num (-9223372036854775807)) (.num 1))) count = .panic := (C31_checked _ _).mpr (.inr rfl)
example (count : UInt64) : formulaExecute true (.binop .and (.num 0) (.unop .neg (.binop .sub (.num (-9223372036854775807)) (.num 1)))) count ≠ .panic := by
  intro h
  rcases (C31_checked _ _).mp h with h | ⟨h, _⟩
  · exact h
  · exact h rfl

-- `C36_exact`, `C36_agree`, `C36_differ`: `n%2` has the same tree in C; `!n+1` has not
example : ∀ t', CDerives .expr [.n, .percent, .num ['2']] t' ↔ t' = .binop .mod .var (.num 2) :=
  (C36_agree (s := c!"n%2") (lex_iff.mp (by decide)) (.exprOr (.orAnd (.andEq (.eqRel (.relNot (.notAdd (.addMul (.mulMod (w₁ := [.n]) (.mulFactor (.factorTerm .termVar))
    (.factorTerm (.termNum (by decide)))))))))))).2
example : ¬ CDerives .expr [.bang, .n, .plus, .num ['1']] (.unop .not (.binop .add .var (.num 1))) := by
  refine C36_differ (s := c!"!n+1") (lex_iff.mp (by decide)) (by decide) (by decide) fun h => ?_
  have := ((C36_agree (s := c!"!n+1") (lex_iff.mp (by decide)) h).2 (.binop .add (.unop .not .var) (.num 1))).mp
    (.exprOr (.orAnd (.andEq (.eqRel (.relAdd (.addAdd (w₁ := [.bang, .n]) (.addMul (.mulUnary (.unaryNot (.unaryPrim .primVar))))
      (.mulUnary (.unaryPrim (.primNum (by decide))))))))))
  cases this
example {toks : List Tok} {t : Node} (h : Derives .expr toks t) (h' : CDerives .expr toks t) : Common .expr toks t := (C36_exact toks t).mp ⟨h, h'⟩

-- `C62_iff`, `C62_value`, `C62_text`
example : Node.beq (.binop .add .var (.num 0)) (.binop .add (.num 0) .var) ≠ true := fun h => by have := (C62_iff _ _).mp h; cases this
example {b : Node} (h : Node.beq (.binop .mod .var (.num 7)) b = true) : formulaExecute true b 12 = .ok (some 5) := (C62_value h true 12).symm.trans (by decide)
example {s s' : Str} {a b : Node} (h : Writes [.n, .percent, .num ['7']] s) (h' : Writes [.n, .percent, .num ['7']] s') (ha : formulaParse s = some a) (hb : formulaParse s' = some b) :
    a.beq b = true := C62_text h h' ha hb

-- `C66_same`, `C66_work`, `C66_size`, `C66_forms`, `C66_deep`
example : ((longSum 2).steps true 5).result = .ok 15 := (C66_same true 5 (longSum 2)).trans (by decide)
example : ((longSum 2).steps false 5).calls ≤ 5 := (C66_work false 5 (longSum 2)).1
example {t : Node} (h : formulaParse (c!"n%7") = some t) : nodeCount t ≤ 3 := (C66_size h).1
example : nodeCount richForms.formula ≤ 27 := C66_forms (formsParse_iff.mp (by rfl : PluralForms.parse demoEnv (c!"nplurals=2; plural=(n > 1);") = .ok richForms))
example : ∃ t, formulaParse (longSumText 1000) = some t ∧ (t.steps true 5).depth = 1001 := by
  obtain ⟨_, t, h1, h2⟩ := C66_deep 1000
  exact ⟨t, h1, (h2 true 5).2⟩

/-! ### Messages, errors, units -/

-- `C37_iff`, `C37_accessors`, `C37_equivalence`
example : SameMessage (.plural ⟨c!"a", c!"b", [c!"x"], none⟩) (.plural ⟨c!"a", c!"b", [], some richForms⟩) := (C37_iff _ _).mp (by decide)
example : Message.beq (.simple (c!"a") none) (.plural ⟨c!"a", c!"b", [], none⟩) ≠ true := fun h => by have := ((C37_accessors _ _).mp h).2.1; cases this
example {m : Message} (h : Message.beq (.simple (c!"a") none) m = true) : Message.beq m (.simple (c!"a") (some [])) = true :=
  C37_equivalence.2.2 _ _ _ (C37_equivalence.2.1 _ _ h) (by decide)

-- `C42_display`, `C42_debug`, `C42_source`, `C42_line`
example (io : IoErr → Str) : ErrorText io (.parse 12 (c!"msgstr") []) (c!"Parse error at line 12, got ‘msgstr’") := C42_display io _
example (io io' : IoErr → Str) : Err.debug io (.pluralForms (c!"x")) = Err.display io' (.pluralForms (c!"x")) := (C42_debug io io' _).2 (by simp)
example : Err.source (.io 3 (.os 5)) = some (.os 5) ∧ Err.source (.parse 3 [] []) ≠ some (.os 5) :=
  ⟨(C42_source _ _).mpr ⟨3, rfl⟩, fun h => by obtain ⟨_, h⟩ := (C42_source _ _).mp h; cases h⟩
example {io : IoErr → Str} {n : Nat} {a b : Str} (h : Err.display io (.parse n a b) = c!"Parse error at line 12") : n = 12 := by
  have := (C42_line (e := .parse n a b) (e' := .parse 12 [] []) h rfl rfl).1
  simpa [namedLine] using this

-- `C48_kind`, `C48_plural`, `C48_blank`, `C48_simple`
example : Message.isEmpty (.simple [] (some (c!"x"))) = true ∧ Message.getPlural (.simple [] (some (c!"x"))) = none := by
  refine ⟨?_, ?_⟩
  · rcases (C48_kind (.simple [] (some (c!"x")))).1 with h | h | h
    · exact h.1
    · exact absurd rfl h.2.2.2
    · cases h.2.2
  · exact Classical.byContradiction fun h => by have := (C48_kind _).2.2.mpr h; cases this
example : richUnit.message.getText = c!"un" := ((C48_plural (m := richUnit.message) (p := _) rfl).2.2.2.1 _ _ rfl).1
example : goneUnit.message.getText = [] := (C48_blank _).2.1 rfl
example (n : UInt64) : ∃ t, Message.getPluralText true (.simple (c!"a") (some (c!"b"))) n = .ok t ∧ c!"b" = t.getD [] := C48_simple (m := .simple (c!"a") (some (c!"b"))) rfl true n

-- `C49_rules`: the rule of Russian at 21 and 111
example (env : Env) : ∃ f, PluralForms.parse env (gettextRules[9]).definition = .ok f ∧ f.getCount = 3 ∧ f.getValue true 21 = .ok (some 0) ∧ f.getValue true 111 = .ok (some 2) := by
  obtain ⟨f, h1, h2, h3⟩ := C49_rules env (gettextRules[9]) (List.getElem_mem _)
  exact ⟨f, h1, h2, (h3 true 21 (by decide)).2, (h3 true 111 (by decide)).2⟩

-- `C60_total`, `C60_text`, `C60_rules`
example (count : UInt64) : ∃ i : Nat, i < 2 ∧ meaning (signed count) richForms.formula = i ∧ richForms.getValue true count = .ok (some i) :=
  C60_total (f := richForms) (.compare (by decide) trivial) true (.inr ⟨trivial, trivial⟩) count
example (count : UInt64) := C60_text (p := ⟨c!"a", c!"b", [c!"x", c!"y"], some richForms⟩) (f := richForms) rfl (.compare (by decide) trivial) rfl false (.inl rfl) count
example (env : Env) (count : UInt64) : ∃ f i, PluralForms.parse env (gettextRules[9]).definition = .ok f ∧ i < 3 ∧ f.getValue true count = .ok (some i) := by
  obtain ⟨f, h1, h2, h3, h4⟩ := C60_rules env (gettextRules[9]) (List.getElem_mem _)
  obtain ⟨i, h5, _, h6⟩ := C60_total h3 true (.inr h4) count
  rw [h2] at h5
  exact ⟨f, i, h1, h5, h6⟩

-- `C68_model`, `C68_value`, `C68_same`, `C68_choice`, `C68_text`, `C68_parse`, `C68_large`
example : PluralForms.getValueW 64 true richForms 5 = .ok (some 1) := ((C68_model demoEnv).2.1 richForms true 5).trans rfl
example : PluralForms.getValueW 16 true ⟨.binop .mul .var (.num 65536), 2, [], []⟩ 7 = .ok (some 0) := by
  rcases C68_value (w := 16) (by decide) true ⟨.binop .mul .var (.num 65536), 2, [], []⟩ (count := 7) (by decide) with ⟨_, h, _⟩ | ⟨_, h⟩
  · rcases h with h | h <;> exact h.elim
  · exact h
example : PluralForms.getValueW 16 true richForms 65535 = .ok (some 1) := (C68_same (w := 16) (by decide) true richForms (count := 65535) (by decide) (by decide)).trans ((C68_model demoEnv).2.1 richForms true 65535)
example (count : Nat) (h : count < 2 ^ 32) : richForms.getValueW 32 true count = richForms.getValueW 64 true count :=
  C68_choice (by decide) (f := richForms) (.compare (by decide) trivial) (by decide) true h
example : Message.getPluralTextW 32 false (.plural ⟨c!"a", c!"b", [c!"x", c!"y"], some richForms⟩) 5 = .ok (some (c!"y")) := C68_text (w := 32) (by decide) (p := ⟨c!"a", c!"b", [c!"x", c!"y"], some richForms⟩) (f := richForms) rfl (count := 5) (by decide)
example (f : PluralForms) (h : PluralForms.parseW 16 demoEnv (c!"nplurals=2; plural=(n > 1);") = .ok f) : f.getCount < 65536 := ((C68_parse (by decide) (by decide) _ _ _).mp h).2
example : PluralForms.parseW 16 demoEnv (c!"nplurals=65536;") = .error (.pluralForms (c!"number too large to fit in target type")) :=
  C68_large (w := 16) (by decide) demoEnv (f := ⟨.var, 65536, c!"nplurals=65536;", []⟩) (formsParse_iff.mp (by rfl : PluralForms.parse demoEnv (c!"nplurals=65536;") = _)) (by decide)

/-! ### Whole inputs -/

-- `C47_items`, `C47_complete`, `C47_total`, `C47_determined`
example : LineItems 1 (demoLines'.map .ok) (streamItems (textStream demoLines')) ∧ ∀ l, LineItems 1 (demoLines'.map .ok) l → l = streamItems (textStream demoLines') := by
  obtain ⟨l, h1, h2⟩ := C47_items (textStream demoLines')
  rw [demo_raw] at h1 h2
  have := (stream_items (textStream demoLines') _).mpr rfl
  rw [demo_raw] at this
  exact ⟨this, fun l' h => (h2 l' h).trans (h2 _ this).symm⟩
example {l : List Item} (hl : LineItems 1 (rawLines (flatten (textStream twoLines))) l) : ∀ e, ¬ Rejects demoEnv l e := by
  rcases C47_total demoEnv hl with ⟨⟨e, h, _⟩, _⟩ | ⟨_, h⟩
  · exact absurd (yields_reads two_yields).choose_spec.choose_spec.choose_spec.2 (not_rejects_reads ((rejects_iff _ _ _).mpr ((C47_fails (env := demoEnv) hl e).mpr h)))
  · exact h
example := fun l hl hdr forms us e (h : Reads demoEnv l hdr forms us e) => C47_complete (stream := textStream richLines) hl h
example (stream' : List Event) (h : rawLines (flatten stream') = rawLines (flatten (textStream twoLines))) :
    ∃ hdr', SameHeader hdr' (noHeader demoEnv) ∧ Yields (parse demoEnv stream') hdr' (results [unitAB (c!"a") (c!"b"), unitAB (c!"c") (c!"d")] none) := by
  have hl := (stream_items (textStream twoLines) _).mpr rfl
  exact (C47_determined hl (by rw [h]; exact hl)).2 _ _ two_yields

-- `C51_total`
example := C51_total demoEnv (textStream [c!"# x"]) [textStream twoLines, [.fail 5], textStream twoLines]

-- `C54_noPlural`: after another header
example (hdr hdr' : Header Str) (us us' : List PoUnit) (e' : Option Err)
    (h : Yields (parse demoEnv (textStream (headLines (c!"Language: fr") ++ (c!"# note" :: twoLines)))) hdr (results us none))
    (h' : Yields (parse demoEnv (textStream (headLines (c!"Plural-Forms: nplurals=1;") ++ (c!"# note" :: twoLines)))) hdr' (results us' e')) (hp : ∀ u ∈ us, NoPlural u) :
    us = us' ∧ e' = none :=
  C54_noPlural (hd := (headLines _).map .ok) (hd' := (headLines _).map .ok) (rs := (c!"# note" :: twoLines).map .ok) (by rw [rawLines_text (by decide)]; rfl)
    (by rw [rawLines_text (by decide)]; rfl) (headerLines_demo _) (headerLines_demo _) (noContinuation_head (by decide) rfl) h h' hp

-- `C54_drop`
example (hdr : Header Str) (us : List PoUnit) (e : Option Err)
    (h : Yields (parse demoEnv (textStream (headLines (c!"Language: fr") ++ (c!"#: x.c:1" :: twoLines)))) hdr (results us e))
    (hp : hdr.properties.lookup (c!"Plural-Forms") = none) : us = [{ unitAB (c!"a") (c!"b") with locations := [c!"x.c:1"] }, unitAB (c!"c") (c!"d")] ∧ e = none := by
  refine C54_drop (stream' := textStream (c!"#: x.c:1" :: twoLines)) (hdr' := noHeader demoEnv) (hd := (headLines _).map .ok) (rs := (c!"#: x.c:1" :: twoLines).map .ok)
    (by rw [rawLines_text (by decide)]; rfl) (by rw [rawLines_text (by decide)]) (headerLines_demo _) (noContinuation_head (by decide) rfl) h
    (yields_text (res := ⟨noHeader demoEnv, none, [_, _], none⟩) (by decide) (by rfl)) (.inl hp) ?_
  intro ns cs t rest hf
  rw [streamItems_code, rawLines_text (by decide), first_iff (items_noBlank _ _)] at hf
  cases hf

-- `C55_bom`, `C55_first_line`
example : ∃ e, Fails (parse demoEnv [.data 0xEF [0xBB], .interrupted, .data 0xBF [109, 115, 103], .fail 5]) e := C55_bom demoEnv (bs := [109, 115, 103]) rfl
example : Fails (parse demoEnv (textStream [c!" <html>", c!"msgid \"a\""])) (.parse 2 (c!" <html>") []) :=
  C55_first_line demoEnv (w := [' ']) (t := c!"html>") (c := '<') (rs := [.ok (c!"msgid \"a\"")]) (by rw [rawLines_text (by decide)]; rfl) (by decide) (by decide) (by decide) (by decide) (by decide)

-- `C56_order`: a note and a flag exchanged
example : Correspond Eq Eq SameButComment (parse demoEnv (textStream [c!"# note", c!"#, fuzzy", c!"msgid \"a\"", c!"msgstr \"b\""]))
    (parse demoEnv (textStream [c!"#, fuzzy", c!"# note", c!"msgid \"a\"", c!"msgstr \"b\""])) := by
  refine C56_order demoEnv ?_
  rw [rawLines_text (by decide), rawLines_text (by decide)]
  have same : Rewritten Shuffled ([c!"msgid \"a\"", c!"msgstr \"b\""].map .ok) ([c!"msgid \"a\"", c!"msgstr \"b\""].map .ok) :=
    .line (not_comment_text (by decide) rfl) (.line (not_comment_text (by decide) rfl) .nil)
  refine .run (ss := [(c!"# note", ' ', c!"note"), (c!"#, fuzzy", ',', c!"fuzzy")]) (ss' := [(c!"#, fuzzy", ',', c!"fuzzy"), (c!"# note", ' ', c!"note")]) (by simp) (by simp) ?_ ?_ ?_ same
  · intro x hx
    simp only [List.mem_cons, List.not_mem_nil, or_false] at hx
    rcases hx with rfl | rfl <;> exact (C06_line_classification _ _ (by decide) _).mp rfl
  · intro x hx
    simp only [List.mem_cons, List.not_mem_nil, or_false] at hx
    rcases hx with rfl | rfl <;> exact (C06_line_classification _ _ (by decide) _).mp rfl
  · intro k
    revert k
    decide

-- `C59_least`
set_option maxRecDepth 100000 in
example : ∃ r, parseCounted demoEnv (textStream richLines) = .ok r ∧ ∀ xs r', Calls r (some (.ok richUnit) :: xs) r' → 2 ≤ r'.lines.calls := by
  obtain ⟨r, h1, _⟩ := yields_calls (r := parseCounted demoEnv (textStream richLines)) fun k => (C59_same _ k).trans (rich_yields k)
  refine ⟨r, h1, fun xs r' hc => ?_⟩
  have := C59_least h1 hc
  rw [List.map_cons, List.sum_cons] at this
  have h2 : lookups (some (.ok richUnit)) = 2 := rfl
  omega

-- `C61_ends`, `C61_refused`, `C61_convert`
example := C61_ends demoEnv brokenStream
example : Program demoEnv (textStream [c!"msgid \"a\"", c!"msgid \"b\""]) [] (.error (.other (.parse 2 [] (c!"msgstr")))) := (C61_refused (fails_text (by decide) (by rfl)) _ _).mpr ⟨rfl, rfl⟩
example (io : IoErr → Str) : (Err.toIo (.parse 12 [] [])).display io = c!"Parse error at line 12" := (C61_convert io _).2.1

-- `C63_plain`
example := fun u rest (hf : First (streamItems (textStream twoLines)) (.unit u rest)) => C63_plain two_yields hf

-- `C64_headed`: texts of the same length
example : Correspond SameHeader (UnitRel fun _ a a' => a.length = a'.length) Eq
    (parse demoEnv (textStream (headLines twoForms ++ twoEntries (c!"o") (c!"hi") (c!"salut") (c!"a") (c!"b") (c!"c") [])))
    (parse demoEnv (textStream (headLines twoForms ++ twoEntries (c!"x") (c!"yy") (c!"zzzzz") (c!"1") (c!"2") (c!"3") []))) := by
  refine C64_headed (R := fun _ a a' => a.length = a'.length) ⟨by intro _ _ _ _ _ h h'; simp [h, h'], by intro _ a a' h; rw [← List.length_eq_zero_iff, ← List.length_eq_zero_iff, h]⟩ demoEnv
    (hd := (headLines twoForms).map .ok) (rs := (twoEntries _ _ _ _ _ _ _).map .ok) (rs' := (twoEntries _ _ _ _ _ _ _).map .ok)
    (by rw [rawLines_text (by decide)]; rfl) (by rw [rawLines_text (by decide)]; rfl) (headerLines_demo _) (noContinuation_head (by decide) rfl) ?_
  refine twoEntries_retexted ?_ ?_ ?_ ?_ ?_ ?_ ?_ ?_ <;> first | exact rfl | exact fun _ => rfl

-- `C65_room`, `C65_bounds`
example := C65_room rich_yields
example := (C65_bounds rich_yields).2.1 richUnit (by simp)

end Verif
