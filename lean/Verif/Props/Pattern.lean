import Verif.Lemmas.Pattern
import Verif.Lemmas.Unescape
import Verif.Props.Lines
import Verif.Props.Plural

/-! The texts of the patterns: C79. -/

namespace Verif
open Spec

theorem finds_iff {pat s : Str} {re : Re} (h : PatternText pat re) (hp : Proper re) (g : List (Nat × Str)) :
    Finds pat s g ↔ ∃ t, re.captures s = some t ∧ t.caps = g := by
  constructor
  · rintro ⟨r, pre, t, h1, h2, h3⟩
    obtain rfl := pattern_unique h h1
    exact ⟨t, by rw [Re.captures, (find_iff hp true s pre t).mpr h2]; rfl, h3⟩
  · rintro ⟨t, h1, h2⟩
    rw [Re.captures] at h1
    cases hf : re.find true s with
    | none => rw [hf] at h1; cases h1
    | some q =>
      rw [hf] at h1; cases h1
      exact ⟨re, q.1, q.2, h, (find_iff hp true s q.1 q.2).mp hf, h2⟩

theorem not_finds {pat s : Str} {re : Re} (h : PatternText pat re) (hp : Proper re) : (∀ g, ¬ Finds pat s g) ↔ re.captures s = none := by
  constructor
  · intro hn
    cases hc : re.captures s with
    | none => rfl
    | some t => exact absurd ((finds_iff h hp t.caps).mpr ⟨t, hc, rfl⟩) (hn _)
  · intro hn g hg
    obtain ⟨t, ht, _⟩ := (finds_iff h hp g).mp hg
    rw [hn] at ht; cases ht

theorem allMatches_eq {r : Re} (hp : Proper r) (hr : ∀ s x t, Matches r s x t → t.rest.length < s.rest.length) {start : Bool} {s : Str} {ms : List (Str × St)} {tail : Str}
    (h : AllMatches r start s ms tail) : ∀ n, s.length < n → r.iterAux n start s = (ms, tail) := by
  induction h with
  | done h =>
    intro n hn
    obtain ⟨n, rfl⟩ : ∃ j, n = j + 1 := ⟨n - 1, by omega⟩
    rw [Re.iterAux, (find_none hp _ _).mpr h]
  | next h _ ih =>
    intro n hn
    obtain ⟨n, rfl⟩ : ∃ j, n = j + 1 := ⟨n - 1, by omega⟩
    obtain ⟨x, hx, _⟩ := h.2.1
    have hlt := hr _ _ _ hx
    simp only [posAt, List.length_drop] at hlt
    rw [Re.iterAux, (find_iff hp _ _ _ _).mpr h]
    simp only [ih n (by omega)]

theorem findsAll_iff {pat s : Str} {re : Re} (h : PatternText pat re) (hp : Proper re) (hr : ∀ s x t, Matches re s x t → t.rest.length < s.rest.length)
    (ms : List (Str × List (Nat × Str))) (tail : Str) :
    FindsAll pat s ms tail ↔ ms = (re.iterAux (s.length + 1) true s).1.map (fun m => (m.1, m.2.caps)) ∧ tail = (re.iterAux (s.length + 1) true s).2 := by
  constructor
  · rintro ⟨r, ms', h1, h2, rfl⟩
    obtain rfl := pattern_unique h h1
    rw [allMatches_eq hp hr h2 _ (Nat.lt_succ_self _)]
    exact ⟨rfl, rfl⟩
  · rintro ⟨rfl, rfl⟩
    exact ⟨re, _, h, iter_all hp hr _ true s (Nat.lt_succ_self _), rfl⟩

/-! ### Groups -/

/-- The groups that every match has. -/
def sureGroups : Re → List Nat
  | .seq a b => sureGroups a ++ sureGroups b
  | .cap i r => i :: sureGroups r
  | _ => []

theorem groups_stay {r : Re} {s t : St} {x : Tree} (h : Matches r s x t) {i : Nat} (hi : (s.caps.lookup i).isSome) : (t.caps.lookup i).isSome := by
  induction h with
  | cls => exact hi
  | seq _ _ ih1 ih2 => exact ih2 (ih1 hi)
  | more _ _ ih1 ih2 => exact ih2 (ih1 hi)
  | left _ ih => exact ih hi
  | right _ ih => exact ih hi
  | cap _ _ ih =>
    rename_i j _ _ _ _ _ _ _
    simp only [List.lookup_cons]
    split
    · rfl
    · exact ih hi
  | _ => exact hi

theorem groups_sure {r : Re} {s t : St} {x : Tree} (h : Matches r s x t) {i : Nat} (hi : i ∈ sureGroups r) : (t.caps.lookup i).isSome := by
  induction h with
  | seq _ h2 ih1 ih2 =>
    simp only [sureGroups, List.mem_append] at hi
    rcases hi with hi | hi
    · exact groups_stay h2 (ih1 hi)
    · exact ih2 hi
  | cap _ _ ih =>
    rename_i j _ _ _ _ _ _ _
    simp only [List.lookup_cons]
    split
    · rfl
    · rename_i hne
      simp only [sureGroups, List.mem_cons] at hi
      rcases hi with rfl | hi
      · simp at hne
      · exact ih hi
  | _ => cases hi

theorem captures_sure {re : Re} (hp : Proper re) {s : Str} {t : St} (h : re.captures s = some t) {i : Nat} (hi : i ∈ sureGroups re) : ∃ w, t.caps.lookup i = some w := by
  rw [Re.captures] at h
  cases hf : re.find true s with
  | none => rw [hf] at h; cases h
  | some q =>
    rw [hf] at h; cases h
    obtain ⟨x, hx, _⟩ := ((find_iff hp true s q.1 q.2).mp hf).2.1
    exact Option.isSome_iff_exists.mp (groups_sure hx hi)

theorem allMatches_each {r : Re} {start : Bool} {s : Str} {ms : List (Str × St)} {tail : Str} (h : AllMatches r start s ms tail) :
    ∀ m ∈ ms, ∃ b s' x, Matches r ⟨b, s', []⟩ x m.2 := by
  induction h with
  | done => simp
  | next h _ ih =>
    intro m hm
    rcases List.mem_cons.mp hm with rfl | hm
    · obtain ⟨x, hx, _⟩ := h.2.1
      exact ⟨_, _, x, hx⟩
    · exact ih m hm

theorem iter_each {re : Re} (hr : re ∈ [unescapeRe, mapRe]) (s : Str) : ∀ m ∈ (re.iterAux (s.length + 1) true s).1, ∃ b s' x, Matches re ⟨b, s', []⟩ x m.2 :=
  allMatches_each (iter_all (patterns_proper _ (by revert hr; simp; rintro (h | h) <;> simp [h])) (fun _ _ _ => iter_patterns_read hr) _ true s (Nat.lt_succ_self _))

/-! ### The functions -/

theorem escape_match {s t : St} {x : Tree} (h : Matches unescapeRe s x t) : ∃ c ∈ c!"rtn\"\\", t.caps.lookup 1 = some [c] := by
  cases h with
  | seq h1 h2 =>
    cases h2 with
    | cap h3 h4 =>
      cases h3 with
      | cls h5 =>
        rename_i w _ c cs _
        refine ⟨c, ?_, ?_⟩
        · simp only [Cls.test, List.any_cons, List.any_nil, Bool.or_false, Bool.or_eq_true, Bool.and_eq_true, decide_eq_true_eq] at h5
          have key : ∀ d : Char, d.toNat ≤ c.toNat ∧ c.toNat ≤ d.toNat → c = d := by
            intro d ⟨h1, h2⟩
            exact Char.toNat_inj.mp (Nat.le_antisymm h2 h1)
          rcases h5 with h | h | h | h | h <;> (rw [key _ h]; decide)
        · have : w = [c] := List.append_cancel_right (as := w) (bs := cs) (cs := [c]) h4.symm
          simp [this]

theorem unescapeGroup_match {s t : St} {x : Tree} (h : Matches unescapeRe s x t) : unescapeGroup t = ((t.caps.lookup 1).getD []).map escapeFor := by
  obtain ⟨c, hc, ht⟩ := escape_match h
  rw [unescapeGroup, St.get, ht]
  clear ht h
  revert c
  decide

/-- **C79** The texts of the five patterns are patterns, each with one meaning. -/
theorem C79_patterns : ∀ p ∈ [pairPattern, listPattern, quotedPattern, hashPattern, escapePattern], ∃ r, PatternText p r ∧ ∀ r', PatternText p r' → r' = r := by
  have key : ∀ {p r}, PatternText p r → ∃ r, PatternText p r ∧ ∀ r', PatternText p r' → r' = r := fun h => ⟨_, h, fun _ h' => pattern_unique h' h⟩
  simp only [List.mem_cons, List.not_mem_nil, or_false]
  rintro p (rfl | rfl | rfl | rfl | rfl)
  · exact key pairPattern_text
  · exact key listPattern_text
  · exact key quotedPattern_text
  · exact key hashPattern_text
  · exact key escapePattern_text

/-- **C79** `Unescaper::unescape` replaces the leftmost-first matches of its pattern, one after the other. -/
theorem C79_unescape (s out : Str) : unescape s = out ↔ Unescapes s out := by
  have hp := patterns_proper unescapeRe (by simp)
  have hr : ∀ s x t, Matches unescapeRe s x t → t.rest.length < s.rest.length := fun _ _ _ => iter_patterns_read (by simp)
  have hf := findsAll_iff (s := s) escapePattern_text hp hr
  have he : unescape s = (((unescapeRe.iterAux (s.length + 1) true s).1.map (fun m => (m.1, m.2.caps))).flatMap fun m => m.1 ++ ((m.2.lookup 1).getD []).map escapeFor) ++
      (unescapeRe.iterAux (s.length + 1) true s).2 := by
    rw [unescape, Re.replaceAll, List.flatMap_map]
    simp only [List.flatMap_def]
    congr 2
    apply List.map_congr_left
    intro m hm
    obtain ⟨b, s', x, hx⟩ := iter_each (by simp) s m hm
    rw [unescapeGroup_match hx]
  rw [he]
  constructor
  · rintro rfl
    exact ⟨_, _, (hf _ _).mpr ⟨rfl, rfl⟩, rfl⟩
  · rintro ⟨ms, tail, h1, rfl⟩
    obtain ⟨rfl, rfl⟩ := (hf _ _).mp h1
    rfl

/-- **C79** `PoParser::parse_line` reads every text as the leftmost-first matches of the patterns say. -/
theorem C79_line (line : Str) (n : Nat) (x : Option PoLine) : parseLine line n = x ↔ LineByPattern line n x := by
  have hq := quotedPattern_text
  have hqp := patterns_proper messageRe (by simp)
  have hc := hashPattern_text
  have hcp := patterns_proper commentRe (by simp)
  have hw : (line.any fun c => !isWhite c) = false ↔ White line := by simp [White]
  have hex : LineByPattern line n (parseLine line n) := by
    rw [parseLine]
    split
    · rename_i h; exact .blank (hw.mp (by simpa using h))
    · rename_i h
      have hnw : ¬ White line := fun h' => h (by rw [hw.mpr h']; rfl)
      cases hm : messageRe.captures line with
      | some t =>
        obtain ⟨raw, h3⟩ := captures_sure hqp hm (i := 3) (by decide)
        have hf := (finds_iff hq hqp _).mpr ⟨t, hm, rfl⟩
        simp only [St.get, h3, Option.getD_some]
        cases h2 : t.caps.lookup 2 with
        | none => exact .continuation hnw hf h2 h3 ((C79_unescape _ _).mp rfl)
        | some k => exact .keyword hnw hf h2 h3 ((C79_unescape _ _).mp rfl)
      | none =>
        have hn := (not_finds hq hqp).mpr hm
        cases hm' : commentRe.captures line with
        | none => exact .unrecognised hnw hn ((not_finds hc hcp).mpr hm')
        | some t =>
          obtain ⟨text, h2⟩ := captures_sure hcp hm' (i := 2) (by decide)
          have := LineByPattern.comment (n := n) hnw hn ((finds_iff hc hcp _).mpr ⟨t, hm', rfl⟩) h2
          simp only [St.get, h2, Option.getD_some]
          cases h1 : t.caps.lookup 1 with
          | none => rw [h1] at this; exact this
          | some w => rw [h1] at this; cases w <;> exact this
  have huq : ∀ {a b : Option PoLine}, LineByPattern line n a → LineByPattern line n b → a = b := by
    have one : ∀ {g g'}, Finds quotedPattern line g → Finds quotedPattern line g' → g = g' := by
      intro g g' h h'
      obtain ⟨t, h1, rfl⟩ := (finds_iff hq hqp _).mp h
      obtain ⟨t', h2, rfl⟩ := (finds_iff hq hqp _).mp h'
      rw [h1] at h2; cases h2; rfl
    have two : ∀ {g g'}, Finds hashPattern line g → Finds hashPattern line g' → g = g' := by
      intro g g' h h'
      obtain ⟨t, h1, rfl⟩ := (finds_iff hc hcp _).mp h
      obtain ⟨t', h2, rfl⟩ := (finds_iff hc hcp _).mp h'
      rw [h1] at h2; cases h2; rfl
    have un : ∀ {s a b}, Unescapes s a → Unescapes s b → a = b := fun h h' => ((C79_unescape _ _).mpr h).symm.trans ((C79_unescape _ _).mpr h')
    intro a b h h'
    cases h with
    | blank h =>
      cases h' with
      | blank => rfl
      | keyword h' | continuation h' | comment h' | unrecognised h' => exact absurd h h'
    | keyword h h1 h2 h3 h4 =>
      cases h' with
      | blank h' => exact absurd h' h
      | keyword _ k1 k2 k3 k4 => cases one h1 k1; cases h2.symm.trans k2; cases h3.symm.trans k3; rw [un h4 k4]
      | continuation _ k1 k2 => cases one h1 k1; cases h2.symm.trans k2
      | comment _ k => exact absurd h1 (k _)
      | unrecognised _ k => exact absurd h1 (k _)
    | continuation h h1 h2 h3 h4 =>
      cases h' with
      | blank h' => exact absurd h' h
      | keyword _ k1 k2 => cases one h1 k1; cases h2.symm.trans k2
      | continuation _ k1 k2 k3 k4 => cases one h1 k1; cases h3.symm.trans k3; rw [un h4 k4]
      | comment _ k => exact absurd h1 (k _)
      | unrecognised _ k => exact absurd h1 (k _)
    | comment h h1 h2 h3 =>
      cases h' with
      | blank h' => exact absurd h' h
      | keyword _ k => exact absurd k (h1 _)
      | continuation _ k => exact absurd k (h1 _)
      | comment _ _ k2 k3 => cases two h2 k2; cases h3.symm.trans k3; rfl
      | unrecognised _ _ k => exact absurd h2 (k _)
    | unrecognised h h1 h2 =>
      cases h' with
      | blank h' => exact absurd h' h
      | keyword _ k => exact absurd k (h1 _)
      | continuation _ k => exact absurd k (h1 _)
      | comment _ _ k => exact absurd k (h2 _)
      | unrecognised => rfl
  constructor
  · rintro rfl; exact hex
  · intro h; exact huq hex h

/-- **C79** For the lines of a stream, the patterns say the same as the line grammar. -/
theorem C79_grammar (line : Str) (n : Nat) (hl : '\n' ∉ line) (x : Option PoLine) : LineByPattern line n x ↔ Classified line n x := by
  rw [← C79_line, C06_line_classification line n hl]

theorem pairs_eq {ms : List (Option Str × Option Str)} {ps : List (Str × Str)} (h : ms = ps.map fun p => (some p.1, some p.2)) :
    (ms.filterMap fun c => c.1.bind fun v1 => c.2.map fun v2 => (v1, v2)) = ps := by
  subst h
  induction ps with
  | nil => rfl
  | cons p ps ih => simp only [List.map_cons, List.filterMap_cons, Option.bind_some, Option.map_some, ih]

theorem pairs_all {ms : List (Option Str × Option Str)} (h : ∀ m ∈ ms, (∃ a, m.1 = some a) ∧ ∃ b, m.2 = some b) :
    ms = (ms.filterMap fun c => c.1.bind fun v1 => c.2.map fun v2 => (v1, v2)).map fun p => (some p.1, some p.2) := by
  induction ms with
  | nil => rfl
  | cons m ms ih =>
    obtain ⟨⟨a, h1⟩, b, h2⟩ := h m (by simp)
    have := ih fun m hm => h m (by simp [hm])
    obtain ⟨x, y⟩ := m
    simp only at h1 h2
    subst h1 h2
    simp only [List.filterMap_cons, Option.bind_some, Option.map_some, List.map_cons, ← this]

/-- **C79** For value lists the patterns say the same as the grammar of lists, for every text. -/
theorem C79_list (s : Str) : (PairsByPattern s none ↔ ¬ IsList s) ∧ ∀ ps, PairsByPattern s (some ps) ↔ IsList s ∧ PairsOf s ps := by
  have hl := listPattern_text
  have hlp := patterns_proper mapCheckRe (by simp)
  have hm := pairPattern_text
  have hmp := patterns_proper mapRe (by simp)
  have hr : ∀ s x t, Matches mapRe s x t → t.rest.length < s.rest.length := fun _ _ _ => iter_patterns_read (by simp)
  have hf := findsAll_iff (s := s) hm hmp hr
  have hlist : IsList s ↔ ∃ t, mapCheckRe.captures s = some t := by
    rw [← check_iff, Re.isMatch, Option.isSome_iff_exists, Re.captures]
    constructor
    · rintro ⟨q, hq⟩; exact ⟨q.2, by rw [hq]; rfl⟩
    · rintro ⟨t, ht⟩
      cases hq : mapCheckRe.find true s with
      | none => rw [hq] at ht; cases ht
      | some q => exact ⟨q, rfl⟩
  have hnone : (∀ g, ¬ Finds listPattern s g) ↔ ¬ IsList s := by
    rw [not_finds hl hlp, hlist]
    cases mapCheckRe.captures s <;> simp
  have hpairs := iter_pairs (s.length + 1) true s (by omega)
  have hall : ∀ m ∈ ((mapRe.iterAux (s.length + 1) true s).1.map (fun m => (m.1, m.2.caps))).map (fun m => (m.2.lookup 1, m.2.lookup 2)),
      (∃ a, m.1 = some a) ∧ ∃ b, m.2 = some b := by
    intro m hm
    obtain ⟨m', hm', rfl⟩ := List.mem_map.mp hm
    obtain ⟨m, hm2, rfl⟩ := List.mem_map.mp hm'
    obtain ⟨b, s', x, hx⟩ := iter_each (re := mapRe) (by simp) s m hm2
    exact ⟨Option.isSome_iff_exists.mp (groups_sure hx (by decide)), Option.isSome_iff_exists.mp (groups_sure hx (by decide))⟩
  have he := pairs_all hall
  have hsame : ((((mapRe.iterAux (s.length + 1) true s).1.map (fun m => (m.1, m.2.caps))).map (fun m => (m.2.lookup 1, m.2.lookup 2))).filterMap
      fun c => c.1.bind fun v1 => c.2.map fun v2 => (v1, v2)) =
      ((mapRe.iterAux (s.length + 1) true s).1.map Prod.snd).filterMap fun c => (c.get 1).bind fun v1 => (c.get 2).map fun v2 => (v1, v2) := by
    simp only [List.filterMap_map, List.map_map]
    rfl
  rw [hsame] at he
  refine ⟨⟨?_, fun h => .refused (hnone.mpr h)⟩, fun ps => ⟨?_, ?_⟩⟩
  · intro h; cases h with | refused h => exact hnone.mp h
  · intro h
    cases h with
    | pairs h1 h2 h3 =>
      refine ⟨Classical.not_not.mp fun h => hnone.mpr h _ h1, ?_⟩
      obtain ⟨rfl, _⟩ := (hf _ _).mp h2
      rw [← pairs_eq h3, hsame]
      exact hpairs
  · rintro ⟨h1, h2⟩
    obtain ⟨t, ht⟩ := hlist.mp h1
    cases pairsOf_unique h2 hpairs
    exact .pairs ((finds_iff hl hlp _).mpr ⟨t, ht, rfl⟩) ((hf _ _).mpr ⟨rfl, rfl⟩) he

/-- **C79** `PoParser::parse_map` gives what the patterns say, the last pair of a key winning, and refuses what they do not match. -/
theorem C79_map (s : Str) :
    (∃ m ps, PairsByPattern s (some ps) ∧ parseMap s = .ok m ∧ (m.map Prod.fst).Nodup ∧ ∀ k, m.lookup k = lastValue k ps) ∨
    (PairsByPattern s none ∧ parseMap s = .error (.unexpected 0 (c!"Bad value list definition: `" ++ s ++ c!"`"))) := by
  rcases C25_exact s with ⟨h, m, ps, h1, h2, h3, h4⟩ | ⟨h, h1⟩
  · exact .inl ⟨m, ps, ((C79_list s).2 ps).mpr ⟨h, h3⟩, h1, h2, h4⟩
  · exact .inr ⟨(C79_list s).1.mpr h, h1⟩

-- a line with a marker, a keyword and an escape
example : LineByPattern (c!"#~| msgid \"a\\tb\"") 7 (some (.message 7 (c!"~|") (c!"|msgid") (c!"a\tb"))) := (C79_line _ _ _).mp rfl

-- the patterns do not match over a line feed
example : LineByPattern (c!"# \"a\nb\"") 7 none := (C79_line _ _ _).mp rfl

-- a value list, a text that is none
example : PairsByPattern (c!"a=1; foo bar=2;") (some [(c!"a", c!"1"), (c!"bar", c!"2")]) := by
  have hl : IsList (c!"a=1; foo bar=2;") := (check_iff _).mp (by decide)
  exact ((C79_list _).2 _).mpr ⟨hl, by have := iter_pairs 16 true (c!"a=1; foo bar=2;") (by decide); exact this⟩
example : PairsByPattern (c!"a=1") none := by
  rcases C79_map (c!"a=1") with ⟨m, _, _, h, _⟩ | h
  · exact absurd h (by rw [show parseMap (c!"a=1") = .error (.unexpected 0 (c!"Bad value list definition: `a=1`")) from rfl]; simp)
  · exact h.1

-- a text that is no pattern, and one with another meaning
example : ∀ r, ¬ PatternText (c!"a(b") r := fun r h => by have := pattern_parse h; rw [show Re.ofPattern (c!"a(b") = none by decide] at this; cases this
example : PatternText (c!"a|b*?") (.alt (reChr 'a') (.star false (reChr 'b'))) :=
  ⟨1, .more (s := ['a']) (.one (part_chr 'a' (by decide))) (.one (.one (.starLazy (s := ['b']) (.lit (by decide)))))⟩

end Verif
