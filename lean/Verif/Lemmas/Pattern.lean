import Verif.Spec.Pattern
import Verif.Lemmas.RegexMeaning
import Verif.Model.Parser

/-! The reader of pattern texts finds the meaning of every pattern text, so a pattern text has at most one meaning. -/

namespace Verif
open Spec

/-- The next character cannot be read as a repetition. -/
def NoQuant (s : Str) : Prop := ∀ c ∈ s.head?, c ∉ c!"*+?"

theorem not_mem_of_metas {c : Char} (h : c ∉ metas) : c ∉ c!"*+?)|" ∧ c ≠ '^' ∧ c ≠ '$' ∧ c ≠ '.' ∧ c ≠ '\\' ∧ c ≠ '[' ∧ c ≠ '(' := by
  simp only [metas, List.mem_cons, List.not_mem_nil, not_or, or_false] at h ⊢
  simp_all

theorem atom_head {n n' : Nat} {s : Str} {r : Re} (h : AtomText n s r n') : ∃ c t, s = c :: t ∧ c ∉ c!"*+?)|" := by
  cases h with
  | lit hc => exact ⟨_, _, rfl, (not_mem_of_metas hc).1⟩
  | _ => exact ⟨_, _, rfl, by decide⟩

theorem part_head {n n' : Nat} {s : Str} {r : Re} (h : PartText n s r n') : ∃ c t, s = c :: t ∧ c ∉ c!"*+?)|" := by
  cases h with
  | once h => exact atom_head h
  | star h | starLazy h | plus h | plusLazy h | opt h | optLazy h =>
    obtain ⟨c, t, rfl, hc⟩ := atom_head h
    exact ⟨c, _, List.cons_append, hc⟩

theorem cat_head {n n' : Nat} {c : Char} {s : Str} {r : Re} (h : CatText n (c :: s) r n') : c ∉ c!"*+?)|" := by
  generalize hs : c :: s = s' at h
  cases h with
  | nil => cases hs
  | one h => obtain ⟨_, _, rfl, hc⟩ := part_head h; cases hs; exact hc
  | cons h _ _ => obtain ⟨_, _, rfl, hc⟩ := part_head h; cases hs; exact hc

theorem choice_head {n n' : Nat} {c : Char} {s : Str} {r : Re} (h : ChoiceText n (c :: s) r n') : c ≠ '?' := by
  generalize hs : c :: s = s' at h
  cases h with
  | one h => subst hs; rintro rfl; exact cat_head h (by decide)
  | more h _ =>
    rename_i u _ _ _ _ _
    cases u with
    | nil => cases hs; decide
    | cons d u => cases hs; rintro rfl; exact cat_head h (by decide)

theorem part_ne_eps {n n' : Nat} {s : Str} {r : Re} (h : PartText n s r n') : r ≠ .eps := by
  cases h with
  | once h => cases h <;> first | assumption | simp
  | _ => simp

theorem cat_ne_eps {n n' : Nat} {s : Str} {r : Re} (hs : s ≠ []) (h : CatText n s r n') : r ≠ .eps := by
  cases h with
  | nil => exact absurd rfl hs
  | one h => exact part_ne_eps h
  | cons => simp

theorem seq'_eq {a b : Re} (ha : a ≠ .eps) (hb : b ≠ .eps) : Re.seq' a b = .seq a b := by
  unfold Re.seq'
  split
  · exact absurd rfl ha
  · exact absurd rfl hb
  · rfl

theorem seq'_eps {a : Re} (ha : a ≠ .eps) : Re.seq' a .eps = a := by
  unfold Re.seq'
  split
  · exact absurd rfl ha
  · rfl
  · rename_i h; exact absurd rfl h

theorem set_parse {s : Str} {rs : List (Char × Char)} (h : SetText s rs) (acc : List (Char × Char)) (rest : Str) :
    parseSet (s ++ ']' :: rest) acc = some (acc.reverse ++ rs, rest) := by
  induction h generalizing acc with
  | nil => simp [parseSet]
  | escaped _ _ ih => simp only [List.cons_append, parseSet]; rw [ih]; simp
  | range ha hb _ ih =>
    rename_i a b _ _ _
    have : a ≠ ']' ∧ a ≠ '\\' := by constructor <;> (rintro rfl; exact ha (by decide))
    rw [List.cons_append, List.cons_append, List.cons_append, parseSet.eq_3 _ _ _ _ (by simpa using this.1) (by simpa using this.2), ih]; simp
  | one ha h ih =>
    rename_i a s _
    have : a ≠ ']' ∧ a ≠ '\\' := by constructor <;> (rintro rfl; exact ha (by decide))
    have hm : ∀ b t, s ++ ']' :: rest ≠ '-' :: b :: t := by
      intro b t e
      cases h with
      | nil => cases e
      | escaped => cases e
      | range ha => obtain rfl := (List.cons.inj e).1; exact ha (by decide)
      | one ha => obtain rfl := (List.cons.inj e).1; exact ha (by decide)
    rw [List.cons_append, parseSet.eq_4 _ _ _ (by simpa using this.1) (by intro c t; simp [this.2]) (by intro b t; exact hm b t), ih]; simp

/-- After a concatenation. -/
def CatEnd (s : Str) : Prop := ∀ c ∈ s.head?, c = ')' ∨ c = '|'

/-- After alternatives. -/
def ChoiceEnd (s : Str) : Prop := ∀ c ∈ s.head?, c = ')'

theorem catEnd_quant {s : Str} (h : CatEnd s) : NoQuant s := by
  intro c hc
  rcases h c hc with rfl | rfl <;> decide

theorem parseCat_end {s : Str} (h : CatEnd s) (k n : Nat) : parseCat (k + 1) n s = some (.eps, n, s) := by
  cases s with
  | nil => simp [parseCat]
  | cons c s => rcases h c rfl with rfl | rfl <;> simp [parseCat]

theorem parseCat_step {c : Char} {s : Str} (hc : c ∉ c!"*+?)|") (k n : Nat) : parseCat (k + 1) n (c :: s) =
    (parseAtom k n (c :: s)).bind fun x => (parseCat k x.2.1 (parseQuant x.1 x.2.2).2).bind fun y => some (.seq' (parseQuant x.1 x.2.2).1 y.1, y.2.1, y.2.2) := by
  have h1 : c ≠ ')' := by rintro rfl; exact hc (by decide)
  have h2 : c ≠ '|' := by rintro rfl; exact hc (by decide)
  rw [parseCat]
  · rfl
  · simp
  · exact fun _ h => absurd (List.cons.inj h).1 h1
  · exact fun _ h => absurd (List.cons.inj h).1 h2

theorem parseQuant_none {r : Re} {s : Str} (h : NoQuant s) : parseQuant r s = (r, s) := by
  cases s with
  | nil => rfl
  | cons c s =>
    have h := h c rfl
    unfold parseQuant
    split <;> first | rfl | (rename_i e; obtain rfl := (List.cons.inj e).1; exact absurd h (by decide))

mutual
theorem atom_parse {n n' : Nat} {s : Str} {r : Re} : AtomText n s r n' → ∀ k, 3 * s.length ≤ k → ∀ rest, parseAtom k n (s ++ rest) = some (r, n', rest)
  | .start, k + 1, _, rest => by simp [parseAtom]
  | .stop, k + 1, _, rest => by simp [parseAtom]
  | .any, k + 1, _, rest => by simp [parseAtom]
  | .space, k + 1, _, rest => by simp [parseAtom, Cls.ofEscape]
  | .nonSpace, k + 1, _, rest => by simp [parseAtom, Cls.ofEscape]
  | .digit, k + 1, _, rest => by simp [parseAtom, Cls.ofEscape]
  | .escaped (c := c) hc, k + 1, _, rest => by
    have h1 : c ≠ 's' := by rintro rfl; exact absurd hc (by decide)
    have h2 : c ≠ 'S' := by rintro rfl; exact absurd hc (by decide)
    have h3 : c ≠ 'd' := by rintro rfl; exact absurd hc (by decide)
    simp [parseAtom, Cls.ofEscape, h1, h2, h3]
  | .lit (c := c) hc, k + 1, _, rest => by
    obtain ⟨_, h1, h2, h3, h4, h5, h6⟩ := not_mem_of_metas hc
    rw [List.cons_append, List.nil_append, parseAtom.eq_9 _ _ _ _ (by simpa using h1) (by simpa using h2) (by simpa using h3) (by intro _ _; simp [h4]) (by simpa using h5)
      (by simp [h6]) (by simpa using h6)]
  | .set h, k + 1, _, rest => by
    simp only [List.cons_append, List.append_assoc, List.nil_append, parseAtom, Option.bind_eq_bind, set_parse h]
    simp
  | .group (s := s) h _, k + 1, hk, rest => by
    have := choice_parse h k (by simp at hk; omega) (')' :: rest) (by simp [ChoiceEnd])
    simp [parseAtom, this]
  | .capture (s := s) h, k + 1, hk, rest => by
    have hp := choice_parse h k (by simp at hk; omega) (')' :: rest) (by simp [ChoiceEnd])
    have hq : ∀ t, s ++ ')' :: rest ≠ '?' :: ':' :: t := by
      intro t e
      cases s with
      | nil => cases e
      | cons c s => obtain rfl := (List.cons.inj e).1; exact choice_head h rfl
    rw [List.cons_append, List.append_assoc, List.singleton_append, parseAtom.eq_8 _ _ _ (by intro t e; exact hq t e), hp]
    simp
theorem part_parse {n n' : Nat} {s : Str} {r : Re} : PartText n s r n' → ∀ k, 3 * s.length ≤ k → ∀ rest, NoQuant rest →
    ∃ a q, parseAtom k n (s ++ rest) = some (a, n', q) ∧ parseQuant a q = (r, rest)
  | .once h, k, hk, rest, hr => ⟨r, rest, atom_parse h k hk rest, parseQuant_none hr⟩
  | .star h, k, hk, rest, hr => by
    refine ⟨_, '*' :: rest, by rw [List.append_assoc]; exact atom_parse h k (by simp at hk; omega) _, ?_⟩
    cases rest with
    | nil => rfl
    | cons c s =>
      have : c ≠ '?' := by rintro rfl; exact hr '?' rfl (by decide)
      rw [parseQuant.eq_2 _ _ (by simpa using this)]
  | .starLazy h, k, hk, rest, hr => ⟨_, '*' :: '?' :: rest, by rw [List.append_assoc]; exact atom_parse h k (by simp at hk; omega) _, rfl⟩
  | .plus h, k, hk, rest, hr => by
    refine ⟨_, '+' :: rest, by rw [List.append_assoc]; exact atom_parse h k (by simp at hk; omega) _, ?_⟩
    cases rest with
    | nil => rfl
    | cons c s =>
      have : c ≠ '?' := by rintro rfl; exact hr '?' rfl (by decide)
      rw [parseQuant.eq_4 _ _ (by simpa using this)]; rfl
  | .plusLazy h, k, hk, rest, hr => ⟨_, '+' :: '?' :: rest, by rw [List.append_assoc]; exact atom_parse h k (by simp at hk; omega) _, rfl⟩
  | .opt h, k, hk, rest, hr => by
    refine ⟨_, '?' :: rest, by rw [List.append_assoc]; exact atom_parse h k (by simp at hk; omega) _, ?_⟩
    cases rest with
    | nil => rfl
    | cons c s =>
      have : c ≠ '?' := by rintro rfl; exact hr '?' rfl (by decide)
      rw [parseQuant.eq_6 _ _ (by simpa using this)]; rfl
  | .optLazy h, k, hk, rest, hr => ⟨_, '?' :: '?' :: rest, by rw [List.append_assoc]; exact atom_parse h k (by simp at hk; omega) _, rfl⟩
theorem cat_parse {n n' : Nat} {s : Str} {r : Re} : CatText n s r n' → ∀ k, 3 * s.length + 1 ≤ k → ∀ rest, CatEnd rest → parseCat k n (s ++ rest) = some (r, n', rest)
  | .nil, k + 1, _, rest, hr => parseCat_end hr k n
  | .one h, k + 1, hk, rest, hr => by
    obtain ⟨a, q, h1, h2⟩ := part_parse h k (by omega) rest (catEnd_quant hr)
    obtain ⟨c, t, rfl, hc⟩ := part_head h
    obtain ⟨k, rfl⟩ : ∃ j, k = j + 1 := ⟨k - 1, by simp at hk; omega⟩
    rw [List.cons_append] at h1 ⊢
    rw [parseCat_step hc, h1]
    simp only [Option.bind_some, h2, parseCat_end hr, seq'_eps (part_ne_eps h)]
  | .cons (s := s) (s' := s') h h' hne, k + 1, hk, rest, hr => by
    have hq : NoQuant (s' ++ rest) := by
      cases s' with
      | nil => exact absurd rfl hne
      | cons d u =>
        intro x hx
        cases hx
        have := cat_head h'
        simp only [List.mem_cons, List.not_mem_nil, not_or, or_false] at this ⊢
        exact ⟨this.1, this.2.1, this.2.2.1⟩
    have hl : 0 < s.length := by obtain ⟨c, t, rfl, hc⟩ := part_head h; simp
    simp only [List.length_append] at hk
    obtain ⟨a, q, h1, h2⟩ := part_parse h k (by omega) (s' ++ rest) hq
    have h3 := cat_parse h' k (by omega) rest hr
    obtain ⟨c, t, rfl, hc⟩ := part_head h
    rw [List.append_assoc, List.cons_append] at *
    rw [parseCat_step hc, h1]
    simp only [Option.bind_some, h2, h3, seq'_eq (part_ne_eps h) (cat_ne_eps hne h')]
theorem choice_parse {n n' : Nat} {s : Str} {r : Re} : ChoiceText n s r n' → ∀ k, 3 * s.length + 2 ≤ k → ∀ rest, ChoiceEnd rest →
    parseAlt k n (s ++ rest) = some (r, n', rest)
  | .one h, k + 1, hk, rest, hr => by
    have h1 := cat_parse h k (by omega) rest (fun c hc => .inl (hr c hc))
    rw [parseAlt, h1]
    cases rest with
    | nil => rfl
    | cons c t => obtain rfl := hr c rfl; rfl
  | .more (s' := s') h h', k + 1, hk, rest, hr => by
    simp only [List.length_append, List.length_cons] at hk
    have h1 := cat_parse h k (by omega) ('|' :: (s' ++ rest)) (by simp [CatEnd])
    have h2 := choice_parse h' k (by omega) rest hr
    rw [List.append_assoc, List.cons_append, parseAlt, h1]
    simp [h2]
end

/-- A pattern text is read with its meaning. -/
theorem pattern_parse {s : Str} {r : Re} (h : PatternText s r) : Re.ofPattern s = some r := by
  obtain ⟨n, h⟩ := h
  have := choice_parse h (3 * s.length + 3) (by omega) [] (by simp [ChoiceEnd])
  rw [List.append_nil] at this
  rw [Re.ofPattern, this]

theorem pattern_unique {s : Str} {r r' : Re} (h : PatternText s r) (h' : PatternText s r') : r = r' :=
  Option.some.inj ((pattern_parse h).symm.trans (pattern_parse h'))

/-! ### The patterns of the crate -/

theorem cat_lits {s : Str} (hs : ∀ c ∈ s, c ∉ metas) {n n' : Nat} {s' : Str} {r : Re} (h : CatText n s' r n') (hne : s' ≠ []) : CatText n (s ++ s') (reLitSeq s r) n' := by
  induction s with
  | nil => exact h
  | cons c s ih =>
    exact .cons (s := [c]) (.once (.lit (hs c (by simp)))) (ih fun d hd => hs d (by simp [hd])) (by simp [hne])

theorem cat_lit {s : Str} (hs : ∀ c ∈ s, c ∉ metas) {n : Nat} : CatText n s (reLit s) n := by
  induction s with
  | nil => exact .nil
  | cons c s ih =>
    cases s with
    | nil => exact .one (.once (.lit (hs c (by simp))))
    | cons d s =>
      exact .cons (s := [c]) (.once (.lit (hs c (by simp)))) (ih fun d hd => hs d (by simp [hd])) (by simp)

theorem cat_cons {n n' m : Nat} {s s' : Str} {r r' : Re} (h : PartText n s r m) (h' : CatText m s' r' n' ∧ s' ≠ []) : CatText n (s ++ s') (.seq r r') n' ∧ s ++ s' ≠ [] :=
  ⟨.cons h h'.1 h'.2, by simp [h'.2]⟩

theorem cat_one {n n' : Nat} {s : Str} {r : Re} (h : PartText n s r n') : CatText n s r n' ∧ s ≠ [] :=
  ⟨.one h, by obtain ⟨c, t, rfl, _⟩ := part_head h; simp⟩

theorem part_chr {n : Nat} (c : Char) (h : c ∉ metas) : PartText n [c] (reChr c) n := .once (.lit h)

theorem part_ws {n : Nat} : PartText n ['\\', 's', '*'] reWs n := .star .space

/-- A part in parentheses. -/
theorem part_capture {n n' : Nat} {s : Str} {r : Re} (h : PartText (n + 1) s r n') : PartText n ('(' :: (s ++ [')'])) (.cap n r) n' := .once (.capture (.one (.one h)))

theorem pairPattern_text : PatternText pairPattern mapRe := by
  have h := cat_cons (part_capture (n := 1) (.plusLazy .nonSpace)) <| cat_cons part_ws <| cat_cons (part_chr '=' (by decide)) <| cat_cons part_ws <|
    cat_cons (part_capture (.starLazy .any)) <| cat_cons part_ws <| cat_one (part_chr ';' (by decide))
  exact ⟨_, .one h.1⟩

theorem listPattern_text : PatternText listPattern mapCheckRe := by
  have h' := cat_cons (n := 2) (.plusLazy .nonSpace) <| cat_cons part_ws <| cat_cons (part_chr '=' (by decide)) <| cat_cons part_ws <|
    cat_cons (.starLazy .any) <| cat_cons part_ws <| cat_cons (part_chr ';' (by decide)) <| cat_one part_ws
  have h := cat_cons (.once .start) <| cat_cons part_ws <| cat_cons (n := 1) (.star (.capture (.one h'.1))) <| cat_one (.once .stop)
  exact ⟨_, .one h.1⟩

theorem hashPattern_text : PatternText hashPattern commentRe := by
  have h := cat_cons (.once .start) <| cat_cons part_ws <| cat_cons (part_chr '#' (by decide)) <| cat_cons (n := 1) (.opt (.capture (.one (.one (.once .any))))) <|
    cat_cons part_ws <| cat_cons (part_capture (.star .any)) <| cat_one (.once .stop)
  exact ⟨_, .one h.1⟩

theorem escapePattern_text : PatternText escapePattern unescapeRe := by
  have hs : SetText (c!"rtn\"\\\\") [('r', 'r'), ('t', 't'), ('n', 'n'), ('"', '"'), ('\\', '\\')] :=
    .one (by decide) <| .one (by decide) <| .one (by decide) <| .one (by decide) <| .escaped (by decide) .nil
  have h := cat_cons (n := 1) (.once (.escaped (c := '\\') (by decide))) <| cat_one (part_capture (.once (.set hs)))
  exact ⟨_, .one h.1⟩

theorem quotedPattern_text : PatternText quotedPattern messageRe := by
  have mark := cat_cons (n := 1) (part_chr '#' (by decide)) <| cat_one <| .once <| .capture <| .one
    (cat_cons (.opt (.lit (c := '~') (by decide))) (cat_one (.opt (.escaped (c := '|') (by decide))))).1
  have index : ChoiceText 3 (c!"0|[1-9]\\d*") reIndex 3 := .more (s := ['0']) (.one (part_chr '0' (by decide))) <|
    .one (cat_cons (.once (.set (.range (by decide) (by decide) .nil))) (cat_one (.star .digit))).1
  have bracket := cat_cons (n := 3) (.once (.escaped (c := '[') (by decide))) <| cat_cons (.once (.group index (by decide))) <| cat_one (.once (.escaped (c := ']') (by decide)))
  have msgstr := cat_lits (s := c!"msgstr") (by decide) (cat_one (.opt (.group (.one bracket.1) (by simp)))).1 (by simp)
  have tag : ChoiceText 3 _ reTag 3 := .more (cat_lit (s := c!"msgctxt") (by decide)) <| .more (cat_lit (s := c!"msgid") (by decide)) <|
    .more (cat_lit (s := c!"msgid_plural") (by decide)) <| .one msgstr
  have h := cat_cons (.once .start) <| cat_cons part_ws <| cat_cons (.opt (.group (.one mark.1) (by simp))) <| cat_cons part_ws <|
    cat_cons (.opt (.capture tag)) <| cat_cons part_ws <| cat_cons (part_chr '"' (by decide)) <| cat_cons (part_capture (.star .any)) <|
    cat_cons (part_chr '"' (by decide)) <| cat_cons part_ws <| cat_one (.once .stop)
  exact ⟨_, .one h.1⟩

end Verif
