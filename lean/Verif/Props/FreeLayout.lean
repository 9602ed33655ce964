import Verif.Spec.FreeLayout
import Verif.Lemmas.Write
import Verif.Props.CString
import Verif.Props.Errors

/-! C86: words of an entry in any arrangement on lines. -/

namespace Verif
open Spec

/-- A word of an entry. -/
def EntryWord (w : Word) : Prop := (∃ t, w = .str t) ∨ w = .kw (c!"msgid") ∨ w = .kw (c!"msgstr")

theorem entryWords_words (ss ts : List Str) : ∀ w ∈ entryWords ss ts, EntryWord w := by
  intro w hw
  simp only [entryWords, List.mem_cons, List.mem_append, List.mem_map] at hw
  rcases hw with rfl | ⟨t, _, rfl⟩ | rfl | ⟨t, _, rfl⟩
  · exact .inr (.inl rfl)
  · exact .inl ⟨t, rfl⟩
  · exact .inr (.inr rfl)
  · exact .inl ⟨t, rfl⟩

theorem word_nl {w : Word} (h : EntryWord w) : '\n' ∉ w.text := by
  rcases h with ⟨t, rfl⟩ | rfl | rfl
  · simp [Word.text, esc_nl]
  · decide
  · decide

theorem words_nl {l : List Word} (h : ∀ w ∈ l, EntryWord w) : '\n' ∉ wordsLine l := by
  cases l with
  | nil => simp [wordsLine]
  | cons w l =>
    simp only [wordsLine, List.mem_append, List.mem_flatMap, not_or, not_exists, not_and, List.mem_cons]
    exact ⟨word_nl (h w (by simp)), fun x hx => ⟨by decide, word_nl (h x (by simp [hx]))⟩⟩

theorem words_snoc (l : List Word) (w : Word) : ∃ x, wordsLine (l ++ [w]) = x ++ w.text := by
  cases l with
  | nil => exact ⟨[], by simp [wordsLine]⟩
  | cons v l =>
    refine ⟨wordsLine (v :: l) ++ [' '], ?_⟩
    simp [wordsLine]

theorem words_clean {l : List Word} (h : ∀ w ∈ l, EntryWord w) : CleanLine (wordsLine l) := by
  refine ⟨words_nl h, ?_⟩
  rcases List.eq_nil_or_concat l with rfl | ⟨l', w, rfl⟩
  · simp [wordsLine]
  · rw [List.concat_eq_append] at h ⊢
    obtain ⟨x, hx⟩ := words_snoc l' w
    rw [hx, List.getLast?_append]
    rcases h w (by simp) with ⟨t, rfl⟩ | rfl | rfl
    · simp [Word.text, List.getLast?_cons]
    · simp [Word.text]
    · simp [Word.text]

/-! ### A keyword at the end of a line -/

theorem words_head {w : Word} (h : EntryWord w) (l : List Word) : ∃ c s, wordsLine (w :: l) = c :: s ∧ isWhite c = false ∧ c ≠ '#' := by
  rcases h with ⟨t, rfl⟩ | rfl | rfl
  · exact ⟨_, _, rfl, by decide, by decide⟩
  · exact ⟨_, _, rfl, by decide, by decide⟩
  · exact ⟨_, _, rfl, by decide, by decide⟩

theorem keyword_end {k : Str} (hk : k = c!"msgid" ∨ k = c!"msgstr") {l : List Word} (h : ∀ w ∈ l, EntryWord w) (n : Nat) :
    parseLine (wordsLine (l ++ [.kw k])) n = none := by
  have he : ∀ w ∈ l ++ [.kw k], EntryWord w := by
    intro w hw
    rcases List.mem_append.mp hw with hw | hw
    · exact h w hw
    · rw [List.mem_singleton] at hw
      subst hw
      rcases hk with rfl | rfl
      · exact .inr (.inl rfl)
      · exact .inr (.inr rfl)
  obtain ⟨x, hx⟩ := words_snoc l (.kw k)
  have hlast : ∃ y z, wordsLine (l ++ [.kw k]) = y ++ [z] ∧ isWhite z = false ∧ z ≠ '"' := by
    rw [hx]
    rcases hk with rfl | rfl
    · exact ⟨x ++ c!"msgi", 'd', by simp [Word.text], by decide, by decide⟩
    · exact ⟨x ++ c!"msgst", 'r', by simp [Word.text], by decide, by decide⟩
  obtain ⟨y, z, hz, hz1, hz2⟩ := hlast
  have hhead : ∃ c s, wordsLine (l ++ [.kw k]) = c :: s ∧ isWhite c = false ∧ c ≠ '#' := by
    cases l with
    | nil => exact words_head (he _ (by simp)) []
    | cons w l => exact words_head (he w (by simp)) _
  obtain ⟨c, s, hs, hs1, hs2⟩ := hhead
  rw [C06_line_classification _ n (words_nl he)]
  refine .unrecognised ?_ ?_ ?_
  · intro hw
    rw [hs] at hw
    have := hw c (by simp)
    rw [hs1] at this; cases this
  · rintro m kw raw ⟨_, _, w1, w2, w3, w4, _, _, _, h4, heq⟩
    rw [hz] at heq
    have : (y ++ [z]).getLast? = some z := by simp
    rw [heq] at this
    simp only [← List.append_assoc, ← List.cons_append] at this
    rcases List.eq_nil_or_concat w4 with rfl | ⟨w4', v, rfl⟩
    · simp [List.getLast?_append, List.getLast?_cons] at this
      exact hz2 this.symm
    · simp [List.getLast?_append, List.getLast?_cons] at this
      subst this
      have := h4 v (by simp)
      rw [hz1] at this; cases this
  · intro w r hw heq
    rw [hs] at heq
    cases w with
    | nil => cases heq; exact hs2 rfl
    | cons a w =>
      cases heq
      have := hw c (by simp)
      rw [hs1] at this; cases this

theorem items_unread {ls : List Str} {s : Str} (hs : s ∈ ls) (h : ∀ n, parseLine s n = none) (n : Nat) : ∃ e, .error e ∈ items n (ls.map .ok) := by
  induction ls generalizing n with
  | nil => cases hs
  | cons a ls ih =>
    rw [List.map_cons, items]
    rcases List.mem_cons.mp hs with rfl | hs
    · rw [h]; exact ⟨_, List.mem_singleton.mpr rfl⟩
    · obtain ⟨e, he⟩ := ih hs (n + 1)
      split
      · exact ⟨_, List.mem_singleton.mpr rfl⟩
      · exact ⟨e, he⟩
      · exact ⟨e, List.mem_cons_of_mem _ he⟩

/-! ### Lines that end in a string -/

/-- A line that begins and ends with a string. -/
theorem words_quoted {t : Str} {l : List Word} (h : ∀ w ∈ l, EntryWord w) (he : ∀ k, (Word.str t :: l).getLast? ≠ some (.kw k)) :
    ∃ raw, wordsLine (.str t :: l) = '"' :: (raw ++ ['"']) ∧ '\n' ∉ raw := by
  have hn : '\n' ∉ wordsLine (.str t :: l) := words_nl fun w hw => by
    rcases List.mem_cons.mp hw with rfl | hw
    · exact .inl ⟨_, rfl⟩
    · exact h w hw
  rcases List.eq_nil_or_concat l with rfl | ⟨l', w, rfl⟩
  · exact ⟨esc t, by simp [wordsLine, Word.text], esc_nl t⟩
  · rw [List.concat_eq_append] at h he hn ⊢
    cases w with
    | kw k => exact absurd (by simp [List.getLast?_cons]) (he k)
    | str u =>
      have e : wordsLine (.str t :: (l' ++ [.str u])) =
          '"' :: ((esc t ++ '"' :: (l'.flatMap fun w => ' ' :: w.text) ++ ' ' :: '"' :: esc u) ++ ['"']) := by
        simp [wordsLine, Word.text]
      refine ⟨_, e, fun hm => hn ?_⟩
      rw [e]
      exact List.mem_cons_of_mem _ (List.mem_append_left _ hm)

/-- The text of a line of strings. -/
def stringsText : List Str → Str
  | [] => []
  | t :: r => t ++ r.flatMap fun x => c!"\" \"" ++ x

theorem unesc_esc_append (t r : Str) : unesc (esc t ++ r) = t ++ unesc r := by
  induction t with
  | nil => rfl
  | cons c t ih =>
    unfold esc
    split
    · rename_i h; simp [unesc, ih, h]
    · split
      · rename_i h; simp [unesc, ih, h]
      · split
        · rename_i h; simp [unesc, ih, h]
        · split
          · rename_i h; simp [unesc, ih, h]
          · split
            · rename_i h; simp [unesc, ih, h]
            · rename_i h _ _ _ _
              rw [List.append_assoc, List.singleton_append, unesc_char h, ih]; rfl

theorem strings_line (t : Str) (r : List Str) : ∃ raw, wordsLine ((t :: r).map .str) = '"' :: (raw ++ ['"']) ∧ '\n' ∉ raw ∧
    unesc raw = stringsText (t :: r) := by
  refine ⟨esc t ++ r.flatMap fun x => c!"\" \"" ++ esc x, ?_, ?_, ?_⟩
  · have key : ∀ r : List Str, '"' :: (r.map Word.str).flatMap (fun w => ' ' :: w.text) = (r.flatMap fun x => c!"\" \"" ++ esc x) ++ ['"'] := by
      intro r
      induction r with
      | nil => rfl
      | cons x r ih =>
        rw [List.flatMap_cons, List.append_assoc, ← ih]
        simp [Word.text]
    rw [List.append_assoc, ← key]
    simp [wordsLine, Word.text]
  · simp only [List.mem_append, List.mem_flatMap, not_or, not_exists, not_and]
    refine ⟨esc_nl t, fun x _ => ⟨by decide, esc_nl x⟩⟩
  · rw [unesc_esc_append, stringsText]
    congr 1
    induction r with
    | nil => rfl
    | cons x r ih =>
      simp only [List.flatMap_cons, List.append_assoc]
      rw [unesc_digits (by decide), unesc_esc_append, ih]

theorem quoted_cont {raw : Str} (h : '\n' ∉ raw) (n : Nat) : parseLine ('"' :: (raw ++ ['"'])) n = some (.continuation n [] (unesc raw)) := by
  have hq : QuotedLine ('"' :: (raw ++ ['"'])) none none raw :=
    ⟨fun m hm => (by cases hm), fun k hk => (by cases hk), [], [], [], [], (by decide), (by decide), (by decide), (by decide), rfl⟩
  rw [parseLine_quoted n (by simp [h]) hq]
  rfl

theorem quoted_kw {k raw : Str} (hk : IsKeyword k) (h : '\n' ∉ raw) (n : Nat) :
    parseLine (k ++ ' ' :: '"' :: (raw ++ ['"'])) n = some (.message n [] k (unesc raw)) := literalLine_read hk h n

/-! ### Lines of continuations -/

/-- Lines that begin and end with a string are continuation lines. -/
theorem cont_block {lines : List (List Word)} (hw : ∀ l ∈ lines, ∀ w ∈ l, EntryWord w) (hk : ∀ l ∈ lines, ∀ k, l.getLast? ≠ some (.kw k))
    (hs : ∀ l ∈ lines, ∃ t r, l = .str t :: r) (n : Nat) :
    ∃ cs : List (Nat × Str), BlockOf n (lines.map wordsLine) (cs.map fun c => .continuation c.1 [] c.2) := by
  induction lines generalizing n with
  | nil => exact ⟨[], .nil⟩
  | cons l lines ih =>
    obtain ⟨cs, hcs⟩ := ih (fun l hl => hw l (by simp [hl])) (fun l hl => hk l (by simp [hl])) (fun l hl => hs l (by simp [hl])) (n + 1)
    obtain ⟨t, r, rfl⟩ := hs l (by simp)
    obtain ⟨raw, h1, h2⟩ := words_quoted (fun w hw' => hw (.str t :: r) (by simp) w (by simp [hw'])) (hk (.str t :: r) (by simp))
    refine ⟨(n, unesc raw) :: cs, .cons ?_ (by simp) hcs⟩
    rw [h1, quoted_cont h2]

/-- Lines of strings, with their texts. -/
theorem strings_block {yss : List (List Str)} (h : ∀ ys ∈ yss, ys ≠ []) (n : Nat) :
    ∃ cs : List (Nat × Str), BlockOf n (yss.map fun ys => wordsLine (ys.map .str)) (cs.map fun c => .continuation c.1 [] c.2) ∧
      (cs.map Prod.snd).flatten = yss.flatMap stringsText := by
  induction yss generalizing n with
  | nil => exact ⟨[], .nil, rfl⟩
  | cons ys yss ih =>
    obtain ⟨cs, h1, h2⟩ := ih (fun l hl => h l (by simp [hl])) (n + 1)
    obtain ⟨t, r, rfl⟩ := List.exists_cons_of_ne_nil (h ys (by simp))
    obtain ⟨raw, g1, g2, g3⟩ := strings_line t r
    refine ⟨(n, stringsText (t :: r)) :: cs, .cons ?_ (by simp) h1, ?_⟩
    · show parseLine (wordsLine ((t :: r).map .str)) n = _
      rw [g1, quoted_cont g2, g3]
    · simp [h2]

/-- A keyword and lines of strings are a field. -/
theorem group_block {k : Str} (hk : IsKeyword k) {ys : List Str} (hy : ys ≠ []) {yss : List (List Str)} (h : ∀ ys ∈ yss, ys ≠ []) (n : Nat) :
    ∃ b, BlockOf n (((.kw k :: ys.map .str) :: yss.map (List.map .str)).map wordsLine) b ∧ Field k false b ((ys :: yss).flatMap stringsText) := by
  obtain ⟨cs, h1, h2⟩ := strings_block h (n + 1)
  obtain ⟨t, r, rfl⟩ := List.exists_cons_of_ne_nil hy
  obtain ⟨raw, g1, g2, g3⟩ := strings_line t r
  refine ⟨.message n [] k (stringsText (t :: r)) :: cs.map fun c => .continuation c.1 [] c.2, ?_, [], ⟨n, _, cs, rfl, ?_⟩, by simp [Tilde]⟩
  · rw [List.map_cons, List.map_map]
    refine .cons ?_ (by simp) h1
    have e : wordsLine (.kw k :: (t :: r).map .str) = k ++ ' ' :: '"' :: (raw ++ ['"']) := by
      rw [← g1]; simp [wordsLine, Word.text]
    rw [e, quoted_kw hk g2, g3]
  · rw [h2]; rfl

/-! ### Lengths -/

theorem stringsText_length (ys : List Str) : (stringsText ys).length = ys.flatten.length + 3 * (ys.length - 1) := by
  cases ys with
  | nil => rfl
  | cons t r =>
    have key : ∀ r : List Str, (r.flatMap fun x => c!"\" \"" ++ x).length = r.flatten.length + 3 * r.length := by
      intro r
      induction r with
      | nil => rfl
      | cons x r ih =>
        simp only [List.flatMap_cons, List.length_append, List.length_cons, List.length_nil, List.flatten_cons, ih]; omega
    simp only [stringsText, List.length_append, key, List.flatten_cons, List.length_cons, Nat.add_sub_cancel]; omega

theorem texts_length {yss : List (List Str)} (h : ∀ ys ∈ yss, ys ≠ []) :
    yss.flatten.flatten.length ≤ (yss.flatMap stringsText).length ∧
    (yss.flatMap stringsText = yss.flatten.flatten ↔ ∀ ys ∈ yss, ys.length = 1) ∧
    ((yss.flatMap stringsText).length = yss.flatten.flatten.length → ∀ ys ∈ yss, ys.length = 1) := by
  induction yss with
  | nil => simp
  | cons ys yss ih =>
    obtain ⟨i1, i2, i3⟩ := ih fun ys hy => h ys (by simp [hy])
    have hl := stringsText_length ys
    have hp := List.length_pos_iff.mpr (h ys (by simp))
    have h3 : ((ys :: yss).flatMap stringsText).length = (ys :: yss).flatten.flatten.length → ∀ ys' ∈ ys :: yss, ys'.length = 1 := by
      simp only [List.flatMap_cons, List.flatten_cons, List.flatten_append, List.length_append, List.forall_mem_cons]
      intro e
      exact ⟨by omega, i3 (by omega)⟩
    refine ⟨?_, ⟨fun e => h3 (congrArg List.length e), ?_⟩, h3⟩
    · simp only [List.flatMap_cons, List.flatten_cons, List.flatten_append, List.length_append]; omega
    · intro e
      rw [List.flatMap_cons, List.flatten_cons, List.flatten_append, i2.mpr fun ys hy => e ys (by simp [hy])]
      congr 1
      obtain ⟨t, rfl⟩ := List.length_eq_one_iff.mp (e ys (by simp))
      simp [stringsText]

/-! ### Splitting -/

/-- The line with a given word. -/
theorem split_lines {α : Type} {lines : List (List α)} {a b : List α} {x : α} (h : lines.flatten = a ++ x :: b) :
    ∃ l1 p q l2, lines = l1 ++ (p ++ x :: q) :: l2 ∧ a = l1.flatten ++ p ∧ b = q ++ l2.flatten := by
  induction lines generalizing a with
  | nil => simp at h
  | cons l lines ih =>
    rw [List.flatten_cons, List.append_eq_append_iff] at h
    rcases h with ⟨a', rfl, h⟩ | ⟨c, h0, h⟩
    · obtain ⟨l1, p, q, l2, rfl, rfl, rfl⟩ := ih h
      exact ⟨l :: l1, p, q, l2, rfl, by simp, rfl⟩
    · cases c with
      | nil =>
        obtain ⟨l1, p, q, l2, rfl, h1, rfl⟩ := ih (a := []) h.symm
        have h1' := h1.symm
        simp only [List.append_eq_nil_iff] at h1'
        refine ⟨l :: l1, p, q, l2, by simp, ?_, rfl⟩
        simp [h1'.1, h1'.2, h0]
      | cons y c =>
        rw [List.cons_append, List.cons.injEq] at h
        obtain ⟨rfl, rfl⟩ := h
        exact ⟨[], a, c, lines, by simp [h0], by simp, rfl⟩

/-- Lines of strings only. -/
theorem lines_strings {lines : List (List Word)} {xs : List Str} (hne : ∀ l ∈ lines, l ≠ []) (h : lines.flatten = xs.map .str) :
    ∃ yss : List (List Str), lines = yss.map (List.map .str) ∧ xs = yss.flatten ∧ ∀ ys ∈ yss, ys ≠ [] := by
  induction lines generalizing xs with
  | nil =>
    have : xs = [] := by simpa using h.symm
    exact ⟨[], rfl, this, by simp⟩
  | cons l lines ih =>
    rw [List.flatten_cons] at h
    obtain ⟨a, b, rfl, h1, h2⟩ := List.map_eq_append_iff.mp h.symm
    obtain ⟨yss, rfl, rfl, h3⟩ := ih (fun l hl => hne l (by simp [hl])) h2.symm
    refine ⟨a :: yss, by simp [h1], rfl, ?_⟩
    intro ys hy
    rcases List.mem_cons.mp hy with rfl | hy
    · rintro rfl
      exact hne l (by simp) h1.symm
    · exact h3 ys hy

/-- Lines of a keyword and strings. -/
theorem lines_group {lines : List (List Word)} {k : Str} {xs : List Str} (hne : ∀ l ∈ lines, l ≠ []) (hk : ∀ l ∈ lines, ∀ k, l.getLast? ≠ some (.kw k))
    (h : lines.flatten = .kw k :: xs.map .str) :
    ∃ (ys : List Str) (yss : List (List Str)), lines = (.kw k :: ys.map .str) :: yss.map (List.map .str) ∧ xs = (ys :: yss).flatten ∧
      ∀ zs ∈ ys :: yss, zs ≠ [] := by
  cases lines with
  | nil => simp at h
  | cons l lines =>
    cases l with
    | nil => exact absurd rfl (hne [] (by simp))
    | cons w l =>
      rw [List.flatten_cons, List.cons_append, List.cons.injEq] at h
      obtain ⟨rfl, h⟩ := h
      obtain ⟨a, b, rfl, rfl, h2⟩ := List.map_eq_append_iff.mp h.symm
      obtain ⟨yss, rfl, rfl, h3⟩ := lines_strings (fun l hl => hne l (by simp [hl])) h2.symm
      refine ⟨a, yss, rfl, rfl, ?_⟩
      intro zs hz
      rcases List.mem_cons.mp hz with rfl | hz
      · rintro rfl
        exact hk [.kw k] (by simp) k rfl
      · exact h3 zs hz

theorem oneString_group (k : Str) (ys : List Str) : OneString (.kw k :: ys.map .str) ↔ ys.length = 1 := by
  match ys with
  | [] => simp [OneString]
  | [y] => simp [OneString]
  | y :: z :: r => simp [OneString]

theorem oneString_strings (ys : List Str) : OneString (ys.map .str) ↔ ys.length = 1 := by
  match ys with
  | [] => simp [OneString]
  | [y] => simp [OneString]
  | y :: z :: r => simp [OneString]

/-! ### Units -/

theorem plain_entry {b b' : List PoLine} {id text : Str} (h : Field (c!"msgid") false b id) (h' : Field (c!"msgstr") false b' text) :
    Entry none (b ++ b') (plainUnit id text) := by
  refine ⟨[], [], [], [], [], b, [], b', none, none, id, none, by simp, .none, .none, .none, fun _ => rfl, .none, h, .none, .simple h', rfl, ?_, ?_⟩
  · exact ⟨rfl, rfl, rfl, rfl⟩
  · constructor
    · simp only [plainUnit, PoUnit.default, List.not_mem_nil, iff_false]
      split <;> simp
    · simp only [plainUnit, PoUnit.default, List.not_mem_nil, not_false_iff, true_and, HasText]
      by_cases ht : text = [] <;> simp [ht]

theorem plainUnit_inj {a b c d : Str} (h : plainUnit a b = plainUnit c d) : a = c ∧ b = d := by
  have hm := congrArg PoUnit.message h
  simp only [plainUnit, Message.simple.injEq] at hm
  refine ⟨hm.1, ?_⟩
  have h2 := hm.2
  by_cases hb : b = [] <;> by_cases hd : d = [] <;> simp [hb, hd] at h2
  · rw [hb, hd]
  · exact h2

theorem map_str_head {α : Type} {f : α → Word} (hf : ∀ a, ∃ t, f a = .str t) {xs : List α} {l m : List Word} (hl : l ≠ []) (h : l ++ m = xs.map f) : ∃ t r, l = .str t :: r := by
  cases l with
  | nil => exact absurd rfl hl
  | cons w l =>
    cases xs with
    | nil => cases h
    | cons a xs =>
      rw [List.cons_append, List.map_cons, List.cons.injEq] at h
      obtain ⟨t, ht⟩ := hf a
      exact ⟨t, l, by rw [h.1, ht]⟩

theorem strings_heads {lines : List (List Word)} (hne : ∀ l ∈ lines, l ≠ []) {xs : List Str} {m : List Word} (h : lines.flatten ++ m = xs.map .str) :
    ∀ l ∈ lines, ∃ t r, l = .str t :: r := by
  intro l hl
  cases l with
  | nil => exact absurd rfl (hne [] hl)
  | cons w r =>
    have : w ∈ xs.map Word.str := by rw [← h]; exact List.mem_append_left _ (List.mem_flatten.mpr ⟨_, hl, by simp⟩)
    obtain ⟨t, _, rfl⟩ := List.mem_map.mp this
    exact ⟨t, r, rfl⟩

/-- With `msgid` and lines of continuations only, there is no unit. -/
theorem only_ids (env : Env) {t : Str} {r : List Word} {rest : List (List Word)} (hw : ∀ l ∈ (.kw (c!"msgid") :: .str t :: r) :: rest, ∀ w ∈ l, EntryWord w)
    (hk : ∀ l ∈ (.kw (c!"msgid") :: .str t :: r) :: rest, ∀ k, l.getLast? ≠ some (.kw k)) (hs : ∀ l ∈ rest, ∃ t r, l = .str t :: r) :
    ∃ hdr, Yields (parse env (textStream (((.kw (c!"msgid") :: .str t :: r) :: rest).map wordsLine))) hdr (results [] none) := by
  have hclean : ∀ s ∈ ((.kw (c!"msgid") :: .str t :: r) :: rest).map wordsLine, CleanLine s := by
    intro s hs
    obtain ⟨l, h1, rfl⟩ := List.mem_map.mp hs
    exact words_clean (hw l h1)
  obtain ⟨cs, hcs⟩ := cont_block (fun l hl => hw l (by simp [hl])) (fun l hl => hk l (by simp [hl])) hs 2
  obtain ⟨raw, h1, h2⟩ := words_quoted (t := t) (l := r) (fun w hw' => hw (.kw (c!"msgid") :: .str t :: r) (by simp) w (by simp [hw'])) (fun k e =>
    hk (.kw (c!"msgid") :: .str t :: r) (by simp) k (by rw [List.getLast?_cons_cons]; exact e))
  have e : wordsLine (.kw (c!"msgid") :: .str t :: r) = c!"msgid" ++ ' ' :: '"' :: (raw ++ ['"']) := by
    rw [← h1]; simp [wordsLine, Word.text]
  have hb : BlockOf 1 (((.kw (c!"msgid") :: .str t :: r) :: rest).map wordsLine)
      (.message 1 [] (c!"msgid") (unesc raw) :: cs.map fun c => .continuation c.1 [] c.2) := by
    refine .cons ?_ (by simp) hcs
    rw [e, quoted_kw (.inr (.inl rfl)) h2]
  have hi := hb.items []
  rw [List.append_nil, items, List.append_nil, ← streamItems_text _ hclean] at hi
  have hr : Reads env (streamItems (textStream (((.kw (c!"msgid") :: .str t :: r) :: rest).map wordsLine))) (plainHeader env) none [] none := by
    rw [hi]
    refine .nothing (.cut (o := false) (idPl := none) ⟨[], _, [], _, by rw [List.nil_append, List.append_nil], ?_, ⟨[], ⟨1, _, cs, rfl, rfl⟩, by simp [Tilde]⟩, .none⟩)
    exact ⟨[], [], [], [], [], none, none, none, none, rfl, .none, .none, .none, fun _ => rfl, .none⟩
  obtain ⟨hdr, _, hy⟩ := reads_yields hr
  exact ⟨hdr, hy⟩

theorem inside_cut (env : Env) {ss ts : List Str} (hs : ss.flatten ≠ []) {l1 l2 : List (List Word)} {w : Word} {p q : List Word}
    (hne : ∀ l ∈ l1 ++ (w :: p ++ .kw (c!"msgstr") :: q) :: l2, l ≠ [])
    (hw : ∀ l ∈ l1 ++ (w :: p ++ .kw (c!"msgstr") :: q) :: l2, ∀ w ∈ l, EntryWord w)
    (hk : ∀ l ∈ l1 ++ (w :: p ++ .kw (c!"msgstr") :: q) :: l2, ∀ k, l.getLast? ≠ some (.kw k))
    (h1 : .kw (c!"msgid") :: ss.map .str = l1.flatten ++ w :: p) (h2 : ts.map .str = q ++ l2.flatten) :
    ∃ hdr, Yields (parse env (textStream ((l1 ++ (w :: p ++ .kw (c!"msgstr") :: q) :: l2).map wordsLine))) hdr (results [] none) := by
  have hl2 : ∀ l ∈ l2, ∃ t r, l = .str t :: r := by
    obtain ⟨a, b, _, _, h4⟩ := List.map_eq_append_iff.mp h2
    exact strings_heads (fun l hl => hne l (by simp [hl])) (m := []) (by rw [List.append_nil, h4])
  cases l1 with
  | nil =>
    rw [List.flatten_nil, List.nil_append, List.cons.injEq] at h1
    obtain ⟨rfl, rfl⟩ := h1
    cases ss with
    | nil => exact absurd rfl hs
    | cons t ss => exact only_ids env hw hk hl2
  | cons l0 l1 =>
    cases l0 with
    | nil => exact absurd rfl (hne [] (by simp))
    | cons v m =>
      rw [List.flatten_cons, List.cons_append, List.cons_append, List.cons.injEq] at h1
      obtain ⟨rfl, h1⟩ := h1
      have hm : m ≠ [] := by
        rintro rfl
        exact hk [.kw (c!"msgid")] (by simp) _ rfl
      obtain ⟨t, r, rfl⟩ := map_str_head (f := Word.str) (fun a => ⟨a, rfl⟩) hm (m := l1.flatten ++ w :: p) (by rw [h1, List.append_assoc])
      rw [List.append_assoc] at h1
      obtain ⟨a, b, _, _, h4⟩ := List.map_eq_append_iff.mp h1
      have hl1 := strings_heads (fun l hl => hne l (by simp [hl])) h4.symm
      have hl' : ∃ t r, w :: p ++ .kw (c!"msgstr") :: q = .str t :: r := by
        have : w ∈ b.map Word.str := by rw [h4]; simp
        obtain ⟨x, _, rfl⟩ := List.mem_map.mp this
        exact ⟨x, _, rfl⟩
      refine only_ids env hw hk ?_
      intro l hl
      rcases List.mem_append.mp hl with hl | hl
      · exact hl1 l hl
      · rcases List.mem_cons.mp hl with rfl | hl
        · exact hl'
        · exact hl2 l hl

/-- Lines of a keyword and strings. -/
def groupLines (k : Str) (yss : List (List Str)) : List (List Word) :=
  match yss with
  | [] => []
  | ys :: yss => (.kw k :: ys.map .str) :: yss.map (List.map .str)

/-- Both keywords begin lines. -/
theorem groups_read (env : Env) {ys zs : List Str} {yss zss : List (List Str)} (hy : ∀ x ∈ ys :: yss, x ≠ []) (hz : ∀ x ∈ zs :: zss, x ≠ [])
    (hid : (ys :: yss).flatMap stringsText ≠ [])
    (hclean : ∀ s ∈ (groupLines (c!"msgid") (ys :: yss) ++ groupLines (c!"msgstr") (zs :: zss)).map wordsLine, CleanLine s) :
    ∃ hdr, Yields (parse env (textStream ((groupLines (c!"msgid") (ys :: yss) ++ groupLines (c!"msgstr") (zs :: zss)).map wordsLine))) hdr
      (results [plainUnit ((ys :: yss).flatMap stringsText) ((zs :: zss).flatMap stringsText)] none) := by
  obtain ⟨b, b1, b2⟩ := group_block (k := c!"msgid") (.inr (.inl rfl)) (hy ys (List.mem_cons_self ..)) (fun x hx => hy x (List.mem_cons_of_mem _ hx)) 1
  obtain ⟨b', b3, b4⟩ := group_block (k := c!"msgstr") (.inr (.inr (.inr (.inl rfl)))) (hz zs (List.mem_cons_self ..)) (fun x hx => hz x (List.mem_cons_of_mem _ hx))
    (1 + ((groupLines (c!"msgid") (ys :: yss)).map wordsLine).length)
  have hb := (b1.append b3).items []
  rw [List.append_nil, items, List.append_nil, ← List.map_append] at hb
  have hb' : streamItems (textStream ((groupLines (c!"msgid") (ys :: yss) ++ groupLines (c!"msgstr") (zs :: zss)).map wordsLine)) = (b ++ b').map .ok := by
    rw [streamItems_text _ hclean]; exact hb
  have hr : Reads env (streamItems (textStream ((groupLines (c!"msgid") (ys :: yss) ++ groupLines (c!"msgstr") (zs :: zss)).map wordsLine))) (plainHeader env) none
      [plainUnit ((ys :: yss).flatMap stringsText) ((zs :: zss).flatMap stringsText)] none := by
    rw [hb', ← List.append_nil ((b ++ b').map _)]
    refine .plain (.unit (plain_entry b2 b4) hid (.inl rfl)) (.stop (.endsInHead (o := false) (block := []) ?_))
    exact ⟨[], [], [], [], [], none, none, none, none, rfl, .none, .none, .none, fun _ => rfl, .none⟩
  obtain ⟨hdr, _, hy⟩ := reads_yields hr
  exact ⟨hdr, hy⟩

theorem groups_one {ys zs : List Str} {yss zss : List (List Str)} :
    (∀ l ∈ groupLines (c!"msgid") (ys :: yss) ++ groupLines (c!"msgstr") (zs :: zss), OneString l) ↔
      (∀ x ∈ ys :: yss, x.length = 1) ∧ ∀ x ∈ zs :: zss, x.length = 1 := by
  simp only [groupLines, List.forall_mem_append, List.forall_mem_cons, List.forall_mem_map, oneString_group, oneString_strings]

/-- **C86** The words of an entry in any arrangement on lines.  GNU gettext, to which line ends are white space, reads the same entry from all of them.  The
reader gives that entry exactly for the arrangements with one string on every line, at its end. -/
theorem C86_layout (env : Env) {ss ts : List Str} (hs : ss.flatten ≠ []) {lines : List (List Word)} (hne : ∀ l ∈ lines, l ≠ [])
    (hl : lines.flatten = entryWords ss ts) :
    (∃ hdr, Yields (parse env (textStream (lines.map wordsLine))) hdr (results [plainUnit ss.flatten ts.flatten] none)) ↔ ∀ l ∈ lines, OneString l := by
  have hw : ∀ l ∈ lines, ∀ w ∈ l, EntryWord w := fun l hl' w hw =>
    entryWords_words ss ts w (by rw [← hl]; exact List.mem_flatten.mpr ⟨l, hl', hw⟩)
  have hclean : ∀ s ∈ lines.map wordsLine, CleanLine s := by
    intro s hs
    obtain ⟨l, h1, rfl⟩ := List.mem_map.mp hs
    exact words_clean (hw l h1)
  by_cases hk : ∀ l ∈ lines, ∀ k, l.getLast? ≠ some (.kw k)
  · obtain ⟨l1, p, q, l2, rfl, h1, h2⟩ := split_lines (a := Word.kw (c!"msgid") :: ss.map .str) hl
    cases p with
    | nil =>
      -- `msgstr` begins a line
      rw [List.append_nil] at h1
      rw [List.nil_append] at *
      obtain ⟨ys, yss, g1, g2, g3⟩ := lines_group (fun l hl => hne l (List.mem_append_left _ hl)) (fun l hl => hk l (List.mem_append_left _ hl)) h1.symm
      obtain ⟨zs, zss, g4, g5, g6⟩ := lines_group (k := c!"msgstr") (lines := (.kw (c!"msgstr") :: q) :: l2) (xs := ts) (fun l hl => hne l (List.mem_append_right _ hl))
        (fun l hl => hk l (List.mem_append_right _ hl)) (by rw [h2]; simp)
      have g1' : l1 = groupLines (c!"msgid") (ys :: yss) := g1
      have g4' : (.kw (c!"msgstr") :: q) :: l2 = groupLines (c!"msgstr") (zs :: zss) := g4
      have t1 := texts_length g3
      have t2 := texts_length g6
      rw [g1', g4'] at hclean ⊢
      have hid : (ys :: yss).flatMap stringsText ≠ [] := by
        intro e
        have := t1.1
        rw [e, ← g2] at this
        exact hs (List.length_eq_zero_iff.mp (Nat.le_zero.mp this))
      obtain ⟨hdr, hy⟩ := groups_read env g3 g6 hid hclean
      rw [groups_one, ← t1.2.1, ← t2.2.1, ← g2, ← g5]
      constructor
      · rintro ⟨hdr', hy'⟩
        obtain ⟨_, e⟩ := hy.unique hy'
        simp only [results, List.map_cons, List.map_nil, Option.toList_none, List.append_nil, List.cons.injEq, Except.ok.injEq, and_true] at e
        exact plainUnit_inj e
      · rintro ⟨e1, e2⟩
        rw [e1, e2] at hy
        exact ⟨hdr, hy⟩
    | cons w p =>
      -- `msgstr` is inside a line
      refine iff_of_false ?_ ?_
      · rintro ⟨hdr, hy⟩
        obtain ⟨hdr', hy'⟩ := inside_cut env hs hne hw hk h1 h2
        have := (hy.unique hy').2
        simp [results] at this
      · intro ho
        have := ho (w :: p ++ .kw (c!"msgstr") :: q) (by simp)
        cases p with
        | nil => cases w <;> exact this
        | cons x p => cases w <;> cases x <;> cases p <;> exact this
  · -- a keyword at the end of a line
    have : ∃ l ∈ lines, ∃ k, l.getLast? = some (.kw k) := by
      refine Classical.byContradiction fun hc => hk fun l hl k e => hc ⟨l, hl, k, e⟩
    obtain ⟨l, h1, k, h2⟩ := this
    obtain ⟨l', rfl⟩ := List.getLast?_eq_some_iff.mp h2
    have hk' : k = c!"msgid" ∨ k = c!"msgstr" := by
      rcases hw _ h1 (.kw k) (by simp) with ⟨t, ht⟩ | h | h
      · cases ht
      · cases h; exact .inl rfl
      · cases h; exact .inr rfl
    refine iff_of_false ?_ fun ho => ?_
    · rintro ⟨hdr, hy⟩
      obtain ⟨e, he⟩ := items_unread (List.mem_map.mpr ⟨_, h1, rfl⟩) (fun n => keyword_end hk' (fun w hw' => hw _ h1 w (by simp [hw'])) n) 1
      rw [← streamItems_text _ hclean] at he
      exact none_no_error hy e he
    · have := ho _ h1
      cases l' with
      | nil => exact this
      | cons w l' => cases w <;> cases l' <;> simp [OneString] at this

/-- **C86** If no keyword ends a line and `msgstr` does not begin one, the entry is lost without an error. -/
theorem C86_lost (env : Env) {ss ts : List Str} (hs : ss.flatten ≠ []) {lines : List (List Word)} (hne : ∀ l ∈ lines, l ≠ [])
    (hl : lines.flatten = entryWords ss ts) (hk : ∀ l ∈ lines, ∀ k, l.getLast? ≠ some (.kw k)) (hm : ∀ l ∈ lines, l.head? ≠ some (.kw (c!"msgstr"))) :
    ∃ hdr, Yields (parse env (textStream (lines.map wordsLine))) hdr (results [] none) := by
  have hw : ∀ l ∈ lines, ∀ w ∈ l, EntryWord w := fun l hl' w hw =>
    entryWords_words ss ts w (by rw [← hl]; exact List.mem_flatten.mpr ⟨l, hl', hw⟩)
  obtain ⟨l1, p, q, l2, rfl, h1, h2⟩ := split_lines (a := Word.kw (c!"msgid") :: ss.map .str) hl
  cases p with
  | nil => exact absurd rfl (hm (.kw (c!"msgstr") :: q) (List.mem_append_right _ (List.mem_cons_self ..)))
  | cons w p => exact inside_cut env hs hne hw hk h1 h2

-- `msgid "a"`, `"b" msgstr "c"`
example (env : Env) : ∃ hdr, Yields (parse env (textStream [c!"msgid \"a\"", c!"\"b\" msgstr \"c\""])) hdr (results [] none) :=
  C86_lost env (ss := [c!"a", c!"b"]) (ts := [c!"c"]) (by decide)
    (lines := [[.kw (c!"msgid"), .str (c!"a")], [.str (c!"b"), .kw (c!"msgstr"), .str (c!"c")]]) (by simp) rfl (by simp) (by simp)

/-- `msgid "a"`, `"b"`, `msgstr "c"`: one string on every line. -/
example (env : Env) : ∃ hdr, Yields (parse env (textStream [c!"msgid \"a\"", c!"\"b\"", c!"msgstr \"c\""])) hdr (results [plainUnit (c!"ab") (c!"c")] none) :=
  (C86_layout env (ss := [c!"a", c!"b"]) (ts := [c!"c"]) (by decide)
    (lines := [[.kw (c!"msgid"), .str (c!"a")], [.str (c!"b")], [.kw (c!"msgstr"), .str (c!"c")]]) (by simp) rfl).mpr (by simp [OneString])

/-- `msgid "a" "b"`, `msgstr "c"`: two strings on a line. -/
example (env : Env) : ¬ ∃ hdr, Yields (parse env (textStream [c!"msgid \"a\" \"b\"", c!"msgstr \"c\""])) hdr (results [plainUnit (c!"ab") (c!"c")] none) :=
  fun h => absurd ((C86_layout env (ss := [c!"a", c!"b"]) (ts := [c!"c"]) (by decide)
    (lines := [[.kw (c!"msgid"), .str (c!"a"), .str (c!"b")], [.kw (c!"msgstr"), .str (c!"c")]]) (by simp) rfl).mp h) (by simp [OneString])

/-- **C86** The natural claim that line ends between the words of an entry do not matter is false: a keyword alone on a line is an error, and an entry on a single
line is lost without an error. -/
theorem C86_refuted :
    [[Word.kw (c!"msgid")], [.str (c!"a")], [.kw (c!"msgstr"), .str (c!"b")]].flatten = entryWords [c!"a"] [c!"b"] ∧
    Fails (parse demoEnv (textStream [c!"msgid", c!"\"a\"", c!"msgstr \"b\""])) (.parse 2 (c!"msgid") []) ∧
    Yields (parse demoEnv (textStream [wordsLine (entryWords [c!"a"] [c!"b"])])) (noHeader demoEnv) (results [] none) :=
  ⟨rfl, fails_text (by decide) (by rfl), yields_text (res := ⟨noHeader demoEnv, none, [], none⟩) (by decide) (by rfl)⟩

end Verif
