import Verif.Spec.Chars
import Verif.Lemmas.Write
import Verif.Props.Cause

/-! C71: the characters that count as white space and as digits. -/

namespace Verif
open Spec

theorem isWhite_iff (c : Char) : isWhite c = true ↔ c.toNat ∈ whiteSpace := by
  unfold isWhite whiteSpace
  simp only [Bool.or_eq_true, Bool.and_eq_true, decide_eq_true_eq, beq_iff_eq, List.mem_cons, List.not_mem_nil, or_false]
  omega

theorem zeros_ranges : zeros = ndRanges.flatMap fun r => (List.range ((r.2 + 1 - r.1) / 10)).map fun i => r.1 + 10 * i := by decide

theorem ndRanges_tens : ∀ r ∈ ndRanges, r.1 ≤ r.2 ∧ (r.2 + 1 - r.1) % 10 = 0 := by decide

theorem isNd_iff (c : Char) : isNd c = true ↔ AnyDigit c := by
  unfold isNd AnyDigit
  rw [zeros_ranges]
  simp only [List.any_eq_true, Bool.and_eq_true, decide_eq_true_eq, List.mem_flatMap, List.mem_map, List.mem_range]
  constructor
  · rintro ⟨r, hr, h1, h2⟩
    have := ndRanges_tens r hr
    refine ⟨r.1 + 10 * ((c.toNat - r.1) / 10), ⟨r, hr, (c.toNat - r.1) / 10, ?_, rfl⟩, ?_, ?_⟩ <;> omega
  · rintro ⟨z, ⟨r, hr, i, hi, rfl⟩, h1, h2⟩
    have := ndRanges_tens r hr
    refine ⟨r, hr, ?_, ?_⟩ <;> omega

theorem isIndex_iff (t : Str) : IsIndex t ↔ AnyIndex t := by
  unfold IsIndex AnyIndex
  have h1 : ∀ d : Char, ('1'.toNat ≤ d.toNat ∧ d.toNat ≤ '9'.toNat) ↔ ('1' ≤ d ∧ d ≤ '9') := fun d => Iff.rfl
  simp only [h1, isNd_iff, and_assoc]

theorem cut_unique {a b x y : Str} {c : Char} (ha : c ∉ a) (hb : c ∉ b) (h : a ++ c :: x = b ++ c :: y) : a = b := by
  induction a generalizing b with
  | nil =>
    cases b with
    | nil => rfl
    | cons d b => exact absurd (List.cons.inj h).1 fun hd => hb (hd ▸ List.mem_cons_self ..)
  | cons d a ih =>
    cases b with
    | nil => exact absurd (List.cons.inj h).1 fun hd => ha (hd ▸ List.mem_cons_self ..)
    | cons d' b =>
      obtain ⟨rfl, h'⟩ := List.cons.inj h
      rw [ih (fun h => ha (List.mem_cons_of_mem _ h)) (fun h => hb (List.mem_cons_of_mem _ h)) h']

theorem white_skip {w : Str} {c : Char} {x y : Str} (hw : White w) (hc : isWhite c = false) (h : c :: x = w ++ y) : w = [] := by
  cases w with
  | nil => rfl
  | cons d w =>
    have := hw d (List.mem_cons_self ..)
    rw [← (List.cons.inj h).1, hc] at this
    cases this

theorem anyIndex_bracket {t : Str} (h : AnyIndex t) : ']' ∉ t := by
  have hd : ¬ AnyDigit ']' := by
    rw [← isNd_iff]; decide
  rcases h with rfl | ⟨d, ds, rfl, h1, h2, h3⟩
  · decide
  · intro hm
    rcases List.mem_cons.mp hm with rfl | hm
    · revert h2; decide
    · exact hd (h3 _ hm)

theorem one_line {stream : List Event} {s : Str} (h : rawLines (flatten stream) = [.ok s]) : '\n' ∉ s ∧ streamItems stream = items 1 [.ok s] :=
  ⟨rawLines_no_nl (inp := flatten stream) (by rw [h]; exact List.mem_singleton_self _), by rw [streamItems_code, h]⟩

theorem items_unrecognised {n : Nat} {s : Str} {rs : List (Except IoErr Str)} (hs : '\n' ∉ s) (h : Classified s n none) :
    items n (.ok s :: rs) = [.error (.parse (n + 1) s [])] := by
  unfold items
  rw [(C06_line_classification s n hs _).mpr h]

theorem fails_unrecognised {env : Env} {stream : List Event} {s : Str} (h : rawLines (flatten stream) = [.ok s]) (hc : Classified s 1 none) :
    Fails (parse env stream) (.parse 2 s []) := by
  obtain ⟨h1, h2⟩ := one_line h
  rw [items_unrecognised h1 hc] at h2
  rw [← rejects_iff, h2]
  exact .first (.unreadable (block := []) (.inl (.inl ⟨false, entryHead_comments false []⟩)))

/-- **C71** Exactly 25 characters count as white space: an input that consists of one line, without `#` and `"`, is an empty catalogue if all characters of
the line are among them; otherwise the line is not recognised. -/
theorem C71_white (env : Env) {stream : List Event} {s : Str} (h : rawLines (flatten stream) = [.ok s]) (h1 : '#' ∉ s) (h2 : '"' ∉ s) :
    ((∀ c ∈ s, c.toNat ∈ whiteSpace) ∧ Yields (parse env stream) (plainHeader env) (results [] none)) ∨
    ((∃ c ∈ s, c.toNat ∉ whiteSpace) ∧ Fails (parse env stream) (.parse 2 s [])) := by
  by_cases hw : White s
  · refine .inl ⟨fun c hc => (isWhite_iff c).mp (hw c hc), ?_⟩
    obtain ⟨h3, h4⟩ := one_line h
    have := parse_stream env stream
    rw [h4] at this
    unfold items at this
    rw [(C06_line_classification s 1 h3 _).mpr (.blank hw)] at this
    exact this
  · refine .inr ⟨?_, ?_⟩
    · apply Classical.byContradiction
      intro hn
      exact hw fun c hc => (isWhite_iff c).mpr (Classical.byContradiction fun hc' => hn ⟨c, hc, hc'⟩)
    · refine fails_unrecognised h (.unrecognised hw ?_ ?_)
      · rintro m k raw ⟨-, -, w1, w2, w3, w4, -, -, -, -, rfl⟩
        exact h2 (by simp)
      · rintro w r - rfl
        exact h1 (by simp)

/-- **C71** In the brackets of a line `msgstr[..]` stands an index: `0`, or a digit from `1` to `9` followed by decimal digits, of any script.  Otherwise the
line is not recognised. -/
theorem C71_index (env : Env) {stream : List Event} {t : Str} (h : rawLines (flatten stream) = [.ok (c!"msgstr[" ++ (t ++ c!"] \"x\""))]) (ht : ']' ∉ t) :
    (AnyIndex t ∧ Yields (parse env stream) (plainHeader env) (results [] (some (.parse 1 [] (c!"msgid"))))) ∨
    (¬ AnyIndex t ∧ Fails (parse env stream) (.parse 2 (c!"msgstr[" ++ (t ++ c!"] \"x\"")) [])) := by
  by_cases hi : AnyIndex t
  · refine .inl ⟨hi, ?_⟩
    obtain ⟨h3, h4⟩ := one_line h
    have hc : Classified (c!"msgstr[" ++ (t ++ c!"] \"x\"")) 1 (some (.message 1 [] (c!"msgstr[" ++ (t ++ [']'])) (c!"x"))) := by
      refine .keyword (m := none) (k := c!"msgstr[" ++ (t ++ [']'])) (raw := c!"x") ⟨by simp, ?_, [], [], [' '], [], by decide, by decide, by decide, by decide, ?_⟩
      · intro k hk
        cases hk
        exact .inr (.inr (.inr (.inr ⟨t, (isIndex_iff t).mpr hi, rfl⟩)))
      · simp [markerText]
    have := parse_stream env stream
    rw [h4] at this
    unfold items at this
    rw [(C06_line_classification _ 1 h3 _).mpr hc] at this
    exact this
  · refine .inr ⟨hi, fails_unrecognised h (.unrecognised ?_ ?_ ?_)⟩
    · intro hw
      exact absurd (hw 'm' (by simp)) (by decide)
    · rintro m k raw ⟨hm, hk, w1, w2, w3, w4, hw1, hw2, hw3, hw4, he⟩
      have h1 : w1 = [] := white_skip (c := 'm') hw1 (by decide) he
      subst h1
      cases m with
      | some m => simp [markerText] at he
      | none =>
        have h2 : w2 = [] := white_skip (c := 'm') hw2 (by decide) he
        subst h2
        cases k with
        | none =>
          have h3 : w3 = [] := white_skip (c := 'm') hw3 (by decide) he
          subst h3
          simp [markerText] at he
        | some k =>
          rcases hk k rfl with rfl | rfl | rfl | rfl | ⟨ds, hds, rfl⟩
          · simp [markerText] at he
          · simp [markerText] at he
          · simp [markerText] at he
          · simp only [markerText, Option.getD_some, List.nil_append, List.cons_append, List.cons.injEq, true_and] at he
            have h3 : w3 = [] := white_skip (c := '[') hw3 (by decide) he
            subst h3
            simp at he
          · simp only [markerText, Option.getD_some, List.nil_append, List.cons_append, List.cons.injEq, true_and, List.append_assoc] at he
            rw [isIndex_iff] at hds
            rw [cut_unique ht (anyIndex_bracket hds) he] at hi
            exact hi hds
    · rintro w r hw he
      cases w with
      | nil => simp at he
      | cons c w =>
        simp only [List.cons_append, List.cons.injEq] at he
        have := hw c (List.mem_cons_self ..)
        rw [← he.1] at this
        exact absurd this (by decide)

/-! ### Indices that are used -/

/-- The keywords of the fields of entries. -/
def UsedKw (k : Str) : Prop :=
  k = c!"|msgctxt" ∨ k = c!"|msgid" ∨ k = c!"|msgid_plural" ∨ k = c!"msgctxt" ∨ k = c!"msgid" ∨ k = c!"msgid_plural" ∨ k = c!"msgstr" ∨
    ∃ i, k = valueKeyword i

theorem used_head {o : Bool} {b : List PoLine} (h : EntryHead o b) : ∀ k ∈ kws b, UsedKw k := by
  intro k hk
  rcases kws_head h hk with h | h | h | h
  · exact .inl h
  · exact .inr (.inl h)
  · exact .inr (.inr (.inl h))
  · exact .inr (.inr (.inr (.inl h)))

theorem used_ids {o : Bool} {idPl : Option Str} {b : List PoLine} (h : EntryIds o idPl b) : ∀ k ∈ kws b, UsedKw k := by
  obtain ⟨a, b5, b6, id, rfl, h1, f5, f6⟩ := h
  intro k hk
  rw [kws_append, kws_append, kws_field f5, kws_opt f6] at hk
  rcases List.mem_append.mp hk with hk | hk
  · exact used_head h1 k hk
  · rcases List.mem_append.mp hk with hk | hk
    · exact .inr (.inr (.inr (.inr (.inl (List.mem_singleton.mp hk)))))
    · split at hk
      · cases hk
      · exact .inr (.inr (.inr (.inr (.inr (.inl (List.mem_singleton.mp hk))))))

theorem used_values {o : Bool} {hi lo : Nat} {b : List PoLine} {vs : List Str} (h : ValueFields o hi lo b vs) : ∀ k ∈ kws b, UsedKw k := by
  induction h with
  | nil => intro k hk; cases hk
  | cons _ _ f _ ih =>
    intro k hk
    rw [kws_append, kws_field f] at hk
    rcases List.mem_append.mp hk with hk | hk
    · exact .inr (.inr (.inr (.inr (.inr (.inr (.inr ⟨_, List.mem_singleton.mp hk⟩))))))
    · exact ih k hk

theorem used_entry {forms : Option PluralForms} {b : List PoLine} {u : PoUnit} (h : Entry forms b u) : ∀ k ∈ kws b, UsedKw k := by
  obtain ⟨o, idPl, id, m, a, b7, bh, b5, b6, rfl, h1, h2, f5, f6, f7⟩ := entry_split.mp ⟨u, h⟩
  intro k hk
  rw [kws_append] at hk
  rcases List.mem_append.mp hk with hk | hk
  · exact used_ids ⟨_, _, _, _, h1, h2, f5, f6⟩ k hk
  · cases f7 with
    | simple f => rw [kws_field f] at hk; exact .inr (.inr (.inr (.inr (.inr (.inr (.inl (List.mem_singleton.mp hk)))))))
    | plural f _ => exact used_values f k hk

theorem used_stray {b : List PoLine} (h : StrayPlural b) : ∀ k ∈ kws b, UsedKw k := by
  intro k hk
  rcases kws_stray h hk with h | h | h | h | h
  · exact .inl h
  · exact .inr (.inl h)
  · exact .inr (.inr (.inl h))
  · exact .inr (.inr (.inr (.inl h)))
  · exact .inr (.inr (.inr (.inr (.inr (.inl h)))))

/-- All keywords of the items are used ones. -/
def UsedItems (l : List Item) : Prop := ∀ ln k, .ok ln ∈ l → keywordOf ln = some k → UsedKw k

theorem usedItems_block {b : List PoLine} {l : List Item} (hb : ∀ k ∈ kws b, UsedKw k) (hl : UsedItems l) : UsedItems (b.map .ok ++ l) := by
  intro ln k hm hk
  rcases List.mem_append.mp hm with hm | hm
  · obtain ⟨ln', h1, h2⟩ := List.mem_map.mp hm
    cases h2
    exact hb k (List.mem_filterMap.mpr ⟨ln, h1, hk⟩)
  · exact hl ln k hm hk

theorem usedItems_lines {b : List PoLine} (hb : ∀ k ∈ kws b, UsedKw k) : UsedItems (b.map .ok) := by
  have := usedItems_block (l := []) hb (fun _ _ h => by cases h)
  rwa [List.append_nil] at this

theorem run_used {forms : Option PluralForms} {l : List Item} {us : List PoUnit} {e : Option Err} (h : Run forms l us e) (he : e = none) : UsedItems l := by
  induction h with
  | stop h =>
    subst he
    cases h with
    | endsInHead h => exact usedItems_lines (used_head h)
    | endsAfterIds h => exact usedItems_lines (used_ids h)
  | entry h _ _ _ ih => exact usedItems_block (used_entry h) (ih he)

theorem reads_used {env : Env} {l : List Item} {hdr : Header env.Lang} {forms : Option PluralForms} {us : List PoUnit} (h : Reads env l hdr forms us none) :
    UsedItems l := by
  cases h with
  | nothing f =>
    cases f with
    | comments h =>
      obtain ⟨ds, rfl⟩ := all_comments h
      exact usedItems_lines (by rw [kws_comments]; intro k hk; cases hk)
    | cut h => exact usedItems_lines (used_ids h)
  | plain f hr =>
    cases f with
    | unit h => exact usedItems_block (used_entry h) (run_used hr rfl)
  | headed f _ _ hr =>
    cases f with
    | header h => exact usedItems_block (used_entry h) (run_used hr rfl)
    | noId h =>
      rcases h with ⟨o, h⟩ | h
      · exact usedItems_block (used_head h) (run_used hr rfl)
      · exact usedItems_block (used_stray h) (run_used hr rfl)

theorem keyword_item {n : Nat} {rs : List (Except IoErr Str)} {l : List Item} (h : LineItems n rs l) (he : ∀ e, .error e ∉ l) (hn : ∀ s, .ok s ∈ rs → '\n' ∉ s)
    {s k raw : Str} {m : Option Str} (hs : .ok s ∈ rs) (hq : QuotedLine s m (some k) raw) :
    ∃ n', .ok (.message n' (m.getD []) (taggedKeyword m k) (unesc raw)) ∈ l := by
  induction h with
  | nil => cases hs
  | failed => exact absurd (List.mem_cons_self ..) (he _)
  | unrecognised => exact absurd (List.mem_cons_self ..) (he _)
  | blank hc _ ih =>
    rcases List.mem_cons.mp hs with hs | hs
    · cases hs
      have := classified_unique (hn s (List.mem_cons_self ..)) hc (.keyword hq)
      cases this
    · exact ih he (fun s hs => hn s (List.mem_cons_of_mem _ hs)) hs
  | line hc _ _ ih =>
    rcases List.mem_cons.mp hs with hs | hs
    · cases hs
      cases classified_unique (hn s (List.mem_cons_self ..)) hc (.keyword hq)
      exact ⟨_, List.mem_cons_self ..⟩
    · obtain ⟨n', h'⟩ := ih (fun e h => he e (List.mem_cons_of_mem _ h)) (fun s hs => hn s (List.mem_cons_of_mem _ hs)) hs
      exact ⟨n', List.mem_cons_of_mem _ h'⟩

/-- **C71** In an input that is read without error every index is written in the ordinary way, with the digits `0` to `9` and without leading zeros, and
belongs to the entry itself.  So it makes no difference for such inputs which characters of other scripts are digits. -/
theorem C71_plain {env : Env} {stream : List Event} {hdr : Header env.Lang} {us : List PoUnit} (h : Yields (parse env stream) hdr (results us none))
    {s raw t : Str} {m : Option Str} (hs : .ok s ∈ rawLines (flatten stream)) (hq : QuotedLine s m (some (c!"msgstr[" ++ (t ++ [']']))) raw) :
    '|' ∉ m.getD [] ∧ ∃ i, t = Nat.toDigits 10 i := by
  obtain ⟨forms, us', e', hx, hr⟩ := yields_reads h
  obtain ⟨rfl, rfl⟩ := results_inj hx
  obtain ⟨n', hm⟩ := keyword_item ((stream_items stream _).mpr rfl) (none_no_error h) (fun s hs => rawLines_no_nl hs) hs hq
  have hu := reads_used hr _ _ hm rfl
  unfold taggedKeyword at hu
  by_cases hb : '|' ∈ m.getD []
  · rw [if_pos hb] at hu
    unfold UsedKw valueKeyword at hu
    simp at hu
  · rw [if_neg hb] at hu
    refine ⟨hb, ?_⟩
    unfold UsedKw valueKeyword at hu
    simpa using hu

-- `C71_white`: a line of an ideographic space and a no-break space; a zero-width space is not white
example : Yields (parse demoEnv (textStream [c!"\u3000\u00A0"])) (plainHeader demoEnv) (results [] none) := by
  rcases C71_white demoEnv (s := c!"\u3000\u00A0") (rawLines_text (ls := [c!"\u3000\u00A0"]) (by decide)) (by decide) (by decide) with ⟨_, h⟩ | ⟨h, _⟩
  · exact h
  · exact absurd h (by decide)
example : Fails (parse demoEnv (textStream [c!"\u200B"])) (.parse 2 (c!"\u200B") []) := by
  rcases C71_white demoEnv (s := c!"\u200B") (rawLines_text (ls := [c!"\u200B"]) (by decide)) (by decide) (by decide) with ⟨h, _⟩ | ⟨_, h⟩
  · exact absurd h (by decide)
  · exact h

-- `C71_index`: with an Arabic digit three, and with a leading zero
example : Yields (parse demoEnv (textStream [c!"msgstr[1\u0663] \"x\""])) (plainHeader demoEnv) (results [] (some (.parse 1 [] (c!"msgid")))) := by
  rcases C71_index demoEnv (t := c!"1\u0663") (rawLines_text (ls := [c!"msgstr[1\u0663] \"x\""]) (by decide)) (by decide) with ⟨_, h⟩ | ⟨h, _⟩
  · exact h
  · exact absurd (.inr ⟨_, _, rfl, by decide, by decide, fun c hc => ⟨0x660, by decide, by rw [List.mem_singleton.mp hc]; decide⟩⟩) h
example : Fails (parse demoEnv (textStream [c!"msgstr[01] \"x\""])) (.parse 2 (c!"msgstr[01] \"x\"") []) := by
  rcases C71_index demoEnv (t := c!"01") (rawLines_text (ls := [c!"msgstr[01] \"x\""]) (by decide)) (by decide) with ⟨h, _⟩ | ⟨_, h⟩
  · rcases h with h | ⟨d, ds, h, h1, _⟩
    · cases h
    · cases h; exact absurd h1 (by decide)
  · exact h

-- `C71_plain`
example (hdr : Header Str) (us : List PoUnit) :
    ¬ Yields (parse demoEnv (textStream [c!"msgid \"a\"", c!"msgid_plural \"b\"", c!"msgstr[0] \"c\"", c!"msgstr[1\u0663] \"x\""])) hdr (results us none) := by
  intro h
  obtain ⟨_, i, hi⟩ := C71_plain (s := c!"msgstr[1\u0663] \"x\"") (m := none) (t := c!"1\u0663") (raw := c!"x") h (by rw [rawLines_text (by decide)]; simp)
    ⟨by simp, fun k hk => by
      cases hk
      exact .inr (.inr (.inr (.inr ⟨c!"1\u0663", .inr ⟨_, _, rfl, by decide, by decide⟩, rfl⟩))), [], [], [' '], [], by decide, by decide, by decide, by decide, by decide⟩
  exact absurd (ascii_digits i '\u0663' (by rw [← hi]; decide)) (by decide)

end Verif
