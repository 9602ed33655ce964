import Verif.Props.Layout

/-! C12 for whole inputs: white space inside lines. -/

namespace Verif
open Spec

theorem respaced_line {s s' : Str} (h : Respaced s s') (hs : '\n' ∉ s) (hs' : '\n' ∉ s') (n : Nat) :
    s = s' ∨ ∃ ln, parseLine s n = some ln ∧ parseLine s' n = some ln := by
  cases h with
  | same => exact .inl rfl
  | blank h h' => exact .inr ⟨_, parseLine_blank n h, parseLine_blank n h'⟩
  | quoted h h' => exact .inr ⟨_, parseLine_quoted n hs h, parseLine_quoted n hs' h'⟩
  | @comment w w' r h h' =>
    have he := C12_comment_indent w w' r n h h' (fun hc => hs (by simp [hc])) (fun hc => hs' (by simp [hc])) (fun hc => hs (by simp [hc]))
    right
    by_cases hq : ∃ m k raw, QuotedLine (w ++ '#' :: r) m k raw
    · obtain ⟨m, k, raw, hq⟩ := hq
      exact ⟨_, parseLine_quoted n hs hq, he ▸ parseLine_quoted n hs hq⟩
    · have hc := parseLine_comment n hs (fun m k raw h => hq ⟨m, k, raw, h⟩) (hash_decomp.mpr ⟨w, h, rfl⟩)
      exact ⟨_, hc, he ▸ hc⟩

theorem respaced_items {rs rs' : List (Except IoErr Str)} (h : RespacedLines rs rs') (hn : ∀ s, .ok s ∈ rs → '\n' ∉ s) (hn' : ∀ s, .ok s ∈ rs' → '\n' ∉ s)
    (n : Nat) : items n rs = items n rs' := by
  induction h generalizing n with
  | nil => rfl
  | failed => rfl
  | line hl _ ih =>
    have ih := ih (fun s hs => hn s (List.mem_cons_of_mem _ hs)) (fun s hs => hn' s (List.mem_cons_of_mem _ hs)) (n + 1)
    rcases respaced_line hl (hn _ (List.mem_cons_self ..)) (hn' _ (List.mem_cons_self ..)) n with rfl | ⟨ln, h1, h2⟩
    · simp only [items, ih]
    · cases ln <;> simp only [items, h1, h2, ih]

/-- **C12 (inputs).** Two inputs that differ only in the white space of their lines give the same result of `parse()` and the same results of every sequence of
calls of `next()`, line numbers in errors included. -/
theorem C12_input (env : Env) {stream stream' : List Event} (h : RespacedLines (rawLines (flatten stream)) (rawLines (flatten stream'))) (k : Nat) :
    observe k (parse env stream) = observe k (parse env stream') := by
  rw [observe_parse, observe_parse, streamItems_code, streamItems_code,
    respaced_items h (fun _ hs => rawLines_no_nl hs) (fun _ hs => rawLines_no_nl hs) 1]

/-- A unit with a comment, then a line that is not recognised; written with other white space. -/
def spaced : List Str := [c!"  #. note", c!"\tmsgid\t\"a\"  ", c!"msgstr\"b\"", c!" \t", c!" msgid   \"c\"", c!"garbage"]
def unspaced : List Str := [c!"#. note", c!"msgid \"a\"", c!"msgstr \"b\"", c!"", c!"msgid \"c\"", c!"garbage"]

example : ∀ k, observe k (parse demoEnv (textStream spaced)) = observe k (parse demoEnv (textStream unspaced)) := by
  intro k
  apply C12_input
  rw [rawLines_text (by decide), rawLines_text (by decide)]
  refine .line (.comment (w := c!"  ") (w' := []) (r := c!". note") (by decide) (by decide)) (.line (.quoted (m := none) (k := some (c!"msgid")) (raw := c!"a") ?_ ?_)
    (.line (.quoted (m := none) (k := some (c!"msgstr")) (raw := c!"b") ?_ ?_) (.line (.blank (by decide) (by decide))
      (.line (.quoted (m := none) (k := some (c!"msgid")) (raw := c!"c") ?_ ?_) (.line .same .nil)))))
  · exact ⟨by simp, by simp [IsKeyword], c!"\t", [], c!"\t", c!"  ", by decide, by decide, by decide, by decide, rfl⟩
  · exact ⟨by simp, by simp [IsKeyword], [], [], c!" ", [], by decide, by decide, by decide, by decide, rfl⟩
  · exact ⟨by simp, by simp [IsKeyword], [], [], [], [], by decide, by decide, by decide, by decide, rfl⟩
  · exact ⟨by simp, by simp [IsKeyword], [], [], c!" ", [], by decide, by decide, by decide, by decide, rfl⟩
  · exact ⟨by simp, by simp [IsKeyword], c!" ", [], c!"   ", [], by decide, by decide, by decide, by decide, rfl⟩
  · exact ⟨by simp, by simp [IsKeyword], [], [], c!" ", [], by decide, by decide, by decide, by decide, rfl⟩

/-- The unit of both. -/
def notedUnit : PoUnit := { unitAB (c!"a") (c!"b") with notes := [⟨.developer, c!"note"⟩] }

-- What both give: the unit, then the error at the sixth line.
example : Yields (parse demoEnv (textStream spaced)) (noHeader demoEnv) (results [notedUnit] (some (.parse 7 (c!"garbage") []))) :=
  yields_text (res := ⟨noHeader demoEnv, none, [notedUnit], some (.parse 7 (c!"garbage") [])⟩) (by decide) (by rfl)
example : Yields (parse demoEnv (textStream unspaced)) (noHeader demoEnv) (results [notedUnit] (some (.parse 7 (c!"garbage") []))) :=
  yields_text (res := ⟨noHeader demoEnv, none, [notedUnit], some (.parse 7 (c!"garbage") [])⟩) (by decide) (by rfl)

end Verif
