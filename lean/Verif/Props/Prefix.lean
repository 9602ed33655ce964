import Verif.Props.Errors

/-! C50: what a cut-off input tells about the whole input. -/

namespace Verif
open Spec

theorem entry_length {forms : Option PluralForms} {block : List PoLine} {u : PoUnit} (h : Entry forms block u) : 2 ≤ block.length := by
  obtain ⟨cs, b1, b2, b3, b4, b5, b6, b7, prevId, prevPl, id, idPl, rfl, f1, f2, f3, g3, f4, f5, f6, f7, f8, f9, f10⟩ := h
  obtain ⟨p, f5, _⟩ := f5
  obtain ⟨n, s, tl, rfl⟩ := field_head f5
  have : b7 ≠ [] := by
    rintro rfl
    obtain ⟨k, hk, _⟩ := kws_text f7
    cases hk
  have := List.length_pos_iff.mpr this
  simp only [List.length_append, List.length_cons]
  omega

theorem run_length {forms : Option PluralForms} {l : List Item} {us : List PoUnit} {e : Option Err} (h : Run forms l us e) : 2 * us.length ≤ l.length := by
  induction h with
  | stop => simp
  | entry h1 _ _ _ ih =>
    have := entry_length h1
    simp only [List.length_append, List.length_map, List.length_cons]
    omega

/-- Two lists of items that begin in the same way, the first with at most one further item. -/
theorem split_block {block : List PoLine} {rest p x : List Item} (h : block.map .ok ++ rest = p ++ x) (hr : 2 ≤ rest.length) (hx : x.length ≤ 1) :
    ∃ y p', p = block.map .ok ++ y :: p' ∧ rest = y :: p' ++ x := by
  rcases List.append_eq_append_iff.mp h with ⟨a, h1, h2⟩ | ⟨a, h1, h2⟩
  · cases a with
    | nil => rw [h2] at hr; simp at hr; omega
    | cons y p' => exact ⟨y, p', h1, h2⟩
  · rw [h2] at hx
    simp only [List.length_append] at hx
    omega

theorem run_prefix {forms : Option PluralForms} {p x y : List Item} (hx : x.length ≤ 1) (hb : NoBlank (p ++ y)) {us : List PoUnit} {e : Option Err}
    (h : Run forms (p ++ x) us e) : ∃ us' e', Run forms (p ++ y) us' e' ∧ us.dropLast <+: us' := by
  generalize hl : p ++ x = l at h
  induction h generalizing p with
  | stop => exact ⟨_, _, drain_run hb, by simp⟩
  | @entry block u rest us e h1 h2 h3 h4 ih =>
    cases us with
    | nil => exact ⟨_, _, drain_run hb, by simp⟩
    | cons v us =>
      have hr := run_length h4
      obtain ⟨z, p', rfl, rfl⟩ := split_block hl.symm (by simp at hr ⊢; omega) hx
      rw [List.append_assoc] at hb
      obtain ⟨us', e', i1, i2⟩ := ih hb.append rfl
      refine ⟨u :: us', e', ?_, ?_⟩
      · rw [List.append_assoc]
        refine .entry h1 h2 ?_ i1
        rcases h3 with h3 | ⟨ln, tl, h3, hp⟩
        · cases h3
        · simp only [List.cons_append, List.cons.injEq] at h3
          exact .inr ⟨ln, p' ++ y, by rw [h3.1]; rfl, hp⟩
      · rw [List.dropLast_cons_of_ne_nil (by simp)]
        exact List.cons_prefix_cons.mpr ⟨rfl, i2⟩

/-- The first entry stays the same if at least two more items come after it. -/
theorem ends_prefix {forms : Option PluralForms} {block : List PoLine} {z : Item} {a b : List Item} (h : EndsHere forms block (z :: a)) :
    EndsHere forms block (z :: b) := by
  rcases h with h | ⟨ln, tl, h, hp⟩
  · cases h
  · simp only [List.cons.injEq] at h
    exact .inr ⟨ln, b, by rw [h.1], hp⟩

theorem reads_prefix {env : Env} {p x y : List Item} (hx : x.length ≤ 1) (hb : NoBlank (p ++ y)) {hdr : Header env.Lang} {forms : Option PluralForms}
    {us : List PoUnit} {e : Option Err} (h : Reads env (p ++ x) hdr forms us e)
    (hu : 2 ≤ us.length ∨ us ≠ [] ∧ ∃ ns cs t rest, First (p ++ x) (.header ns cs t rest)) :
    ∃ us' e', Reads env (p ++ y) hdr forms us' e' ∧ us.dropLast <+: us' := by
  generalize hl : p ++ x = l at h hu
  cases h with
  | nothing => rcases hu with hu | hu <;> simp at hu
  | @plain u rest us e f r =>
    have hne : us ≠ [] := by
      rcases hu with hu | ⟨_, ns, cs, t, rest, hf⟩
      · rintro rfl; simp at hu
      · cases f.unique hf
    have hr := run_length r
    have := List.length_pos_iff.mpr hne
    obtain ⟨block, h1, h2, h3, h4⟩ := first_unit f
    obtain ⟨z, p', rfl, rfl⟩ := split_block (h1.symm.trans hl.symm) (by omega) hx
    rw [List.append_assoc] at hb
    obtain ⟨us', e', i1, i2⟩ := run_prefix hx hb.append r
    refine ⟨u :: us', e', ?_, ?_⟩
    · rw [List.append_assoc]
      exact .plain (.unit h2 h3 (ends_prefix h4)) i1
    · rw [List.dropLast_cons_of_ne_nil hne]
      exact List.cons_prefix_cons.mpr ⟨rfl, i2⟩
  | @headed ns cs t rest hdr forms us e f r1 r2 r =>
    have hne : us ≠ [] := by
      rcases hu with hu | ⟨hu, _⟩
      · rintro rfl; simp at hu
      · exact hu
    have hr := run_length r
    have := List.length_pos_iff.mpr hne
    cases f with
    | header h1 h2 h3 =>
      obtain ⟨z, p', rfl, rfl⟩ := split_block hl.symm (by omega) hx
      rw [List.append_assoc] at hb
      obtain ⟨us', e', i1, i2⟩ := run_prefix hx hb.append r
      refine ⟨us', e', ?_, i2⟩
      rw [List.append_assoc]
      exact .headed (.header h1 h2 (ends_prefix h3)) r1 r2 i1
    | noId h1 h2 h3 =>
      obtain ⟨z, p', rfl, rfl⟩ := split_block hl.symm (by omega) hx
      rw [List.append_assoc] at hb
      obtain ⟨us', e', i1, i2⟩ := run_prefix hx hb.append r
      refine ⟨us', e', ?_, i2⟩
      rw [List.append_assoc]
      refine .headed (.noId h1 (.inl (by simp)) ?_) r1 r2 i1
      rcases h3 with h3 | ⟨ln, tl, h3, hp⟩
      · cases h3
      · simp only [List.cons_append, List.cons.injEq] at h3
        exact .inr ⟨ln, p' ++ y, by rw [h3.1]; rfl, hp⟩

theorem byteLines_append (a b : List UInt8) : ∃ ls, (byteLines (a ++ b)).1 = (byteLines a).1 ++ ls := by
  induction a with
  | nil => exact ⟨_, rfl⟩
  | cons c a ih =>
    obtain ⟨ls, h⟩ := ih
    rw [List.cons_append, byteLines, byteLines, h]
    by_cases hc : c = 10
    · exact ⟨ls, by simp [hc]⟩
    · rw [if_neg hc, if_neg hc]
      cases (byteLines a).1 with
      | nil => exact ⟨_, rfl⟩
      | cons l ls' => exact ⟨ls, rfl⟩

/-- The raw lines of a cut-off input: the complete lines, and at most one more. -/
theorem rawLines_prefix (bs more : List UInt8) (f f' : Option Nat) :
    ∃ rs x y, rawLines (bs, f) = rs ++ x ∧ x.length ≤ 1 ∧ rawLines (bs ++ more, f') = rs ++ y := by
  obtain ⟨ls, h⟩ := byteLines_append bs more
  have h' : rawLines (bs ++ more, f') = (byteLines bs).1.map lineText ++ (ls.map lineText ++ match f' with
      | some c => [.error (.os c)]
      | none => if (byteLines (bs ++ more)).2 = [] then [] else [lineText (byteLines (bs ++ more)).2]) := by
    unfold rawLines
    simp only
    rw [h, List.map_append, List.append_assoc]
    cases f' <;> rfl
  refine ⟨(byteLines bs).1.map lineText, _, _, rfl, ?_, h'⟩
  cases f with
  | some => simp
  | none => simp only; split <;> simp

theorem items_one (n : Nat) {x : List (Except IoErr Str)} (hx : x.length ≤ 1) : (items n x).length ≤ 1 := by
  match x, hx with
  | [], _ => simp [items]
  | [r], _ =>
    cases r with
    | error e => simp [items]
    | ok s => rw [items]; split <;> simp [items]

variable {env : Env} {stream stream' : List Event} {hdr : Header env.Lang} {us : List PoUnit} {e : Option Err}

/-- **C50** If the bytes of one input are a beginning of the bytes of another (cut anywhere, also inside a line or a character; each may end or fail), and
the reader of the first yields at least two units, or one after a header, then the reader of the second has the same header data and yields all these units
except possibly the last one, at the beginning. -/
theorem C50_prefix {bs more : List UInt8} {f f' : Option Nat} (h1 : flatten stream = (bs, f)) (h2 : flatten stream' = (bs ++ more, f'))
    (h : Yields (parse env stream) hdr (results us e))
    (hu : 2 ≤ us.length ∨ us ≠ [] ∧ ∃ ns cs t rest, First (streamItems stream) (.header ns cs t rest)) :
    ∃ hdr' us' e', SameHeader hdr' hdr ∧ Yields (parse env stream') hdr' (results us' e') ∧ us.dropLast <+: us' := by
  obtain ⟨forms, us0, e0, hx, hr⟩ := yields_reads h
  obtain ⟨rfl, rfl⟩ := results_inj hx
  obtain ⟨rs, x, y, r1, r2, r3⟩ := rawLines_prefix bs more f f'
  rw [← h1] at r1
  rw [← h2] at r3
  by_cases hne : ∃ e, .error e ∈ items 1 rs
  · obtain ⟨e', hne⟩ := hne
    have : streamItems stream' = streamItems stream := by
      rw [streamItems_code, streamItems_code, r1, r3, items_error hne, items_error hne]
    rw [← this] at hr
    obtain ⟨hdr', k1, k2⟩ := reads_yields hr
    exact ⟨hdr', us, e, k1, k2, List.dropLast_prefix us⟩
  · have i1 : streamItems stream = items 1 rs ++ items (1 + rs.length) x := by
      rw [streamItems_code, r1, items_append fun e he => hne ⟨e, he⟩]
    have i2 : streamItems stream' = items 1 rs ++ items (1 + rs.length) y := by
      rw [streamItems_code, r3, items_append fun e he => hne ⟨e, he⟩]
    have hb := items_noBlank 1 (rawLines (flatten stream'))
    rw [← streamItems_code, i2] at hb
    rw [i1] at hr hu
    obtain ⟨us', e', k1, k2⟩ := reads_prefix (items_one _ r2) hb hr hu
    rw [← i2] at k1
    obtain ⟨hdr', k3, k4⟩ := reads_yields k1
    exact ⟨hdr', us', e', k3, k4, k2⟩

/-- **C50** The number of units is at most half the number of lines. -/
theorem C50_half (h : Yields (parse env stream) hdr (results us e)) : 2 * us.length ≤ (rawLines (flatten stream)).length := by
  obtain ⟨forms, us0, e0, hx, hr⟩ := yields_reads h
  obtain ⟨rfl, rfl⟩ := results_inj hx
  have hl : (streamItems stream).length ≤ (rawLines (flatten stream)).length := by
    have : ∀ {n rs l}, LineItems n rs l → l.length ≤ rs.length := by
      intro n rs l h
      induction h <;> simp at * <;> omega
    exact this ((stream_items stream _).mpr rfl)
  refine Nat.le_trans ?_ hl
  generalize streamItems stream = l at hr
  cases hr with
  | nothing => simp
  | plain f r =>
    obtain ⟨block, rfl, h2, _⟩ := first_unit f
    have := entry_length h2
    have := run_length r
    simp only [List.length_append, List.length_map, List.length_cons]
    omega
  | headed f _ _ r =>
    obtain ⟨block, rfl⟩ := first_header f
    have := run_length r
    simp only [List.length_append, List.length_map]
    omega

/-! ### Concrete case -/

def cutLines : List Str := [c!"msgid \"a\"", c!"msgstr \"b\"", c!"", c!"msgid \"c\"", c!"msgstr \"d\""]

theorem cut_yields : Yields (parse demoEnv (textStream cutLines)) (noHeader demoEnv) (results [unitAB (c!"a") (c!"b"), unitAB (c!"c") (c!"d")] none) :=
  yields_text (res := ⟨noHeader demoEnv, none, [unitAB (c!"a") (c!"b"), unitAB (c!"c") (c!"d")], none⟩) (by decide) (by rfl)

-- whatever comes after these lines, the first unit stays
example (more : List UInt8) (f : Option Nat) (h : flatten stream = (utf8 (cutLines.flatMap fun l => l ++ ['\n']) ++ more, f)) :
    ∃ hdr' us' e', Yields (parse demoEnv stream) hdr' (results us' e') ∧ [unitAB (c!"a") (c!"b")] <+: us' := by
  obtain ⟨hdr', us', e', _, h2, h3⟩ := C50_prefix (textStream_flatten cutLines) h cut_yields (.inl (by decide))
  exact ⟨hdr', us', e', h2, h3⟩

-- the last one can change
example : Yields (parse demoEnv (textStream (cutLines ++ [c!"\"e\""]))) (noHeader demoEnv) (results [unitAB (c!"a") (c!"b"), unitAB (c!"c") (c!"de")] none) :=
  yields_text (res := ⟨noHeader demoEnv, none, [unitAB (c!"a") (c!"b"), unitAB (c!"c") (c!"de")], none⟩) (by decide) (by rfl)

example : 2 * [unitAB (c!"a") (c!"b"), unitAB (c!"c") (c!"d")].length ≤ (rawLines (flatten (textStream cutLines))).length := C50_half cut_yields

end Verif
