import Verif.Spec.Forms
import Verif.Props.Chars
import Verif.Props.Merge

/-! C74: another `Plural-Forms` property. -/

namespace Verif
open Spec

/-- All indices of the items are below `k`. -/
def ItemsBelow (k : Nat) (l : List Item) : Prop := ∀ n p i s, .ok (.message n p (valueKeyword i) s) ∈ l → i < k

theorem valueFields_mem {o : Bool} {hi lo : Nat} {b : List PoLine} {vs : List Str} (h : ValueFields o hi lo b vs) {n : Nat} {p : Str} {i : Nat} {s : Str}
    (hm : .message n p (valueKeyword i) s ∈ b) : i < hi := by
  induction h with
  | nil => cases hm
  | @cons lo j b v bs vs h1 h2 h3 _ ih =>
    rcases List.mem_append.mp hm with hm | hm
    · obtain ⟨q, ⟨n', s', cs, rfl, _⟩, _⟩ := h3
      rcases List.mem_cons.mp hm with hm | hm
      · injection hm with _ _ hk _
        rw [valueKeyword_inj hk]
        exact h2
      · obtain ⟨c, _, hc⟩ := List.mem_map.mp hm
        cases hc
    · exact ih hm

theorem valueFields_below {o : Bool} {hi hi' lo : Nat} {b : List PoLine} {vs : List Str} (h : ValueFields o hi lo b vs)
    (hb : ∀ n p i s, .message n p (valueKeyword i) s ∈ b → i < hi') : ValueFields o hi' lo b vs := by
  induction h with
  | nil => exact .nil
  | @cons lo j b v bs vs h1 h2 h3 _ ih =>
    refine .cons h1 ?_ h3 (ih fun n p i s hm => hb n p i s (List.mem_append_right _ hm))
    obtain ⟨q, ⟨n', s', cs, rfl, _⟩, _⟩ := h3
    exact hb n' q j s' (List.mem_append_left _ (List.mem_cons_self ..))

theorem entry_reform {forms forms' : Option PluralForms} {b : List PoLine} {u : PoUnit} (h : Entry forms b u)
    (hb : ∀ n p i s, .message n p (valueKeyword i) s ∈ b → i < nplurals forms') : Entry forms' b (reform forms' u) := by
  obtain ⟨cs, b1, b2, b3, b4, b5, b6, b7, pid, ppl, id, idPl, rfl, f1, f2, f3, g3, f4, f5, f6, f7, f8, f9, f10⟩ := h
  refine ⟨cs, b1, b2, b3, b4, b5, b6, b7, pid, ppl, id, idPl, rfl, f1, f2, f3, g3, f4, f5, f6, ?_, ?_, ⟨f9.1, f9.2, f9.3, f9.4⟩, ⟨f10.1, ?_⟩⟩
  · show TextFields forms' u.obsolete id idPl b7 (reformMessage forms' u.message)
    generalize u.message = m at f7
    cases f7 with
    | simple h => exact .simple h
    | plural h hne => exact .plural (valueFields_below h fun n p i s hm => hb n p i s (by simp [hm])) hne
  · show reformMessage forms' u.prevMessage = _
    rw [f8]
    cases pid with
    | none => rfl
    | some i => cases ppl <;> rfl
  · have := f10.2
    show u.state = .final ↔ _ ∧ HasText (reformMessage forms' u.message)
    rw [this]
    cases u.message <;> exact Iff.rfl

theorem reform_source {forms' : Option PluralForms} {u : PoUnit} (h : HasSource u.message) : HasSource (reform forms' u).message := by
  show HasSource (reformMessage forms' u.message)
  cases hm : u.message with
  | simple id t => rw [hm] at h; exact h
  | plural p => trivial

theorem run_reform {forms forms' : Option PluralForms} {l : List Item} {us : List PoUnit} (h : Run forms l us none) (hb : ItemsBelow (nplurals forms') l) :
    Run forms' l (us.map (reform forms')) none := by
  generalize hx : (none : Option Err) = e at h
  induction h with
  | stop h =>
    subst hx
    cases h with
    | endsInHead h => exact .stop (.endsInHead h)
    | endsAfterIds h => exact .stop (.endsAfterIds h)
  | @entry block u rest us e h1 h2 h3 hr ih =>
    subst hx
    have he := entry_reform (forms' := forms') h1 (fun n p i s hm => hb n p i s (List.mem_append_left _ (List.mem_map_of_mem hm)))
    exact .entry he (reform_source h2) (endsHere_fresh he (run_fresh hr (.inr rfl))) (ih (fun n p i s hm => hb n p i s (List.mem_append_right _ hm)) rfl)

theorem head_no_value {o : Bool} {b : List PoLine} (h : EntryHead o b) {n : Nat} {p : Str} {i : Nat} {s : Str} : .message n p (valueKeyword i) s ∉ b := by
  intro hm
  have hk : valueKeyword i ∈ kws b := List.mem_filterMap.mpr ⟨_, hm, rfl⟩
  rcases kws_head h hk with h | h | h | h <;> exact absurd h.symm (not_valueKeyword (by decide) i)

theorem ids_no_value {o : Bool} {idPl : Option Str} {b : List PoLine} (h : EntryIds o idPl b) {n : Nat} {p : Str} {i : Nat} {s : Str} :
    .message n p (valueKeyword i) s ∉ b := by
  intro hm
  have hk : valueKeyword i ∈ kws b := List.mem_filterMap.mpr ⟨_, hm, rfl⟩
  exact (kws_ids h).2.2 _ (.inr ⟨i, rfl⟩) hk

theorem entry_indices {forms : Option PluralForms} {b : List PoLine} {u : PoUnit} (h : Entry forms b u) {n : Nat} {p : Str} {i : Nat} {s : Str}
    (hm : .message n p (valueKeyword i) s ∈ b) : i < nplurals forms := by
  obtain ⟨o, idPl, id, m, a, b7, bh, b5, b6, rfl, h1, h2, f5, f6, f7⟩ := entry_split.mp ⟨u, h⟩
  rcases List.mem_append.mp hm with hm | hm
  · exact absurd hm (ids_no_value ⟨_, _, _, _, h1, h2, f5, f6⟩)
  · cases f7 with
    | simple f =>
      have hk : valueKeyword i ∈ kws b7 := List.mem_filterMap.mpr ⟨_, hm, rfl⟩
      rw [kws_field f, List.mem_singleton] at hk
      exact absurd hk.symm (not_valueKeyword (by decide) i)
    | plural f _ => exact valueFields_mem f hm

theorem run_indices {forms : Option PluralForms} {l : List Item} {us : List PoUnit} (h : Run forms l us none) : ItemsBelow (nplurals forms) l := by
  generalize hx : (none : Option Err) = e at h
  induction h with
  | stop h =>
    subst hx
    intro n p i s hm
    cases h with
    | endsInHead h =>
      obtain ⟨ln, h1, h2⟩ := List.mem_map.mp hm
      cases h2
      exact absurd h1 (head_no_value h)
    | endsAfterIds h =>
      obtain ⟨ln, h1, h2⟩ := List.mem_map.mp hm
      cases h2
      exact absurd h1 (ids_no_value h)
  | @entry block u rest us e h1 h2 h3 hr ih =>
    intro n p i s hm
    rcases List.mem_append.mp hm with hm | hm
    · obtain ⟨ln, h4, h5⟩ := List.mem_map.mp hm
      cases h5
      exact entry_indices h1 h4
    · exact ih hx n p i s hm

theorem run_no_error {forms : Option PluralForms} {l : List Item} {us : List PoUnit} (h : Run forms l us none) (x : Err) : .error x ∉ l := by
  generalize hx : (none : Option Err) = e at h
  induction h with
  | stop h =>
    subst hx
    obtain ⟨b, rfl, _⟩ := stops_none h
    simp
  | entry _ _ _ _ ih =>
    have := ih hx
    simp [this]

theorem lineItems_below {k n : Nat} {rs : List (Except IoErr Str)} {l : List Item} (h : LineItems n rs l) (hb : IndicesBelow k rs) : ItemsBelow k l := by
  induction h with
  | nil => intro _ _ _ _ hm; cases hm
  | failed => intro _ _ _ _ hm; simp at hm
  | unrecognised => intro _ _ _ _ hm; simp at hm
  | blank _ _ ih => exact ih fun s m i raw hs hq => hb s m i raw (List.mem_cons_of_mem _ hs) hq
  | line hc _ _ ih =>
    intro n' p i s hm
    rcases List.mem_cons.mp hm with hm | hm
    · cases hm
      generalize hx : (some (PoLine.message n' p (valueKeyword i) s)) = x at hc
      cases hc with
      | keyword hq =>
        injection hx with hx
        injection hx with _ _ hk _
        unfold taggedKeyword at hk
        split at hk
        · simp [valueKeyword] at hk
        · rw [← hk] at hq
          exact hb _ _ _ _ (List.mem_cons_self ..) hq
      | _ => cases hx
    · exact ih (fun s m i raw hs hq => hb s m i raw (List.mem_cons_of_mem _ hs) hq) n' p i s hm

/-- The lines after the header, with the plural forms of the header. -/
theorem after_header {env : Env} {stream : List Event} {hd rs : List (Except IoErr Str)} {hdr : Header env.Lang} {us : List PoUnit} {e : Option Err}
    (h : rawLines (flatten stream) = hd ++ rs) (hh : HeaderLines hd) (hc : NoContinuation rs) (hy : Yields (parse env stream) hdr (results us e)) :
    ∃ forms, FormsRule env (hdr.properties.lookup (c!"Plural-Forms")) (.ok forms) ∧ Run forms (items (1 + hd.length) rs) us e := by
  obtain ⟨forms, us', e', hx, hr⟩ := yields_reads hy
  obtain ⟨rfl, rfl⟩ := results_inj hx
  rcases first_headerLines h hh hc with ⟨e0, hf⟩ | ⟨ns, cs, t, hf⟩
  · exact (not_rejects_reads (.first hf) hr).elim
  · cases hr with
    | nothing f => cases hf.unique f
    | plain f => cases hf.unique f
    | headed f _ hfr hrun =>
      cases hf.unique f
      exact ⟨_, hfr, hrun⟩

/-- **C74** Replace the header of an input that is read to its end without an error by another one that `parse` accepts.
If every index of a `msgstr[i]` line is below the new number of plural forms, the units are the old ones, with the
new plural forms in their plural messages, and there is still no error. -/
theorem C74_indices {env : Env} {stream stream' : List Event} {hd hd' rs : List (Except IoErr Str)} {hdr hdr' : Header env.Lang}
    {us us' : List PoUnit} {e' : Option Err} {forms' : Option PluralForms} (h : rawLines (flatten stream) = hd ++ rs)
    (h' : rawLines (flatten stream') = hd' ++ rs) (hh : HeaderLines hd) (hh' : HeaderLines hd') (hc : NoContinuation rs)
    (hy : Yields (parse env stream) hdr (results us none)) (hy' : Yields (parse env stream') hdr' (results us' e'))
    (hf' : FormsRule env (hdr'.properties.lookup (c!"Plural-Forms")) (.ok forms')) (hb : IndicesBelow (nplurals forms') rs) :
    us' = us.map (reform forms') ∧ e' = none := by
  have hn : ∀ s, .ok s ∈ rs → '\n' ∉ s := fun s hs => rawLines_no_nl (inp := flatten stream) (s := s) (by rw [h]; simp [hs])
  obtain ⟨f, _, hr⟩ := after_header h hh hc hy
  obtain ⟨f', hf2, hr'⟩ := after_header h' hh' hc hy'
  rw [formsRule_iff] at hf' hf2
  rw [hf'] at hf2
  cases hf2
  obtain ⟨e2, hr2, hs⟩ := run_renumber (m := hd'.length) hr
  cases sameEndAfter_none hs
  obtain ⟨rfl, rfl⟩ := (run_reform hr2 (lineItems_below (items_lineItems hn _) hb)).unique hr'
  exact ⟨rfl, rfl⟩

/-- **C74** In particular the number of plural forms can grow. -/
theorem C74_more {env : Env} {stream stream' : List Event} {hd hd' rs : List (Except IoErr Str)} {hdr hdr' : Header env.Lang}
    {us us' : List PoUnit} {e' : Option Err} {forms forms' : Option PluralForms} (h : rawLines (flatten stream) = hd ++ rs)
    (h' : rawLines (flatten stream') = hd' ++ rs) (hh : HeaderLines hd) (hh' : HeaderLines hd') (hc : NoContinuation rs)
    (hy : Yields (parse env stream) hdr (results us none)) (hy' : Yields (parse env stream') hdr' (results us' e'))
    (hf : FormsRule env (hdr.properties.lookup (c!"Plural-Forms")) (.ok forms))
    (hf' : FormsRule env (hdr'.properties.lookup (c!"Plural-Forms")) (.ok forms')) (hle : nplurals forms ≤ nplurals forms') :
    us' = us.map (reform forms') ∧ e' = none := by
  have hn : ∀ s, .ok s ∈ rs → '\n' ∉ s := fun s hs => rawLines_no_nl (inp := flatten stream) (s := s) (by rw [h]; simp [hs])
  obtain ⟨f, hf2, hr⟩ := after_header h hh hc hy
  obtain ⟨f', hf2', hr'⟩ := after_header h' hh' hc hy'
  rw [formsRule_iff] at hf hf2 hf' hf2'
  rw [hf] at hf2
  cases hf2
  rw [hf'] at hf2'
  cases hf2'
  obtain ⟨e2, hr2, hs⟩ := run_renumber (m := hd'.length) hr
  cases sameEndAfter_none hs
  have hb := run_indices hr2
  obtain ⟨rfl, rfl⟩ := (run_reform hr2 (fun n p i s hm => Nat.lt_of_lt_of_le (hb n p i s hm) hle)).unique hr'
  exact ⟨rfl, rfl⟩

/-- The indices of an input that is read without an error are below the number of plural forms of its header. -/
theorem indices_header {env : Env} {stream : List Event} {hd rs : List (Except IoErr Str)} {hdr : Header env.Lang} {us : List PoUnit}
    {forms : Option PluralForms} (h : rawLines (flatten stream) = hd ++ rs) (hh : HeaderLines hd) (hc : NoContinuation rs)
    (hy : Yields (parse env stream) hdr (results us none)) (hf : FormsRule env (hdr.properties.lookup (c!"Plural-Forms")) (.ok forms)) :
    IndicesBelow (nplurals forms) rs := by
  have hn : ∀ s, .ok s ∈ rs → '\n' ∉ s := fun s hs => rawLines_no_nl (inp := flatten stream) (s := s) (by rw [h]; simp [hs])
  obtain ⟨f, hf2, hr⟩ := after_header h hh hc hy
  rw [formsRule_iff] at hf hf2
  rw [hf] at hf2
  cases hf2
  intro s m i raw hs hq
  obtain ⟨n, hm⟩ := keyword_item (items_lineItems hn _) (run_no_error hr) hn hs hq
  have hb : '|' ∉ m.getD [] := by
    have hu := run_used hr rfl _ _ hm rfl
    intro hx
    unfold taggedKeyword at hu
    rw [if_pos hx] at hu
    unfold UsedKw valueKeyword at hu
    simp at hu
  unfold taggedKeyword at hm
  rw [if_neg hb] at hm
  exact run_indices hr _ _ _ _ hm

/-- **C74** And exactly then: if some index is not below the new number of plural forms, there is an error. -/
theorem C74_iff {env : Env} {stream stream' : List Event} {hd hd' rs : List (Except IoErr Str)} {hdr hdr' : Header env.Lang}
    {us us' : List PoUnit} {e' : Option Err} {forms' : Option PluralForms} (h : rawLines (flatten stream) = hd ++ rs)
    (h' : rawLines (flatten stream') = hd' ++ rs) (hh : HeaderLines hd) (hh' : HeaderLines hd') (hc : NoContinuation rs)
    (hy : Yields (parse env stream) hdr (results us none)) (hy' : Yields (parse env stream') hdr' (results us' e'))
    (hf' : FormsRule env (hdr'.properties.lookup (c!"Plural-Forms")) (.ok forms')) : e' = none ↔ IndicesBelow (nplurals forms') rs := by
  constructor
  · rintro rfl
    exact indices_header h' hh' hc hy' hf'
  · exact fun hb => (C74_indices h h' hh hh' hc hy hy' hf' hb).2

/-! ### Examples -/

/-- A plural entry with two texts. -/
def twoTexts : List Str := [c!"#: x.c:1", c!"msgid \"a\"", c!"msgid_plural \"b\"", c!"msgstr[0] \"c\"", c!"msgstr[1] \"d\""]

/-- Its unit. -/
def twoTextsUnit (forms : Option PluralForms) : PoUnit :=
  { PoUnit.default with message := .plural ⟨c!"a", c!"b", [c!"c", c!"d"], forms⟩, state := .final, locations := [c!"x.c:1"] }

theorem twoTexts_none : Yields (parse demoEnv (textStream (headLines (c!"X: y") ++ twoTexts))) ⟨[], [], [(c!"X", c!"y")], []⟩ (results [twoTextsUnit none] none) :=
  yields_text (env := demoEnv) (res := ⟨⟨[], [], [(c!"X", c!"y")], []⟩, none, [twoTextsUnit none], none⟩) (by decide) (by rfl)

/-- Three forms. -/
def threeForms : PluralForms := ⟨.binop .gt .var (.num 1), 3, c!"nplurals=3; plural=n>1;", c!"n>1"⟩

-- `C74_more`: no property and three forms
example (us' : List PoUnit) (e' : Option Err)
    (hy : Yields (parse demoEnv (textStream (headLines (c!"Plural-Forms: nplurals=3; plural=n>1;") ++ twoTexts)))
      ⟨[], [], [(c!"Plural-Forms", c!"nplurals=3; plural=n>1;")], []⟩ (results us' e')) :
    us' = [twoTextsUnit (some threeForms)] ∧ e' = none := by
  refine C74_more (hd := (headLines (c!"X: y")).map .ok) (hd' := (headLines (c!"Plural-Forms: nplurals=3; plural=n>1;")).map .ok) (rs := twoTexts.map .ok)
    (forms := none) ?_ ?_ (headerLines_demo _) (headerLines_demo _) (noContinuation_head (by decide) rfl) twoTexts_none hy ?_ ?_ (by decide)
  · rw [rawLines_text (by decide)]; rfl
  · rw [rawLines_text (by decide)]; rfl
  · exact (formsRule_iff _ _ _).mpr rfl
  · exact (formsRule_iff _ _ _).mpr rfl

-- it is read
example : Yields (parse demoEnv (textStream (headLines (c!"Plural-Forms: nplurals=3; plural=n>1;") ++ twoTexts)))
    ⟨[], [], [(c!"Plural-Forms", c!"nplurals=3; plural=n>1;")], []⟩ (results [twoTextsUnit (some threeForms)] none) :=
  yields_text (env := demoEnv) (res := ⟨⟨[], [], [(c!"Plural-Forms", c!"nplurals=3; plural=n>1;")], []⟩, some threeForms, [twoTextsUnit (some threeForms)], none⟩)
    (by decide) (by rfl)

-- `C74_iff`: with one form there is an error
example (us' : List PoUnit) (e' : Option Err)
    (hy : Yields (parse demoEnv (textStream (headLines (c!"Plural-Forms: nplurals=1; plural=0;") ++ twoTexts)))
      ⟨[], [], [(c!"Plural-Forms", c!"nplurals=1; plural=0;")], []⟩ (results us' e')) : e' ≠ none := by
  intro he
  have := (C74_iff (hd := (headLines (c!"X: y")).map .ok) (hd' := (headLines (c!"Plural-Forms: nplurals=1; plural=0;")).map .ok) (rs := twoTexts.map .ok)
    (forms' := some ⟨.num 0, 1, c!"nplurals=1; plural=0;", c!"0"⟩) (by rw [rawLines_text (by decide)]; rfl) (by rw [rawLines_text (by decide)]; rfl)
    (headerLines_demo _) (headerLines_demo _) (noContinuation_head (by decide) rfl) twoTexts_none hy ((formsRule_iff _ _ _).mpr rfl)).mp he
  have := this (c!"msgstr[1] \"d\"") none 1 (c!"d") (by simp [twoTexts])
    ⟨by simp, by intro k hk; cases hk; exact valueKeyword_keyword 1, [], [], [' '], [], by decide, by decide, by decide, by decide, rfl⟩
  exact absurd this (by decide)

-- what it gives
example : Yields (parse demoEnv (textStream (headLines (c!"Plural-Forms: nplurals=1; plural=0;") ++ twoTexts)))
    ⟨[], [], [(c!"Plural-Forms", c!"nplurals=1; plural=0;")], []⟩
    (results [{ PoUnit.default with message := .plural ⟨c!"a", c!"b", [c!"c"], some ⟨.num 0, 1, c!"nplurals=1; plural=0;", c!"0"⟩⟩, state := .final, locations := [c!"x.c:1"] }]
      (some (.parse 7 [] (c!"msgid")))) :=
  yields_text (env := demoEnv) (res := ⟨⟨[], [], [(c!"Plural-Forms", c!"nplurals=1; plural=0;")], []⟩, _, [_], some (.parse 7 [] (c!"msgid"))⟩) (by decide) (by rfl)

-- `C74_indices`: the indices 0 and 1 are below three
example := C74_indices (env := demoEnv) (hd := (headLines (c!"X: y")).map .ok) (hd' := (headLines (c!"Plural-Forms: nplurals=3; plural=n>1;")).map .ok) (rs := twoTexts.map .ok)
  (stream' := textStream (headLines (c!"Plural-Forms: nplurals=3; plural=n>1;") ++ twoTexts)) (forms' := some threeForms)
  (by rw [rawLines_text (by decide)]; rfl) (by rw [rawLines_text (by decide)]; rfl) (headerLines_demo _) (headerLines_demo _) (noContinuation_head (by decide) rfl) twoTexts_none
  (yields_text (env := demoEnv) (res := ⟨⟨[], [], [(c!"Plural-Forms", c!"nplurals=3; plural=n>1;")], []⟩, some threeForms, [twoTextsUnit (some threeForms)], none⟩)
    (by decide) (by rfl)) ((formsRule_iff _ _ _).mpr rfl)

end Verif
