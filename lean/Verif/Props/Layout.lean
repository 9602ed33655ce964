import Verif.Lemmas.Layout
import Verif.Lemmas.Renumber
import Verif.Props.Units

/-! C10, C11, C12, C41: the layout of an input does not matter; inputs one after the other. -/

namespace Verif
open Spec

/-- **C10, C11, C12** Inputs that differ only in blank lines, spacing inside lines and the layout of texts over continuation lines give the same header
data and units and the same error up to its line number. -/
theorem C10_layout (env : Env) {stream stream' : List Event} (h : Layout (rawLines (flatten stream)) (rawLines (flatten stream'))) :
    SameResults (parse env stream) (parse env stream') := layout_results env h

theorem layout_around {rs rs' : List (Except IoErr Str)} (h : Layout rs rs') (pre : List (Except IoErr Str)) : Layout (pre ++ rs) (pre ++ rs') := by
  induction pre with
  | nil => exact h
  | cons r pre ih =>
    cases r with
    | error e => exact .failed ih
    | ok s => exact .line (fun _ _ => Iff.rfl) (fun _ => rfl) ih

theorem quoted_kwLine {k : Str} (hk : IsKeyword k) (s : Str) : QuotedLine (kwLine k s) none (some k) (esc s) :=
  ⟨by simp, fun _ h => by cases h; exact hk, [], [], [' '], [], by decide, by decide, by decide, by decide, by simp [kwLine, markerText]⟩

theorem quoted_contLine (s : Str) : QuotedLine (contLine s) none none (esc s) :=
  ⟨by simp, by simp, [], [], [], [], by decide, by decide, by decide, by decide, by simp [contLine, markerText]⟩

/-- **C10** A text written on one line, or in any pieces over continuation lines, anywhere in an input: the same. -/
theorem C10_pieces (env : Env) {stream stream' : List Event} {k s s' : Str} {ps ps' : List Str} {pre post : List (Except IoErr Str)} (hk : IsKeyword k)
    (he : s ++ ps.flatten = s' ++ ps'.flatten)
    (h : rawLines (flatten stream) = pre ++ .ok (kwLine k s) :: (ps.map (fun p => .ok (contLine p)) ++ post))
    (h' : rawLines (flatten stream') = pre ++ .ok (kwLine k s') :: (ps'.map (fun p => .ok (contLine p)) ++ post)) :
    SameResults (parse env stream) (parse env stream') := by
  apply layout_results
  rw [h, h']
  apply layout_around
  have hm : ∀ ps : List Str, ps.map (fun p => (.ok (contLine p) : Except IoErr Str)) = (ps.map fun p => (contLine p, esc p)).map fun c => .ok c.1 := by
    intro ps; simp
  have hf : ∀ ps : List Str, (ps.map fun p => (contLine p, esc p)).flatMap (fun c => unesc c.2) = ps.flatten := by
    intro ps
    induction ps with
    | nil => rfl
    | cons p ps ih =>
      rw [List.map_cons, List.flatMap_cons, ih, unesc_esc_eq]
      rfl
  rw [hm, hm]
  refine .field (m := none) (k := k) (quoted_kwLine hk s) (quoted_kwLine hk s') ?_ ?_ ?_ (Layout.refl post)
  · intro c hc; obtain ⟨p, _, rfl⟩ := List.mem_map.mp hc; exact quoted_contLine p
  · intro c hc; obtain ⟨p, _, rfl⟩ := List.mem_map.mp hc; exact quoted_contLine p
  · rw [hf, hf, unesc_esc_eq, unesc_esc_eq, he]

theorem layout_notBlank (rs : List (Except IoErr Str)) : ∀ rs' : List (Except IoErr Str), rs.filter notBlank = rs'.filter notBlank → Layout rs rs' := by
  induction rs with
  | nil =>
    intro rs' h
    induction rs' with
    | nil => exact .nil
    | cons r rs' ih =>
      rw [List.filter_cons] at h
      split at h
      · cases h
      · rename_i hb
        cases r with
        | error e => exact absurd rfl hb
        | ok s =>
          simp only [notBlank, Bool.not_eq_true', decide_eq_false_iff_not, Classical.not_not] at hb
          exact .blankRight hb (ih h)
  | cons r rs ih =>
    intro rs' h
    by_cases hr : notBlank r = true
    · rw [List.filter_cons, if_pos hr] at h
      induction rs' with
      | nil => cases h
      | cons r' rs' ih' =>
        by_cases hr' : notBlank r' = true
        · rw [List.filter_cons, if_pos hr'] at h
          injection h with h1 h2
          subst h1
          cases r with
          | error e => exact .failed (ih rs' h2)
          | ok s => exact .line (fun _ _ => Iff.rfl) (fun _ => rfl) (ih rs' h2)
        · rw [List.filter_cons, if_neg hr'] at h
          cases r' with
          | error e => exact absurd rfl hr'
          | ok s =>
            simp only [notBlank, Bool.not_eq_true', decide_eq_false_iff_not, Classical.not_not] at hr'
            exact .blankRight hr' (ih' h)
    · rw [List.filter_cons, if_neg hr] at h
      cases r with
      | error e => exact absurd rfl hr
      | ok s =>
        simp only [notBlank, Bool.not_eq_true', decide_eq_false_iff_not, Classical.not_not] at hr
        exact .blankLeft hr (ih rs' h)

theorem forms_noLine {env : Env} {s : Str} {e : Err} (h : FormsError env s e) (k : Nat) : ¬ AtLine e k := by
  intro hk
  cases h <;> cases hk <;> contradiction

/-- **C11** Inputs with the same lines apart from blank ones give the same header data and units, and the same error at the same line. -/
theorem C11_blank (env : Env) {stream stream' : List Event}
    (h : (rawLines (flatten stream)).filter notBlank = (rawLines (flatten stream')).filter notBlank) :
    SameResultsAt (SamePlace (rawLines (flatten stream)) (rawLines (flatten stream'))) (parse env stream) (parse env stream') := by
  have hP : ∀ {k k'}, SamePlace (rawLines (flatten stream)) (rawLines (flatten stream')) k k' → 1 ≤ k ∧ 1 ≤ k' := fun h => ⟨h.1, h.2.1⟩
  have hi : ItemsAt (SamePlace (rawLines (flatten stream)) (rawLines (flatten stream'))) (streamItems stream) (streamItems stream') := by
    rw [streamItems_code, streamItems_code]
    exact items_blank _ _ [] [] rfl h
  rcases layout_results env (layout_notBlank _ _ h) with ⟨e, e', h1, h2, _⟩ | ⟨hdr, us, e, e', h1, h2, _⟩
  · obtain ⟨e2, h3, h4⟩ := rejects_moved hP (fails_rejects h1) hi
    obtain rfl := (fails_rejects h2).unique h3
    refine .inl ⟨e, _, h1, h2, ?_⟩
    rcases h4 with h4 | ⟨h4, s, h5⟩
    · exact .inl h4
    · exact .inr ⟨h4, forms_noLine h5⟩
  · obtain ⟨f, us1, e1, hx, hr⟩ := yields_reads h1
    obtain ⟨rfl, rfl⟩ := results_inj hx
    obtain ⟨f', us2, e2, hx', hr'⟩ := yields_reads h2
    obtain ⟨rfl, rfl⟩ := results_inj hx'
    obtain ⟨e3, h3, h4⟩ := reads_moved hP hr hi
    obtain ⟨_, _, _, rfl⟩ := hr'.unique h3
    exact .inr ⟨hdr, us, e, _, h1, h2, h4⟩

/-! ### C41 -/

/-- The items do not go on with the entry before them: there are none, or the first is a comment line or a keyword line without text keyword. -/
def FreshStart (l : List Item) : Prop :=
  l = [] ∨ ∃ ln tl, l = .ok ln :: tl ∧ (IsComment ln ∨ ∃ n p k s, ln = .message n p k s ∧ ∀ j, k ≠ valueKeyword j)

theorem entryEnd_fresh {forms : Option PluralForms} {u : PoUnit} {block : List PoLine} {l : List Item} (h : FreshStart l) : EntryEnd forms u block l := by
  rcases h with rfl | ⟨ln, tl, rfl, ⟨c, rfl⟩ | ⟨n, p, k, s, rfl, hk⟩⟩
  · exact ⟨by simp [NoErr], trivial⟩
  · exact ⟨by simp [NoErr], trivial⟩
  · exact ⟨by simp [NoErr], fun _ _ j _ hj => absurd hj (hk j)⟩

theorem endsHere_append {forms : Option PluralForms} {block : List PoLine} {u : PoUnit} {rest l : List Item} (h : Entry forms block u)
    (hr : EndsHere forms block rest) (hl : FreshStart l) : EndsHere forms block (rest ++ l) := by
  rcases hr with rfl | ⟨ln, tl, rfl, hp⟩
  · rw [List.nil_append]; exact (ends_iff h).mpr (entryEnd_fresh hl)
  · exact .inr ⟨ln, tl ++ l, rfl, hp⟩

theorem after_append {forms : Option PluralForms} {l1 l2 : List Item} {us : List PoUnit} (h : After forms l1 us []) (hl : FreshStart l2) :
    After forms (l1 ++ l2) us l2 := by
  generalize hx : ([] : List Item) = x at h
  induction h with
  | refl => subst hx; exact .refl
  | entry h1 h2 h3 _ ih =>
    rw [List.append_assoc]
    exact .entry h1 h2 (endsHere_append h1 h3 hl) (ih hx)

theorem after_ne {forms : Option PluralForms} {l : List Item} {us : List PoUnit} (h : After forms l us []) (hu : us ≠ []) : l ≠ [] := by
  cases h with
  | refl => exact absurd rfl hu
  | @entry block u rest us _ h1 h2 h3 h4 =>
    obtain ⟨x, hx, _⟩ := h1.hasKeyword
    intro he
    rw [List.append_eq_nil_iff, List.map_eq_nil_iff] at he
    rw [he.1] at hx
    cases hx

theorem progress_append {env : Env} {l1 l2 : List Item} {hdr : Header env.Lang} {forms : Option PluralForms} {us : List PoUnit}
    (h : Progress env l1 false hdr forms us []) (hu : us ≠ []) (hl : FreshStart l2) : Progress env (l1 ++ l2) false hdr forms us l2 := by
  cases h with
  | plain f a =>
    obtain ⟨block, rfl, h1, h2, h3⟩ := first_unit f
    refine .plain ?_ (after_append a hl)
    rw [List.append_assoc]
    exact .unit h1 h2 (endsHere_append h1 h3 hl)
  | headed f r1 r2 a =>
    refine .headed ?_ r1 r2 (after_append a hl)
    cases f with
    | header h1 h2 h3 =>
      rw [List.append_assoc]
      exact .header h1 h2 (endsHere_append h1 h3 hl)
    | noId h1 h2 h3 =>
      rw [List.append_assoc]
      refine .noId h1 ?_ ?_
      · exact .inl (by simp [after_ne a hu])
      · rcases h3 with rfl | ⟨ln, tl, rfl, hp⟩
        · exact absurd rfl (after_ne a hu)
        · exact .inr ⟨ln, tl ++ l2, rfl, hp⟩

theorem progress_ok {env : Env} {l : List Item} {hdr : Header env.Lang} {forms : Option PluralForms} {us : List PoUnit} {st : Bool}
    (h : Progress env l st hdr forms us []) : ∃ b : List PoLine, l = b.map .ok := by
  have key : ∀ {forms us rest}, After forms rest us [] → ∃ b : List PoLine, rest = b.map .ok := by
    intro forms us rest a
    obtain ⟨bs, h1, _⟩ := a.blocks
    exact ⟨_, by simpa using h1⟩
  cases h with
  | start => exact ⟨[], rfl⟩
  | plain f a =>
    obtain ⟨b, rfl⟩ := key a
    obtain ⟨block, rfl, _⟩ := first_unit f
    exact ⟨block ++ b, by simp⟩
  | headed f _ _ a =>
    obtain ⟨b, rfl⟩ := key a
    obtain ⟨block, rfl⟩ := first_header f
    exact ⟨block ++ b, by simp⟩

theorem items_append {n : Nat} {rs rs' : List (Except IoErr Str)} (h : ∀ e, .error e ∉ items n rs) :
    items n (rs ++ rs') = items n rs ++ items (n + rs.length) rs' := by
  induction rs generalizing n with
  | nil => simp [items]
  | cons r rs ih =>
    cases r with
    | error e => exact absurd (by simp [items]) (h (.io n e))
    | ok s =>
      rw [List.cons_append]
      simp only [items] at h ⊢
      rw [show n + (Except.ok s :: rs : List (Except IoErr Str)).length = n + 1 + rs.length from by simp; omega]
      cases hp : parseLine s n with
      | none => rw [hp] at h; exact absurd (by simp) (h (.parse (n + 1) s []))
      | some ln =>
        rw [hp] at h
        cases ln <;> first
          | exact ih h
          | (simp only at h ⊢
             rw [ih fun e he => h e (List.mem_cons_of_mem _ he)]
             rfl)

/-- **C41** Two inputs one after the other: the lines of the first end right after a unit, the second starts with a comment line or a keyword line that
is not `msgstr[j]`.  The result is the units of the first, then those that the second gives with the plural forms of the first, then the error of the second, with
the number of lines of the first added to its number. -/
theorem C41_concat {env : Env} {s1 s2 s12 : List Event} {hdr : Header env.Lang} {forms : Option PluralForms} {us1 us2 : List PoUnit} {e2 : Option Err}
    (h12 : rawLines (flatten s12) = rawLines (flatten s1) ++ rawLines (flatten s2)) (h1 : Progress env (streamItems s1) false hdr forms us1 [])
    (hu : us1 ≠ []) (h2 : Run forms (streamItems s2) us2 e2) (hf : FreshStart (streamItems s2)) :
    ∃ hdr', SameHeader hdr' hdr ∧ Yields (parse env s12) hdr' (results (us1 ++ us2) (e2.map (later (rawLines (flatten s1)).length))) := by
  obtain ⟨b, hb⟩ := progress_ok h1
  have hi : streamItems s12 = streamItems s1 ++ items (1 + (rawLines (flatten s1)).length) (rawLines (flatten s2)) := by
    rw [streamItems_code, streamItems_code, h12, items_append]
    intro e he
    rw [← streamItems_code, hb] at he
    simp at he
  have hn : ∀ s, .ok s ∈ rawLines (flatten s2) → '\n' ∉ s := fun _ hs => rawLines_no_nl hs
  rw [streamItems_code s2] at h2 hf
  have hr := run_later (d := (rawLines (flatten s1)).length) (Nat.le_refl 1) h2
  have hf' : FreshStart (items (1 + (rawLines (flatten s1)).length) (rawLines (flatten s2))) := by
    have hs := layout_sameText (Layout.refl _) hn hn (items_lineItems hn 1) (items_lineItems hn (1 + (rawLines (flatten s1)).length))
    rcases hf with hf | ⟨ln, tl, hf, hc⟩
    · rw [show items 1 (rawLines (flatten s2)) = [] from hf] at hs
      left
      generalize items _ _ = l' at hs
      cases hs
      rfl
    · rw [show items 1 (rawLines (flatten s2)) = .ok ln :: tl from hf] at hs
      generalize items (1 + (rawLines (flatten s1)).length) _ = l' at hs
      cases hs with
      | comment h => exact .inr ⟨_, _, rfl, .inl ⟨(_, _, _), rfl⟩⟩
      | stray h =>
        rcases hc with ⟨c, hc⟩ | ⟨n, p, k, s, hc, _⟩ <;> cases hc
      | field h3 h4 h5 =>
        rcases hc with ⟨c, hc⟩ | ⟨n, p, k, s, hc, hk⟩
        · cases hc
        · cases hc
          exact .inr ⟨_, _, rfl, .inr ⟨_, _, _, _, rfl, hk⟩⟩
  have hp := progress_append h1 hu hf'
  rw [← hi] at hp
  obtain ⟨hdr', hh, hy⟩ := reads_yields (hp.reads hr)
  exact ⟨hdr', hh, hy⟩

theorem optField_first {kw : Str} {o : Bool} {b : List PoLine} {v : Option Str} (h : OptField kw o b v) :
    b = [] ∨ ∃ n p s b', b = .message n p kw s :: b' := by
  cases h with
  | none => exact .inl rfl
  | some h => obtain ⟨p, ⟨n, s, cs, rfl, _⟩, _⟩ := h; exact .inr ⟨_, _, _, _, rfl⟩

theorem not_valueKeyword {k : Str} (h : k.take 7 ≠ c!"msgstr[") (j : Nat) : k ≠ valueKeyword j := by
  rintro rfl
  exact h (by simp [valueKeyword])

/-- An entry, or the beginning of one with its id, starts freshly. -/
theorem fresh_ids {o : Bool} {bh b5 : List PoLine} {id : Str} (h : EntryHead o bh) (f5 : Field (c!"msgid") o b5 id) (l : List Item) :
    FreshStart (bh.map .ok ++ (b5.map .ok ++ l)) := by
  obtain ⟨cs, b1, b2, b3, b4, pc, pid, ppl, ctx, rfl, f1, f2, f3, g3, f4⟩ := h
  right
  cases cs with
  | cons c cs => exact ⟨_, _, rfl, .inl ⟨c, rfl⟩⟩
  | nil =>
    rcases optField_first f1 with rfl | ⟨n, p, s, b', rfl⟩
    · rcases optField_first f2 with rfl | ⟨n, p, s, b', rfl⟩
      · rcases optField_first f3 with rfl | ⟨n, p, s, b', rfl⟩
        · rcases optField_first f4 with rfl | ⟨n, p, s, b', rfl⟩
          · rcases optField_first (.some f5) with rfl | ⟨n, p, s, b', rfl⟩
            · obtain ⟨p, f5, _⟩ := f5; exact absurd rfl f5.ne_nil
            · exact ⟨_, _, rfl, .inr ⟨_, _, _, _, rfl, not_valueKeyword (by decide)⟩⟩
          · exact ⟨_, _, rfl, .inr ⟨_, _, _, _, rfl, not_valueKeyword (by decide)⟩⟩
        · exact ⟨_, _, rfl, .inr ⟨_, _, _, _, rfl, not_valueKeyword (by decide)⟩⟩
      · exact ⟨_, _, rfl, .inr ⟨_, _, _, _, rfl, not_valueKeyword (by decide)⟩⟩
    · exact ⟨_, _, rfl, .inr ⟨_, _, _, _, rfl, not_valueKeyword (by decide)⟩⟩

theorem fresh_first {l : List Item} {out : FirstOut} (h : First l out) (ho : out = .nothing ∨ ∃ u rest, out = .unit u rest) : FreshStart l := by
  cases h with
  | @unit block u rest h1 h2 h3 =>
    obtain ⟨o, idPl, id, m, b, b7, bh, b5, b6, rfl, rfl, h, f5, f6, f7⟩ := entry_split.mp ⟨u, h1⟩
    have := fresh_ids h f5 ((b6 ++ b7).map .ok ++ rest)
    simpa using this
  | @comments block h =>
    obtain ⟨ds, rfl⟩ := all_comments h
    cases ds with
    | nil => exact .inl rfl
    | cons d ds => exact .inr ⟨_, _, rfl, .inl ⟨d, rfl⟩⟩
  | cut h =>
    obtain ⟨b, b5, b6, id, rfl, h, f5, f6⟩ := h
    have := fresh_ids h f5 (b6.map .ok)
    simpa using this
  | _ => rcases ho with h | ⟨_, _, h⟩ <;> cases h

/-- Entries without plural messages do not depend on the plural forms. -/
theorem entry_noPlural {forms forms' : Option PluralForms} {block : List PoLine} {u : PoUnit} (h : Entry forms block u) (hp : NoPlural u) :
    Entry forms' block u := by
  obtain ⟨cs, b1, b2, b3, b4, b5, b6, b7, pid, ppl, id, idPl, rfl, f1, f2, f3, g3, f4, f5, f6, f7, f8, f9⟩ := h
  refine ⟨cs, b1, b2, b3, b4, b5, b6, b7, pid, ppl, id, idPl, rfl, f1, f2, f3, g3, f4, f5, f6, ?_, ?_, f9⟩
  · obtain ⟨hp, _⟩ := hp
    generalize u.message = m at f7 hp
    cases f7 with
    | simple h => exact .simple h
    | plural h => exact absurd rfl (hp _)
  · obtain ⟨_, hp⟩ := hp
    rw [f8] at hp ⊢
    cases pid with
    | none => rfl
    | some i =>
      cases ppl with
      | none => rfl
      | some p => exact absurd rfl (hp _)

theorem ends_forms {forms forms' : Option PluralForms} {block : List PoLine} {u : PoUnit} {rest : List Item} (h : Entry forms block u) (hp : NoPlural u)
    (he : EndsHere forms block rest) : EndsHere forms' block rest := by
  rw [ends_iff (entry_noPlural h hp)]
  rw [ends_iff h] at he
  refine ⟨he.1, ?_⟩
  have := he.2
  unfold EndsBefore at this ⊢
  split at this
  · exact this
  · rintro ⟨x, hx⟩; exact absurd hx (hp.1 x)
  · trivial

theorem run_forms {forms forms' : Option PluralForms} {l : List Item} {us : List PoUnit} (h : Run forms l us none) (hp : ∀ u ∈ us, NoPlural u) :
    Run forms' l us none := by
  generalize hx : (none : Option Err) = e at h
  induction h with
  | stop h =>
    subst hx
    cases h with
    | endsInHead h => exact .stop (.endsInHead h)
    | endsAfterIds h => exact .stop (.endsAfterIds h)
  | entry h1 h2 h3 _ ih =>
    have h4 := hp _ (List.mem_cons_self ..)
    exact .entry (entry_noPlural h1 h4) h2 (ends_forms h1 h4 h3) (ih (fun u hu => hp u (List.mem_cons_of_mem _ hu)) hx)

/-- **C41** In terms of what a user sees: the first input ends right after a unit; the second has no header, and either the first has no plural forms, or the
second ends without error and without plural messages.  Then reading the lines of both gives the units of the first, then those of the second. -/
theorem C41_catalogues {env : Env} {s1 s2 s12 : List Event} {hdr hdr2 : Header env.Lang} {forms : Option PluralForms} {us1 us2 : List PoUnit} {e2 : Option Err}
    (h12 : rawLines (flatten s12) = rawLines (flatten s1) ++ rawLines (flatten s2)) (h1 : Progress env (streamItems s1) false hdr forms us1 [])
    (hu : us1 ≠ []) (h2 : Yields (parse env s2) hdr2 (results us2 e2)) (hn : ∀ ns cs t rest, ¬ First (streamItems s2) (.header ns cs t rest))
    (hf : forms = none ∨ (e2 = none ∧ ∀ u ∈ us2, NoPlural u)) :
    ∃ hdr', SameHeader hdr' hdr ∧ Yields (parse env s12) hdr' (results (us1 ++ us2) (e2.map (later (rawLines (flatten s1)).length))) := by
  obtain ⟨forms2, us', e', hx, hr⟩ := yields_reads h2
  obtain ⟨rfl, rfl⟩ := results_inj hx
  have key : Run none (streamItems s2) us2 e2 ∧ FreshStart (streamItems s2) := by
    cases hr with
    | nothing f => exact ⟨.stop (first_nothing f), fresh_first f (.inl rfl)⟩
    | plain f r =>
      refine ⟨?_, fresh_first f (.inr ⟨_, _, rfl⟩)⟩
      obtain ⟨block, hb, h3, h4, h5⟩ := first_unit f
      rw [hb]
      exact .entry h3 h4 h5 r
    | headed f => exact absurd f (hn _ _ _ _)
  refine C41_concat h12 h1 hu ?_ key.2
  rcases hf with rfl | ⟨rfl, hp⟩
  · exact key.1
  · exact run_forms key.1 hp

/-! ### Concrete cases -/

/-- **C07, witness**: a translator comment that is only a quoted text goes into the translation before it. -/
theorem C07_absorbed : Yields (parse demoEnv (textStream [c!"msgid \"a\"", c!"msgstr \"b\"", c!"# \"c\""])) (noHeader demoEnv)
    (results [{ PoUnit.default with message := .simple (c!"a") (some (c!"bc")), state := .final }] none) :=
  yields_text (res := ⟨noHeader demoEnv, none, [{ PoUnit.default with message := .simple (c!"a") (some (c!"bc")), state := .final }], none⟩) (by decide) (by rfl)

theorem rawLines_text {ls : List Str} (h : ∀ l ∈ ls, CleanLine l) : rawLines (flatten (textStream ls)) = ls.map .ok := by
  rw [textStream_flatten, rawLines_rendering (rendering_lf h)]

-- a text cut into three lines, inside an escape-prone place, against one line
example : SameResults (parse demoEnv (textStream [c!"# note", c!"msgid \"a\"", c!"msgstr \"\"", c!"\"x\\\\\"", c!"\"n\"", c!"garbage"]))
    (parse demoEnv (textStream [c!"# note", c!"msgid \"a\"", c!"msgstr \"x\\\\n\"", c!"garbage"])) :=
  C10_pieces demoEnv (k := c!"msgstr") (s := []) (s' := c!"x\\n") (ps := [c!"x\\", c!"n"]) (ps' := []) (pre := [.ok (c!"# note"), .ok (c!"msgid \"a\"")])
    (post := [.ok (c!"garbage")]) (by simp [IsKeyword]) (by decide) (by rw [rawLines_text (by decide)]; rfl) (by rw [rawLines_text (by decide)]; rfl)

-- blank lines (spaces and tabs count as blank) before, inside and after an entry
example : SameResultsAt (SamePlace ([c!"", c!"msgid \"a\"", c!" \t", c!"\"b\"", c!"garbage", c!""].map .ok) ([c!"msgid \"a\"", c!"\"b\"", c!"garbage"].map .ok))
    (parse demoEnv (textStream [c!"", c!"msgid \"a\"", c!" \t", c!"\"b\"", c!"garbage", c!""]))
    (parse demoEnv (textStream [c!"msgid \"a\"", c!"\"b\"", c!"garbage"])) := by
  have := C11_blank demoEnv (stream := textStream [c!"", c!"msgid \"a\"", c!" \t", c!"\"b\"", c!"garbage", c!""])
    (stream' := textStream [c!"msgid \"a\"", c!"\"b\"", c!"garbage"]) (by rw [rawLines_text (by decide), rawLines_text (by decide)]; rfl)
  rw [rawLines_text (by decide), rawLines_text (by decide)] at this
  exact this

-- the fifth line of one is the third of the other, and no other line is
example (k : Nat) : SamePlace ([c!"", c!"msgid \"a\"", c!" \t", c!"\"b\"", c!"garbage", c!""].map .ok) ([c!"msgid \"a\"", c!"\"b\"", c!"garbage"].map .ok) 5 k ↔ k = 3 := by
  constructor
  · rintro ⟨_, h1, h2, r, _, h3, h4⟩
    cases h3
    match k, h1 with
    | 1, _ => revert h4; simp
    | 2, _ => revert h4; simp
    | 3, _ => rfl
    | k + 4, _ => revert h4; simp
  · rintro rfl
    exact ⟨by omega, by omega, rfl, _, rfl, rfl, rfl⟩

/-- A catalogue without header: one unit, then an entry cut off by an unrecognised line. -/
def demoLines' : List Str := [c!"msgid \"a\"", c!"msgstr \"b\"", c!"", c!"msgid \"c\"", c!"garbage"]

/-- A simple unit. -/
def unitAB (a b : Str) : PoUnit := { PoUnit.default with message := .simple a (some b), state := .final }

/-- The lines of a catalogue with header and one unit. -/
def firstLines : List Str := [c!"msgid \"\"", c!"msgstr \"Language: fr\"", c!"", c!"msgid \"a\"", c!"msgstr \"b\""]

-- two catalogues; the second ends with an error, whose line number is shifted
example : Yields (parse demoEnv (textStream (firstLines ++ demoLines'))) ⟨[], [], [(c!"Language", c!"fr")], c!"fr"⟩
      (results [unitAB (c!"a") (c!"b"), unitAB (c!"a") (c!"b")] (some (.parse 11 (c!"garbage") []))) ∧
    Yields (parse demoEnv (textStream demoLines')) (noHeader demoEnv) (results [unitAB (c!"a") (c!"b")] (some (.parse 6 (c!"garbage") []))) :=
  ⟨yields_text (env := demoEnv) (ls := firstLines ++ demoLines') (res := ⟨⟨[], [], [(c!"Language", c!"fr")], c!"fr"⟩, none, [unitAB (c!"a") (c!"b"), unitAB (c!"a") (c!"b")], some (.parse 11 (c!"garbage") [])⟩) (by decide) (by rfl),
   yields_text (res := ⟨noHeader demoEnv, none, [unitAB (c!"a") (c!"b")], some (.parse 6 (c!"garbage") [])⟩) (by decide) (by rfl)⟩

-- the same by `C41_catalogues`
example : ∃ hdr', SameHeader hdr' ⟨[], [], [(c!"Language", c!"fr")], c!"fr"⟩ ∧
    Yields (parse demoEnv (textStream (firstLines ++ demoLines'))) hdr'
      (results ([unitAB (c!"a") (c!"b")] ++ [unitAB (c!"a") (c!"b")]) (some (.parse 11 (c!"garbage") []))) := by
  rw [show some (.parse 11 (c!"garbage") []) = (some (Err.parse 6 (c!"garbage") [])).map (later (rawLines (flatten (textStream firstLines))).length) by
    rw [rawLines_text (by decide)]; rfl]
  have hi : streamItems (textStream firstLines) = ([.message 1 [] (c!"msgid") [], .message 2 [] (c!"msgstr") (c!"Language: fr")].map .ok ++
      ([.message 4 [] (c!"msgid") (c!"a"), .message 5 [] (c!"msgstr") (c!"b")].map .ok ++ []) : List Item) := by
    rw [streamItems_text _ (by decide)]; rfl
  have e1 := entry_plain none 1 2 [] (c!"Language: fr")
  have e2 := entry_plain none 4 5 (c!"a") (c!"b")
  refine C41_catalogues (s1 := textStream firstLines) (s2 := textStream demoLines') (forms := none) ?_ ?_ (by simp) ?_ ?_ (.inl rfl) (hdr2 := noHeader demoEnv)
  · rw [rawLines_text (by decide), rawLines_text (by decide), rawLines_text (by decide)]; rfl
  · have hf : First (streamItems (textStream firstLines)) (.header [] [] (c!"Language: fr") ([.message 4 [] (c!"msgid") (c!"a"), .message 5 [] (c!"msgstr") (c!"b")].map .ok ++ [])) := by
      rw [hi]
      refine .header e1 (t := some (c!"Language: fr")) rfl ((ends_iff e1).mpr (entryEnd_fresh (.inr ⟨_, _, rfl, .inr ⟨_, _, _, _, rfl, not_valueKeyword (by decide)⟩⟩)))
    exact .headed hf (headerRule_text demoEnv _ _ _) .absent (.entry e2 (by decide : c!"a" ≠ []) (.inl rfl) .refl)
  · exact yields_text (res := ⟨noHeader demoEnv, none, [unitAB (c!"a") (c!"b")], some (.parse 6 (c!"garbage") [])⟩) (by decide) (by rfl)
  · intro ns cs t rest hf
    rw [streamItems_text _ (by decide)] at hf
    rw [first_iff (items_noBlank _ _)] at hf
    rw [show firstOut (entry none true (items 1 (demoLines'.map .ok))) = .unit (unitAB (c!"a") (c!"b")) _ from rfl] at hf
    cases hf

end Verif
