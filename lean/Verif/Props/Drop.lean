import Verif.Props.Counting

/-! C54: a header without `Plural-Forms` can be left out and put in front. -/

namespace Verif
open Spec

/-- A header without text has no properties. -/
theorem headerRule_empty {env : Env} {ns : List Note} {cs : List Comment} {hdr : Header env.Lang} (h : HeaderRule env ns cs [] hdr) (k : Str) :
    hdr.properties.lookup k = none := by
  have hl : IsLines [] [[]] := ⟨by simp, by simp, rfl⟩
  have hv : Values k [[]] [] := by
    refine .miss ?_ .nil
    rintro v ⟨a, b, h, _⟩
    simp at h
  rw [h.properties _ hl k [] hv, if_pos rfl]

/-- Lines that end in an entry give nothing, at the beginning too. -/
theorem reads_tail {env : Env} {forms : Option PluralForms} {l : List Item} (h : Stops forms l none) : ∃ hdr, Reads env l hdr none [] none := by
  obtain ⟨b, hb, hx⟩ := stops_none h
  subst hb
  clear h
  by_cases hc : ∀ ln ∈ b, IsComment ln
  · exact ⟨_, .nothing (.comments hc)⟩
  · rcases hx with h | ⟨o, idPl, h⟩
    · have hx : ∃ ln ∈ b, ¬ IsComment ln := by
        apply Classical.byContradiction
        intro hn
        exact hc fun ln hm => Classical.byContradiction fun hi => hn ⟨ln, hm, hi⟩
      have hf := First.noId (rest := []) (.inl h) (.inr hx) (.inl rfl)
      rw [List.append_nil] at hf
      have hr := headerRule_text env (notesOf b) (commentsOf b) []
      refine ⟨_, .headed hf hr ?_ (.stop ?_)⟩
      · rw [headerRule_empty hr]
        exact .absent
      · exact .endsInHead (block := []) (o := false) ⟨[], [], [], [], [], none, none, none, none, rfl, .none, .none, .none, fun _ => rfl, .none⟩
    · exact ⟨_, .nothing (.cut h)⟩

/-- **C54** A header without `Plural-Forms` can be left out: if its input gives at least one unit, or no error, then the input that consists of the lines after
the header is accepted as well and gives the same units, then the same error with the number of lines of the header subtracted. -/
theorem C54_without {env : Env} {stream stream' : List Event} {hd rs : List (Except IoErr Str)} {hdr : Header env.Lang} {us : List PoUnit} {e : Option Err}
    (h : rawLines (flatten stream) = hd ++ rs) (h' : rawLines (flatten stream') = rs) (hh : HeaderLines hd) (hc : NoContinuation rs)
    (hy : Yields (parse env stream) hdr (results us e))
    (hp : hdr.properties.lookup (c!"Plural-Forms") = none ∨ hdr.properties.lookup (c!"Plural-Forms") = some []) (hs : us ≠ [] ∨ e = none) :
    ∃ hdr' e', Yields (parse env stream') hdr' (results us e') ∧ e = e'.map (later hd.length) ∧ (us ≠ [] → SameHeader hdr' (plainHeader env)) := by
  obtain ⟨forms, hf, hr⟩ := after_header h hh hc hy
  have : forms = none := by
    rw [formsRule_iff] at hf
    rcases hp with hp | hp <;> rw [hp] at hf
    · rw [(formsRule_iff env none (.ok none)).mp .absent] at hf
      cases hf
      rfl
    · rw [(formsRule_iff env (some []) (.ok none)).mp .empty] at hf
      cases hf
      rfl
  subst this
  obtain ⟨e', hr', he⟩ := run_renumber (m := 0) hr
  rw [Nat.add_zero] at hr'
  have hi : streamItems stream' = items 1 rs := by rw [streamItems_code, h']
  cases us with
  | nil =>
    rcases hs with hs | rfl
    · exact absurd rfl hs
    · cases sameEndAfter_none he
      generalize hl : items 1 rs = l at hr'
      cases hr' with
      | stop hst =>
        obtain ⟨hdr1, hrd⟩ := reads_tail (env := env) hst
        rw [← hl, ← hi] at hrd
        obtain ⟨hdr2, _, hy2⟩ := reads_yields hrd
        exact ⟨hdr2, none, hy2, rfl, fun h => absurd rfl h⟩
  | cons u us =>
    generalize hl : items 1 rs = l at hr'
    cases hr' with
    | entry h1 h2 h3 hrest =>
      have hrd : Reads env (streamItems stream') (plainHeader env) none (u :: us) e' := by
        rw [hi, hl]
        exact .plain (.unit h1 h2 h3) hrest
      obtain ⟨hdr2, hsame, hy2⟩ := reads_yields hrd
      exact ⟨hdr2, e', hy2, sameEndAfter_drop he, fun _ => hsame⟩

/-- **C54** And it can be put in front: if an input does not begin with a header and is accepted, then its lines after a header without `Plural-Forms` (that is
accepted in some input) are accepted with the data of the header, and give the same units, then the same error with the number of lines of the header added. -/
theorem C54_with {env : Env} {s₀ stream stream' : List Event} {hd rs₀ : List (Except IoErr Str)} {hdr hdr' : Header env.Lang} {us₀ us : List PoUnit} {e₀ e : Option Err}
    (h₀ : rawLines (flatten s₀) = hd ++ rs₀) (hh : HeaderLines hd) (hc : NoContinuation rs₀) (hy₀ : Yields (parse env s₀) hdr (results us₀ e₀))
    (hp : hdr.properties.lookup (c!"Plural-Forms") = none ∨ hdr.properties.lookup (c!"Plural-Forms") = some [])
    (hn : ∀ ns cs t rest, ¬ First (streamItems stream') (.header ns cs t rest)) (hy : Yields (parse env stream') hdr' (results us e))
    (h : rawLines (flatten stream) = hd ++ rawLines (flatten stream')) :
    ∃ hdr'', SameHeader hdr'' hdr ∧ Yields (parse env stream) hdr'' (results us (e.map (later hd.length))) := by
  obtain ⟨forms, ns, cs, t, f1, f2, f3, _⟩ := header_run h₀ hh hc hy₀
  have : forms = none := by
    rw [formsRule_iff] at f3
    rcases hp with hp | hp <;> rw [hp] at f3
    · rw [(formsRule_iff env none (.ok none)).mp .absent] at f3
      cases f3
      rfl
    · rw [(formsRule_iff env (some []) (.ok none)).mp .empty] at f3
      cases f3
      rfl
  subst this
  have hs : Run none (items 1 (rawLines (flatten stream'))) us e ∧ (us ≠ [] ∨ e = none) := by
    obtain ⟨forms, us1, e1, hx, hr⟩ := yields_reads hy
    obtain ⟨rfl, rfl⟩ := results_inj hx
    rw [streamItems_code] at hr hn
    cases hr with
    | nothing f => exact ⟨.stop (first_nothing f), .inr rfl⟩
    | plain f hrun =>
      obtain ⟨block, hl, hb, hsrc, hend⟩ := first_unit f
      rw [hl]
      exact ⟨.entry hb hsrc hend hrun, .inl (by simp)⟩
    | headed f => exact (hn _ _ _ _ f).elim
  obtain ⟨hrun, hs⟩ := hs
  have hr' := run_later (d := hd.length) (Nat.le_refl 1) hrun
  obtain ⟨ns', cs', t', k, k'⟩ := headed_first hh
  cases (k' h₀ hc hy₀).unique f1
  obtain ⟨hdr'', w1, w2⟩ := reads_yields (Reads.headed (k h (run_fresh hr' (hs.imp id (by rintro rfl; rfl)))) f2 f3 hr')
  exact ⟨hdr'', w1, w2⟩

/-! ### Examples -/

-- `C54_without`: the lines after the header are only the beginning of an entry
example : ∃ hdr' e', Yields (parse demoEnv (textStream cutTexts)) hdr' (results [twoTextsUnit none] e') ∧ none = e'.map (later 2) ∧
    ([twoTextsUnit none] ≠ [] → SameHeader hdr' (plainHeader demoEnv)) :=
  C54_without (hd := (headLines (c!"X: y")).map .ok) (rs := cutTexts.map .ok) (by rw [rawLines_text (by decide)]; rfl) (by rw [rawLines_text (by decide)])
    (headerLines_demo _) (noContinuation_head (by decide) rfl) cutTexts_yields (.inl rfl) (.inr rfl)

-- a unit is needed, or no error: a stray `msgid_plural` is an error after a header, and is taken silently at the beginning
example : Yields (parse demoEnv (textStream (headLines (c!"X: y") ++ [c!"msgid_plural \"a\""]))) ⟨[], [], [(c!"X", c!"y")], []⟩ (results [] (some (.parse 3 [] (c!"msgid")))) ∧
    Yields (parse demoEnv (textStream [c!"msgid_plural \"a\""])) (noHeader demoEnv) (results [] none) :=
  ⟨yields_text (env := demoEnv) (res := ⟨⟨[], [], [(c!"X", c!"y")], []⟩, none, [], some (.parse 3 [] (c!"msgid"))⟩) (by decide) (by rfl),
   yields_text (env := demoEnv) (res := ⟨noHeader demoEnv, none, [], none⟩) (by decide) (by rfl)⟩

-- `C54_with`: a header in front of two units
example : ∃ hdr'', SameHeader hdr'' ⟨[], [], [(c!"X", c!"y")], []⟩ ∧
    Yields (parse demoEnv (textStream (headLines (c!"X: y") ++ twoLines))) hdr'' (results [unitAB (c!"a") (c!"b"), unitAB (c!"c") (c!"d")] none) := by
  refine C54_with (hd := (headLines (c!"X: y")).map .ok) (rs₀ := cutTexts.map .ok) (by rw [rawLines_text (by decide)]; rfl)
    (headerLines_demo _) (noContinuation_head (by decide) rfl) cutTexts_yields (.inl rfl) ?_
    (yields_text (ls := twoLines) (res := ⟨noHeader demoEnv, none, [_, _], none⟩) (by decide) (by rfl)) (by rw [rawLines_text (by decide), rawLines_text (by decide)]; rfl)
  intro ns cs t rest hf
  rw [streamItems_code, rawLines_text (by decide), first_iff (items_noBlank _ _)] at hf
  cases hf

-- and in front of lines with an error: it comes two lines later
example : ∃ hdr'', SameHeader hdr'' ⟨[], [], [(c!"X", c!"y")], []⟩ ∧
    Yields (parse demoEnv (textStream (headLines (c!"X: y") ++ (twoLines ++ [c!"garbage"])))) hdr''
      (results [unitAB (c!"a") (c!"b")] (some (.parse 8 (c!"garbage") []))) := by
  refine C54_with (hd := (headLines (c!"X: y")).map .ok) (rs₀ := cutTexts.map .ok) (us := [unitAB (c!"a") (c!"b")]) (e := some (.parse 6 (c!"garbage") []))
    (by rw [rawLines_text (by decide)]; rfl) (headerLines_demo _) (noContinuation_head (by decide) rfl) cutTexts_yields (.inl rfl) ?_
    (yields_text (ls := twoLines ++ [c!"garbage"]) (res := ⟨noHeader demoEnv, none, [_], some _⟩) (by decide) (by rfl))
    (by rw [rawLines_text (by decide), rawLines_text (by decide)]; rfl)
  intro ns cs t rest hf
  rw [streamItems_code, rawLines_text (by decide), first_iff (items_noBlank _ _)] at hf
  cases hf

end Verif
