import Verif.Props.Units

/-! C44: `msgstr[i]` lines that a plural entry cannot take. -/

namespace Verif
open Spec

theorem kws_values {o : Bool} {hi lo : Nat} {b : List PoLine} {vs : List Str} (h : ValueFields o hi lo b vs) {k : Str} (hk : k ∈ kws b) :
    ∃ i, k = valueKeyword i ∧ i < hi := by
  induction h with
  | nil => simp [kws] at hk
  | @cons lo i b v bs vs h1 h2 h3 _ ih =>
    rw [kws_append, kws_field h3] at hk
    rcases List.mem_append.mp hk with hk | hk
    · exact ⟨i, List.mem_singleton.mp hk, h2⟩
    · exact ih hk

theorem valueKeyword_ne (i : Nat) : valueKeyword i ≠ c!"msgstr" := by
  intro h
  have := congrArg List.length h
  simp [valueKeyword] at this

/-- The `msgstr[i]` lines of an entry have indices below `nplurals`. -/
theorem entry_value_lt {forms : Option PluralForms} {b : List PoLine} {u : PoUnit} (h : Entry forms b u) {i : Nat} (hk : valueKeyword i ∈ kws b) :
    i < nplurals forms := by
  obtain ⟨cs, b1, b2, b3, b4, b5, b6, b7, pid, ppl, id, idPl, rfl, f1, f2, f3, g3, f4, f5, f6, f7, _⟩ := h
  simp only [kws_append, kws_comments, kws_opt f1, kws_opt f2, kws_opt f3, kws_opt f4, kws_field f5, kws_opt f6, List.nil_append, List.mem_append] at hk
  have hn : ∀ {k : Str}, ¬ IsTextKw k → valueKeyword i ∉ ([k] : List Str) := fun h hm => h (.inr ⟨i, (List.mem_singleton.mp hm).symm⟩)
  have hn' : ∀ {k : Str} {v : Option Str}, ¬ IsTextKw k → valueKeyword i ∉ (if v = none then [] else [k] : List Str) := by
    intro k v h hm
    split at hm
    · simp at hm
    · exact hn h hm
  rcases hk with hk | hk | hk | hk | hk | hk | hk
  · exact absurd hk (hn' (not_textKw (by decide) (by decide)))
  · exact absurd hk (hn' (not_textKw (by decide) (by decide)))
  · exact absurd hk (hn' (not_textKw (by decide) (by decide)))
  · exact absurd hk (hn' (not_textKw (by decide) (by decide)))
  · exact absurd hk (hn (not_textKw (by decide) (by decide)))
  · exact absurd hk (hn' (not_textKw (by decide) (by decide)))
  · generalize u.message = m at f7
    cases f7 with
    | simple f => rw [kws_field f] at hk; exact absurd (List.mem_singleton.mp hk) (valueKeyword_ne i)
    | plural f _ =>
      obtain ⟨j, h1, h2⟩ := kws_values f hk
      rw [valueKeyword_inj h1]; exact h2

theorem value_not_prefix {forms : Option PluralForms} (n : Nat) (p s : Str) (i : Nat) : ¬ EntryPrefix forms [.message n p (valueKeyword i) s] := by
  have hk : kws [PoLine.message n p (valueKeyword i) s] = [valueKeyword i] := rfl
  rintro (⟨o, h⟩ | ⟨o, idPl, h⟩ | ⟨u, h⟩)
  · rcases kws_head h (k := valueKeyword i) (by rw [hk]; simp) with h | h | h | h <;> exact absurd (.inr ⟨i, h.symm⟩) (not_textKw (by decide) (by decide))
  · exact (kws_ids h).2.2 _ (.inr ⟨i, rfl⟩) (by rw [hk]; simp)
  · obtain ⟨cs, b1, b2, b3, b4, b5, b6, b7, pid, ppl, id, idPl, hb, f1, f2, f3, g3, f4, f5, f6, f7, _⟩ := h
    have : c!"msgid" ∈ kws [PoLine.message n p (valueKeyword i) s] := by
      rw [hb]
      simp only [kws_append, kws_field f5]
      simp
    rw [hk] at this
    exact absurd (.inr ⟨i, List.mem_singleton.mp this⟩) (not_textKw (by decide) (by decide))

variable {env : Env} {stream : List Event}

/-- **C44** After a complete entry, a `msgstr[i]` line that is out of order, not below `nplurals`, or with the other kind of marker, or that
comes after an entry without plural id, ends reading with a parse error at that line, which expects `msgid`; the unit of the entry is yielded. -/
theorem C44_stop_entry {st : Bool} {hdr : Header env.Lang} {forms : Option PluralForms} {us : List PoUnit} {block : List PoLine} {u : PoUnit}
    {n : Nat} {p s : Str} {i : Nat} {rest : List Item}
    (h : Progress env (streamItems stream) st hdr forms us (block.map .ok ++ .ok (.message n p (valueKeyword i) s) :: rest))
    (he : Entry forms block u) (hs : HasSource u.message)
    (hi : nplurals forms ≤ i ∨ (∃ j, i ≤ j ∧ lastKeyword block = some (valueKeyword j)) ∨ ¬ (u.obsolete = true ↔ Tilde p) ∨ ∀ x, u.message ≠ .plural x) :
    ∃ hdr', SameHeader hdr' hdr ∧ Yields (parse env stream) hdr' (results (us ++ [u]) (some (.parse n p (c!"msgid")))) := by
  have hends : EndsHere forms block (.ok (.message n p (valueKeyword i) s) :: rest) := by
    rw [ends_iff he]
    refine ⟨by simp [NoErr], ?_⟩
    show EndsBefore forms u block (some (.message n p (valueKeyword i) s))
    intro h1 h2 j hj hji
    have := valueKeyword_inj hji
    subst this
    rcases hi with hi | hi | hi | hi
    · omega
    · exact hi
    · exact absurd h2 hi
    · obtain ⟨x, hx⟩ := h1; exact absurd hx (hi x)
  have hp := h.snoc he hs hends
  have hstop : Stops forms (.ok (.message n p (valueKeyword i) s) :: rest) (some (.parse n p (c!"msgid"))) :=
    .noId (block := []) (entryHead_comments false []) (value_not_prefix n p s i)
  exact reads_yields (by simpa using hp.reads (.stop hstop))

theorem ids_not_prefix {forms : Option PluralForms} {o : Bool} {idPl : Option Str} {block : List PoLine} {n : Nat} {p s : Str} {i : Nat} (h : EntryIds o idPl block)
    (hi : nplurals forms ≤ i) : ¬ EntryPrefix forms (block ++ [.message n p (valueKeyword i) s]) := by
  have hk : valueKeyword i ∈ kws (block ++ [.message n p (valueKeyword i) s]) := by
    rw [kws_append]; exact List.mem_append_right _ (List.mem_singleton_self _)
  rintro (⟨o, h⟩ | ⟨o, idPl, h⟩ | ⟨u, h⟩)
  · rcases kws_head h hk with h | h | h | h <;> exact absurd (.inr ⟨i, h.symm⟩) (not_textKw (by decide) (by decide))
  · exact (kws_ids h).2.2 _ (.inr ⟨i, rfl⟩) hk
  · have := entry_value_lt h hk
    omega

/-- **C44** If the first `msgstr[i]` line after the ids of a plural entry is not below `nplurals`, reading stops with a parse error at that line,
which expects `msgstr[0]`; if it is the first entry, this is the error of `parse()`. -/
theorem C44_stop_ids {st : Bool} {hdr : Header env.Lang} {forms : Option PluralForms} {us : List PoUnit} {o : Bool} {pl : Str} {block : List PoLine}
    {n : Nat} {p s : Str} {i : Nat} {rest : List Item}
    (h : Progress env (streamItems stream) st hdr forms us (block.map .ok ++ .ok (.message n p (valueKeyword i) s) :: rest))
    (he : EntryIds o (some pl) block) (hi : nplurals forms ≤ i) :
    (st = true → Fails (parse env stream) (.parse n p (c!"msgstr[0]"))) ∧
    (st = false → ∃ hdr', SameHeader hdr' hdr ∧ Yields (parse env stream) hdr' (results us (some (.parse n p (c!"msgstr[0]"))))) := by
  refine ⟨?_, ?_⟩
  · rintro rfl
    generalize hl : block.map Except.ok ++ .ok (.message n p (valueKeyword i) s) :: rest = l at h
    cases h with
    | start =>
      refine (rejects_iff env stream _).mp (.first ?_)
      rw [← hl]
      exact .noText he (ids_not_prefix (forms := none) he hi)
  · rintro rfl
    have := h.reads (.stop (.noText he (ids_not_prefix he hi)))
    rw [List.append_nil] at this
    exact reads_yields this

/-! ### Concrete cases -/

/-- A plural entry whose texts are out of order. -/
def disorderLines : List Str := [c!"msgid \"a\"", c!"msgid_plural \"b\"", c!"msgstr[0] \"x\"", c!"msgstr[0] \"y\""]

/-- Its unit. -/
def disorderUnit : PoUnit := { PoUnit.default with message := .plural ⟨c!"a", c!"b", [c!"x"], none⟩, state := .final }

-- the hypotheses of `C44_stop_entry` are met
example : ∃ hdr', SameHeader hdr' (plainHeader demoEnv) ∧
    Yields (parse demoEnv (textStream disorderLines)) hdr' (results ([] ++ [disorderUnit]) (some (.parse 4 [] (c!"msgid")))) := by
  have he := entry_plural none (by decide) 1 2 3 (c!"a") (c!"b") (c!"x") (by decide)
  refine C44_stop_entry (i := 0) (s := c!"y") (rest := []) (st := true) (forms := none) (block := _) ?_ he trivial (.inr (.inl ⟨0, Nat.le_refl _, rfl⟩))
  rw [streamItems_text _ (by decide)]
  exact .start

-- the hypotheses of `C44_stop_ids` are met: without header there are two texts, so `msgstr[2]` is not below `nplurals`
example : Fails (parse demoEnv (textStream [c!"msgid \"a\"", c!"msgid_plural \"b\"", c!"msgstr[2] \"x\""])) (.parse 3 [] (c!"msgstr[0]")) := by
  refine (C44_stop_ids (i := 2) (s := c!"x") (rest := []) (st := true) (forms := none) (hdr := plainHeader demoEnv) (us := []) ?_
    (ids_plural 1 2 (c!"a") (c!"b")) (Nat.le_refl _)).1 rfl
  rw [streamItems_text _ (by decide)]
  exact .start

end Verif
