import Verif.Spec.Merge
import Verif.Props.Reorder
import Verif.Props.Opaque

/-! C67: catalogues are put together from parts. -/

namespace Verif
open Spec

/-- The keyword of a line of a translation, in an entry or marked as previous. -/
def TextTag (k : Str) : Prop := (∃ ds, k = c!"msgstr" ++ ds) ∨ ∃ ds, k = c!"|msgstr" ++ ds

theorem textTag_take {k : Str} (h : TextTag k) : k.take 6 = c!"msgstr" ∨ k.take 7 = c!"|msgstr" := by
  rcases h with ⟨ds, rfl⟩ | ⟨ds, rfl⟩
  · exact .inl (by simp)
  · exact .inr (by simp)

theorem field_noText {kw v : Str} {o : Bool} {b : List PoLine} (h : Field kw o b v) (hk : kw.take 6 ≠ c!"msgstr" ∧ kw.take 7 ≠ c!"|msgstr")
    {n : Nat} {p k s : Str} (hm : .message n p k s ∈ b) : ¬ TextTag k := by
  obtain ⟨q, ⟨n', s', cs, rfl, _⟩, _⟩ := h
  intro ht
  rcases List.mem_cons.mp hm with hm | hm
  · cases hm
    rcases textTag_take ht with h | h
    · exact hk.1 h
    · exact hk.2 h
  · obtain ⟨c, _, hc⟩ := List.mem_map.mp hm
    cases hc

theorem optField_noText {kw : Str} {v : Option Str} {o : Bool} {b : List PoLine} (h : OptField kw o b v) (hk : kw.take 6 ≠ c!"msgstr" ∧ kw.take 7 ≠ c!"|msgstr")
    {n : Nat} {p k s : Str} (hm : .message n p k s ∈ b) : ¬ TextTag k := by
  cases h with
  | none => cases hm
  | some h => exact field_noText h hk hm

theorem head_noText {o : Bool} {b : List PoLine} (h : EntryHead o b) {n : Nat} {p k s : Str} (hm : .message n p k s ∈ b) : ¬ TextTag k := by
  obtain ⟨cs, b1, b2, b3, b4, pc, pid, ppl, ctx, rfl, f1, f2, f3, g3, f4⟩ := h
  simp only [List.mem_append] at hm
  rcases hm with hm | hm | hm | hm | hm
  · obtain ⟨c, _, hc⟩ := List.mem_map.mp hm
    cases hc
  · exact optField_noText f1 (by decide) hm
  · exact optField_noText f2 (by decide) hm
  · exact optField_noText f3 (by decide) hm
  · exact optField_noText f4 (by decide) hm

theorem stops_noText {forms : Option PluralForms} {l : List Item} (h : Stops forms l none) :
    ∃ b : List PoLine, l = b.map .ok ∧ ∀ n p k s, .message n p k s ∈ b → ¬ TextTag k := by
  generalize he : (none : Option Err) = e at h
  cases h with
  | endsInHead h => exact ⟨_, rfl, fun _ _ _ _ hm => head_noText h hm⟩
  | endsAfterIds h =>
    refine ⟨_, rfl, fun n p k s hm => ?_⟩
    obtain ⟨b, b5, b6, id, rfl, h, f5, f6⟩ := h
    simp only [List.mem_append] at hm
    rcases hm with hm | hm | hm
    · exact head_noText h hm
    · exact field_noText f5 (by decide) hm
    · exact optField_noText f6 (by decide) hm
  | _ => cases he

theorem after_ok {forms : Option PluralForms} {l l' : List Item} {us : List PoUnit} (h : After forms l us l') : ∃ b : List PoLine, l = b.map .ok ++ l' := by
  induction h with
  | refl => exact ⟨[], rfl⟩
  | @entry block _ _ _ _ _ _ _ _ ih =>
    obtain ⟨b, rfl⟩ := ih
    exact ⟨block ++ b, by simp⟩

theorem items_allBlank {rs : List (Except IoErr Str)} (hn : ∀ s, .ok s ∈ rs → '\n' ∉ s) (h : ∀ r ∈ rs, ∃ t, r = .ok t ∧ White t) (n : Nat) : items n rs = [] := by
  induction rs generalizing n with
  | nil => rfl
  | cons r rs ih =>
    obtain ⟨t, rfl, ht⟩ := h r (by simp)
    have := (classify_iff (hn t (by simp)) n _).mpr (.blank ht)
    rw [classify_code (hn t (by simp))] at this
    simp only [items, this]
    exact ih (fun s hs => hn s (by simp [hs])) (fun r hr => h r (by simp [hr])) _

theorem items_tail {rs : List (Except IoErr Str)} (hn : ∀ s, .ok s ∈ rs → '\n' ∉ s)
    (h : ∀ r ∈ rs, ∃ t, r = .ok t ∧ (White t ∨ ∃ m raw, QuotedLine t m none raw)) (n : Nat) :
    ∀ x ∈ items n rs, ∃ k p s, x = .ok (.continuation k p s) := by
  induction rs generalizing n with
  | nil => intro x hx; cases hx
  | cons r rs ih =>
    have ih := ih (fun s hs => hn s (by simp [hs])) (fun r hr => h r (by simp [hr])) (n + 1)
    obtain ⟨t, rfl, ht⟩ := h r (by simp)
    have hnt := hn t (by simp)
    rcases ht with ht | ⟨m, raw, ht⟩
    · have := (classify_iff hnt n _).mpr (.blank ht)
      rw [classify_code hnt] at this
      simp only [items, this]
      exact ih
    · have := (classify_iff hnt n _).mpr (.continuation ht)
      rw [classify_code hnt] at this
      simp only [items, this]
      intro x hx
      rcases List.mem_cons.mp hx with rfl | hx
      · exact ⟨_, _, _, rfl⟩
      · exact ih x hx

/-- Lines that end with a translation and are read without error leave nothing. -/
theorem after_complete {forms : Option PluralForms} {n : Nat} {rs : List (Except IoErr Str)} {us : List PoUnit} (hn : ∀ s, .ok s ∈ rs → '\n' ∉ s)
    (hr : Run forms (items n rs) us none) (he : EndsWithText rs ∨ ∀ r ∈ rs, ∃ t, r = .ok t ∧ White t) : After forms (items n rs) us [] := by
  obtain ⟨l', ha, hs⟩ := hr.after
  suffices l' = [] by rw [this] at ha; exact ha
  have hfresh := fresh_stops hs
  obtain ⟨b, hb⟩ := after_ok ha
  obtain ⟨b', rfl, hno⟩ := stops_noText hs
  rcases he with ⟨a, s, m, k, raw, c, rfl, hq, hk, hc⟩ | he
  · have hne : ∀ e, .error e ∉ items n (a ++ .ok s :: c) := by
      intro e h
      rw [hb] at h
      simp at h
    have hna : ∀ e, .error e ∉ items n a := by
      intro e h
      obtain ⟨t, ht⟩ : ∃ t, items n (a ++ .ok s :: c) = items n a ++ t := by
        clear hn ha hb hne h hr
        induction a generalizing n with
        | nil => exact ⟨_, rfl⟩
        | cons r a ih =>
          cases r with
          | error e => exact ⟨[], by simp [items]⟩
          | ok x =>
            obtain ⟨t, ht⟩ := ih (n := n + 1)
            cases hp : Verif.parseLine x n with
            | none => exact ⟨[], by simp [items, hp]⟩
            | some ln =>
              cases ln <;> exact ⟨t, by simp [items, hp, ht]⟩
      exact hne e (by rw [ht]; exact List.mem_append_left _ h)
    have hns := hn s (by simp)
    have h1 := (classify_iff hns (n + a.length) _).mpr (.keyword hq)
    rw [classify_code hns] at h1
    rw [items_append hna] at hb
    simp only [items, h1] at hb
    have htail := items_tail (rs := c) (fun s hs => hn s (by simp [hs])) hc (n + a.length + 1)
    have htag : TextTag (taggedKeyword m k) := by
      unfold taggedKeyword
      rcases hk with rfl | ⟨ds, rfl⟩
      · split
        · exact .inr ⟨[], rfl⟩
        · exact .inl ⟨[], rfl⟩
      · split
        · exact .inr ⟨c!"[" ++ ds, by simp⟩
        · exact .inl ⟨c!"[" ++ ds, by simp⟩
    generalize items (n + a.length + 1) c = tl at hb htail
    rcases List.append_eq_append_iff.mp hb with ⟨x, hx1, hx2⟩ | ⟨x, hx1, hx2⟩
    · cases x with
      | nil =>
        exfalso
        rw [List.nil_append] at hx2
        cases b' with
        | nil => cases hx2
        | cons y b' =>
          simp only [List.map_cons, List.cons.injEq, Except.ok.injEq] at hx2
          exact hno _ _ _ _ (by rw [← hx2.1]; exact List.mem_cons_self) htag
      | cons y x =>
        simp only [List.cons_append, List.cons.injEq] at hx2
        cases b' with
        | nil => rfl
        | cons z b' =>
          exfalso
          obtain ⟨k', p', s', hz⟩ := htail (.ok z) (by rw [hx2.2]; simp)
          cases hz
          rcases hfresh with h | ⟨ln, tl', h, h'⟩
          · cases h
          · simp only [List.map_cons, List.cons.injEq, Except.ok.injEq] at h
            rw [← h.1] at h'
            rcases h' with ⟨c, h'⟩ | ⟨_, _, _, _, h', _⟩
            · cases h'
            · cases h'
    · exfalso
      have : (.ok (.message (n + a.length) (m.getD []) (taggedKeyword m k) (unesc raw)) : Item) ∈ b'.map .ok := by rw [hx2]; simp
      obtain ⟨y, hy, hy'⟩ := List.mem_map.mp this
      cases hy'
      exact hno _ _ _ _ hy htag
  · rw [items_allBlank hn he] at hb
    have := congrArg List.length hb
    simp at this
    cases b' with
    | nil => rfl
    | cons => simp at this

theorem header_run {env : Env} {stream : List Event} {hd rs : List (Except IoErr Str)} {hdr : Header env.Lang} {us : List PoUnit} {e : Option Err}
    (h : rawLines (flatten stream) = hd ++ rs) (hh : HeaderLines hd) (hc : NoContinuation rs) (hy : Yields (parse env stream) hdr (results us e)) :
    ∃ forms ns cs t, First (streamItems stream) (.header ns cs t (items (1 + hd.length) rs)) ∧ HeaderRule env ns cs t hdr ∧
      FormsRule env (hdr.properties.lookup (c!"Plural-Forms")) (.ok forms) ∧ Run forms (items (1 + hd.length) rs) us e := by
  obtain ⟨forms, us', e', hx, hr⟩ := yields_reads hy
  obtain ⟨rfl, rfl⟩ := results_inj hx
  rcases first_headerLines h hh hc with ⟨e0, hf⟩ | ⟨ns, cs, t, hf⟩
  · exact (not_rejects_reads (.first hf) hr).elim
  · cases hr with
    | nothing f => cases hf.unique f
    | plain f => cases hf.unique f
    | headed f h1 hfr hrun =>
      cases hf.unique f
      exact ⟨_, _, _, _, hf, h1, hfr, hrun⟩

theorem headed_first {hd : List (Except IoErr Str)} (hh : HeaderLines hd) :
    ∃ ns cs t, (∀ {stream : List Event} {rs : List (Except IoErr Str)}, rawLines (flatten stream) = hd ++ rs → FreshStart (items (1 + hd.length) rs) →
      First (streamItems stream) (.header ns cs t (items (1 + hd.length) rs))) ∧
      ∀ {env : Env} {stream : List Event} {rs : List (Except IoErr Str)} {hdr : Header env.Lang} {us : List PoUnit} {e : Option Err},
        rawLines (flatten stream) = hd ++ rs → NoContinuation rs → Yields (parse env stream) hdr (results us e) →
        First (streamItems stream) (.header ns cs t (items (1 + hd.length) rs)) := by
  obtain ⟨block, u, t, h1, h2, h3⟩ := hh
  have hi : ∀ {stream : List Event} {rs : List (Except IoErr Str)}, rawLines (flatten stream) = hd ++ rs →
      streamItems stream = block.map .ok ++ items (1 + hd.length) rs := by
    intro stream rs h
    have hn : ∀ s, .ok s ∈ hd ++ rs → '\n' ∉ s := by rw [← h]; exact fun _ hs => rawLines_no_nl hs
    have h1 := h1.unique (fun s hs => hn s (by simp [hs])) (items_lineItems (fun s hs => hn s (by simp [hs])) 1)
    rw [streamItems_code, h, items_append, ← h1]
    rw [← h1]
    simp
  refine ⟨u.notes, u.comments, t.getD [], ?_, ?_⟩
  · intro stream rs h hf
    rw [hi h]
    exact .header h2 h3 (endsHere_fresh h2 hf)
  · intro env stream rs hdr us e h hc hy
    have hn : ∀ s, .ok s ∈ hd ++ rs → '\n' ∉ s := by rw [← h]; exact fun _ hs => rawLines_no_nl hs
    obtain ⟨forms, us', e', hx, hr⟩ := yields_reads hy
    have hc := fun m p s tl => hc (1 + hd.length) _ m p s tl (items_lineItems (fun s hs => hn s (by simp [hs])) _)
    rw [hi h] at hr ⊢
    generalize items (1 + hd.length) rs = l at *
    rcases l with _ | ⟨e | ln, tl⟩
    · exact .header h2 h3 (.inl rfl)
    · exact (not_rejects_reads (.first (.unreadable (.inl (.inr (.inr ⟨u, h2⟩))))) hr).elim
    · refine .header h2 h3 ((ends_iff h2).mpr ⟨by simp [NoErr], ?_⟩)
      cases ln with
      | continuation m p s => exact absurd rfl (hc m p s tl)
      | message n p k s =>
        rintro ⟨p, hp⟩
        rw [h3] at hp
        cases hp
      | comment => trivial
      | blank => trivial

theorem run_fresh {forms : Option PluralForms} {l : List Item} {us : List PoUnit} {e : Option Err} (h : Run forms l us e) (hs : us ≠ [] ∨ e = none) : FreshStart l := by
  cases h with
  | stop h =>
    rcases hs with hs | rfl
    · exact absurd rfl hs
    · exact fresh_stops h
  | entry h => exact fresh_entry h _

theorem after_run {forms : Option PluralForms} {l l' : List Item} {us us' : List PoUnit} {e : Option Err} (h : After forms l us l') (hr : Run forms l' us' e) :
    Run forms l (us ++ us') e := by
  induction h with
  | refl => exact hr
  | entry h1 h2 h3 _ ih => exact .entry h1 h2 h3 (ih hr)

theorem part_run {env : Env} {p : Option Str} {b : List (Except IoErr Str)} {us : List PoUnit} (h : Part env p b us) :
    ∃ forms, FormsRule env p (.ok forms) ∧ (∀ s, .ok s ∈ b → '\n' ∉ s) ∧ ∀ n, After forms (items (1 + n) b) us [] := by
  obtain ⟨stream, hd, hdr, h1, h2, h3, h4, rfl, h6⟩ := h
  obtain ⟨forms, _, _, _, _, _, g1, g2⟩ := header_run h1 h2 h3 h4
  have hn : ∀ s, .ok s ∈ b → '\n' ∉ s := fun s hs => rawLines_no_nl (inp := flatten stream) (s := s) (by rw [h1]; simp [hs])
  refine ⟨forms, g1, hn, fun n => ?_⟩
  obtain ⟨e, k1, k2⟩ := run_renumber (m := n) g2
  cases sameEndAfter_none k2
  exact after_complete hn k1 h6

theorem parts_after {env : Env} {p : Option Str} {forms : Option PluralForms} (hf : FormsRule env p (.ok forms)) {rs : List (Except IoErr Str)}
    {us : List PoUnit} {e : Option Err} {k : Nat} (hr : ∀ m, ∃ e', Run forms (items (1 + m) rs) us e' ∧ SameEndAfter k m e e') (hs : us ≠ [] ∨ e = none) :
    ∀ parts : List (List (Except IoErr Str) × List PoUnit), (∀ b ∈ parts, Part env p b.1 b.2) → ∀ n,
      (∃ e', Run forms (items (1 + n) (parts.flatMap Prod.fst ++ rs)) (parts.flatMap Prod.snd ++ us) e' ∧ SameEndAfter k (n + (parts.flatMap Prod.fst).length) e e') ∧
        FreshStart (items (1 + n) (parts.flatMap Prod.fst ++ rs)) := by
  intro parts
  have none_of : ∀ {e' m}, SameEndAfter k m e e' → us ≠ [] ∨ e' = none := by
    intro e' m h
    rcases hs with hs | rfl
    · exact .inl hs
    · exact .inr (sameEndAfter_none h)
  induction parts with
  | nil =>
    intro _ n
    obtain ⟨e', h1, h2⟩ := hr n
    exact ⟨⟨e', h1, h2⟩, run_fresh h1 (none_of h2)⟩
  | cons b parts ih =>
    intro hp n
    obtain ⟨forms', g1, g2, g3⟩ := part_run (hp b (by simp))
    rw [formsRule_iff] at g1 hf
    rw [hf] at g1
    cases g1
    obtain ⟨b', hb'⟩ := after_ok (g3 n)
    obtain ⟨⟨e', k1, k2⟩, k3⟩ := ih (fun b hb => hp b (by simp [hb])) (n + b.1.length)
    have hi : items (1 + n) ((b :: parts).flatMap Prod.fst ++ rs) = items (1 + n) b.1 ++ items (1 + (n + b.1.length)) (parts.flatMap Prod.fst ++ rs) := by
      rw [List.flatMap_cons, List.append_assoc, items_append, Nat.add_assoc]
      intro e h
      rw [hb'] at h
      simp at h
    rw [hi]
    have ha := after_append (g3 n) k3
    have hrun := after_run ha k1
    rw [Nat.add_assoc, ← List.length_append, ← List.flatMap_cons] at k2
    rw [List.flatMap_cons (f := Prod.snd), List.append_assoc]
    refine ⟨⟨e', hrun, k2⟩, ?_⟩
    cases hq : b.2 with
    | nil =>
      have := g3 n
      rw [hq] at this
      generalize items (1 + n) b.1 = l at this
      cases this
      exact k3
    | cons u us =>
      refine run_fresh hrun (.inl (by rw [hq]; simp))

/-- **C67** Catalogues with the same `Plural-Forms` can be put together from their parts: after the header of one of them, any number of parts, each of them
complete and taken from any of the catalogues, and all that follows the header of some catalogue (possibly with an error at its end), give the units of the
parts one after the other, with the data of the header, and then the error at the same place after the parts. -/
theorem C67_parts {env : Env} {s₀ s stream : List Event} {hd rs₀ hd' rs : List (Except IoErr Str)} {hdr hdr' : Header env.Lang} {us₀ us : List PoUnit} {e₀ e : Option Err}
    (h₀ : rawLines (flatten s₀) = hd ++ rs₀) (hh₀ : HeaderLines hd) (hc₀ : NoContinuation rs₀) (hy₀ : Yields (parse env s₀) hdr (results us₀ e₀))
    (h : rawLines (flatten s) = hd' ++ rs) (hh : HeaderLines hd') (hc : NoContinuation rs) (hy : Yields (parse env s) hdr' (results us e))
    (hq : hdr'.properties.lookup (c!"Plural-Forms") = hdr.properties.lookup (c!"Plural-Forms")) (hs : us ≠ [] ∨ e = none)
    (parts : List (List (Except IoErr Str) × List PoUnit)) (hp : ∀ b ∈ parts, Part env (hdr.properties.lookup (c!"Plural-Forms")) b.1 b.2)
    (hx : rawLines (flatten stream) = hd ++ (parts.flatMap Prod.fst ++ rs)) :
    ∃ hdr'' e', SameHeader hdr'' hdr ∧ Yields (parse env stream) hdr'' (results (parts.flatMap Prod.snd ++ us) e') ∧
      SameEndAfter hd'.length (hd.length + (parts.flatMap Prod.fst).length) e e' := by
  obtain ⟨forms, ns, cs, t, f1, f2, f3, _⟩ := header_run h₀ hh₀ hc₀ hy₀
  obtain ⟨forms', _, _, _, _, _, f3', f4⟩ := header_run h hh hc hy
  rw [hq] at f3'
  have hff : forms' = forms := by
    have a := f3
    have b := f3'
    rw [formsRule_iff] at a b
    rw [a] at b
    cases b
    rfl
  subst hff
  obtain ⟨⟨e', g1, g2⟩, g3⟩ := parts_after f3 (fun m => run_renumber (m := m) f4) hs parts hp hd.length
  obtain ⟨ns', cs', t', k, k'⟩ := headed_first hh₀
  cases (k' h₀ hc₀ hy₀).unique f1
  obtain ⟨hdr', w1, w2⟩ := reads_yields (Reads.headed (k hx g3) f2 f3 g1)
  exact ⟨hdr', e', w1, w2, g2⟩

/-- **C67** In particular: all that follows the header of a catalogue can be appended to another catalogue with the same `Plural-Forms` that ends with a translation. -/
theorem C67_append {env : Env} {s s' stream : List Event} {hd a hd' b : List (Except IoErr Str)} {hdr hdr' : Header env.Lang} {us us' : List PoUnit} {e : Option Err}
    (h : rawLines (flatten s) = hd ++ a) (hh : HeaderLines hd) (hc : NoContinuation a) (hy : Yields (parse env s) hdr (results us none))
    (h' : rawLines (flatten s') = hd' ++ b) (hh' : HeaderLines hd') (hc' : NoContinuation b) (hy' : Yields (parse env s') hdr' (results us' e))
    (hq : hdr'.properties.lookup (c!"Plural-Forms") = hdr.properties.lookup (c!"Plural-Forms")) (ht : EndsWithText a) (hs : us' ≠ [] ∨ e = none)
    (hx : rawLines (flatten stream) = hd ++ (a ++ b)) :
    ∃ hdr'' e', SameHeader hdr'' hdr ∧ Yields (parse env stream) hdr'' (results (us ++ us') e') ∧ SameEndAfter hd'.length (hd.length + a.length) e e' := by
  have := C67_parts h hh hc hy h' hh' hc' hy' hq hs [(a, us)] (by
    intro b hb
    rw [List.mem_singleton] at hb
    subst hb
    exact ⟨s, hd, hdr, h, hh, hc, hy, rfl, .inl ht⟩) (stream := stream) (by simpa using hx)
  simpa using this

/-! ### Concrete cases -/

/-- An entry with a note. -/
def noteEntry : List Str := [[], c!"# note", c!"msgid \"x\"", c!"msgstr \"y\""]

/-- Its unit. -/
def noteUnit : PoUnit := { unitAB (c!"x") (c!"y") with notes := [⟨.translator, c!"note"⟩] }

/-- The units of two entries with two plural forms. -/
def mergeUnits : List PoUnit :=
  [{ unitAB (c!"hi") (c!"hallo") with prevMessage := .simple (c!"o") none, flags := [c!"fuzzy"], state := .needsWork },
   { PoUnit.default with message := .plural ⟨c!"a", c!"b", [c!"c", c!"d"], some ⟨.binop .ne .var (.num 1), 2, c!"nplurals=2; plural=n!=1;", c!"n!=1"⟩⟩, state := .final }]

/-- Their lines. -/
def mergeLines : List Str := twoEntries (c!"o") (c!"hi") (c!"hallo") (c!"a") (c!"b") (c!"c") (c!"d")

/-- Another header with the same plural forms. -/
def frenchForms : Str := c!"Language: fr\nPlural-Forms: nplurals=2; plural=n!=1;"

theorem noContinuation_blank {s : Str} {rs : List (Except IoErr Str)} (hw : White s) (hn : '\n' ∉ s) (h : NoContinuation rs) : NoContinuation (.ok s :: rs) := by
  intro n l m p t tl hl
  cases hl with
  | blank _ hl => exact h _ _ m p t tl hl
  | unrecognised h' => cases classified_unique hn h' (.blank hw)
  | line h' h'' => cases classified_unique hn h' (.blank hw); exact absurd rfl h''

set_option maxRecDepth 100000 in
theorem merge_yields : Yields (parse demoEnv (textStream (headLines twoForms ++ mergeLines))) ⟨[], [], [(c!"Plural-Forms", c!"nplurals=2; plural=n!=1;")], []⟩ (results mergeUnits none) :=
  yields_text (env := demoEnv) (res := ⟨⟨[], [], [(c!"Plural-Forms", c!"nplurals=2; plural=n!=1;")], []⟩, _, mergeUnits, none⟩) (by decide) (by rfl)

set_option maxRecDepth 100000 in
theorem note_yields : Yields (parse demoEnv (textStream (headLines frenchForms ++ noteEntry)))
    ⟨[], [], [(c!"Language", c!"fr"), (c!"Plural-Forms", c!"nplurals=2; plural=n!=1;")], c!"fr"⟩ (results [noteUnit] none) :=
  yields_text (env := demoEnv) (res := ⟨⟨[], [], [(c!"Language", c!"fr"), (c!"Plural-Forms", c!"nplurals=2; plural=n!=1;")], c!"fr"⟩, _, [noteUnit], none⟩) (by decide) (by rfl)

theorem merge_part : Part demoEnv (some (c!"nplurals=2; plural=n!=1;")) (mergeLines.map .ok) mergeUnits := by
  refine ⟨_, (headLines twoForms).map .ok, _, ?_, headerLines_demo _, noContinuation_head (by decide) rfl, merge_yields, rfl, .inl ?_⟩
  · rw [rawLines_text (by decide)]; rfl
  · exact ⟨(mergeLines.take 9).map .ok, _, none, _, c!"d", [], rfl, quoted_spaces none (some (c!"msgstr[1]")) (c!"d") _ 0 1 (by simp) (by
      intro k hk; cases hk; exact .inr (.inr (.inr (.inr ⟨['1'], .inr ⟨'1', [], rfl, by decide, by simp⟩, rfl⟩)))) rfl, .inr ⟨c!"1]", rfl⟩, by simp⟩

theorem note_part : Part demoEnv (some (c!"nplurals=2; plural=n!=1;")) (noteEntry.map .ok) [noteUnit] := by
  refine ⟨_, (headLines frenchForms).map .ok, _, ?_, headerLines_demo _, noContinuation_blank (by decide) (by decide) (noContinuation_head (by decide) rfl),
    note_yields, rfl, .inl ?_⟩
  · rw [rawLines_text (by decide)]; rfl
  · exact ⟨(noteEntry.take 3).map .ok, _, none, _, c!"y", [], rfl, quoted_spaces none (some (c!"msgstr")) (c!"y") _ 0 1 (by simp) (by simp [IsKeyword]) rfl, .inl rfl, by simp⟩

-- the French catalogue with the entries of the other one twice, and its own entry between them once more
example : ∃ hdr' e', SameHeader hdr' ⟨[], [], [(c!"Language", c!"fr"), (c!"Plural-Forms", c!"nplurals=2; plural=n!=1;")], c!"fr"⟩ ∧
    Yields (parse demoEnv (textStream (headLines frenchForms ++ (mergeLines ++ (noteEntry ++ (mergeLines ++ noteEntry)))))) hdr'
      (results (mergeUnits ++ ([noteUnit] ++ (mergeUnits ++ [noteUnit]))) e') ∧ SameEndAfter 2 26 none e' := by
  have h : rawLines (flatten (textStream (headLines frenchForms ++ noteEntry))) = (headLines frenchForms).map .ok ++ noteEntry.map .ok := by rw [rawLines_text (by decide)]; rfl
  have hc : NoContinuation (noteEntry.map .ok) := noContinuation_blank (by decide) (by decide) (noContinuation_head (by decide) rfl)
  have := C67_parts h (headerLines_demo _) hc note_yields h (headerLines_demo _) hc note_yields rfl (.inl (by simp))
    (stream := textStream (headLines frenchForms ++ (mergeLines ++ (noteEntry ++ (mergeLines ++ noteEntry)))))
    [(mergeLines.map .ok, mergeUnits), (noteEntry.map .ok, [noteUnit]), (mergeLines.map .ok, mergeUnits)] (by
      intro b hb
      simp only [List.mem_cons, List.not_mem_nil, or_false] at hb
      rcases hb with rfl | rfl | rfl
      · exact merge_part
      · exact note_part
      · exact merge_part) (by rw [rawLines_text (by decide)]; rfl)
  exact this

-- the French entry appended to the other catalogue
example : ∃ hdr' e', SameHeader hdr' ⟨[], [], [(c!"Plural-Forms", c!"nplurals=2; plural=n!=1;")], []⟩ ∧
    Yields (parse demoEnv (textStream (headLines twoForms ++ (mergeLines ++ noteEntry)))) hdr' (results (mergeUnits ++ [noteUnit]) e') ∧ SameEndAfter 2 12 none e' :=
  C67_append (hd := (headLines twoForms).map .ok) (a := mergeLines.map .ok) (hd' := (headLines frenchForms).map .ok) (b := noteEntry.map .ok)
    (by rw [rawLines_text (by decide)]; rfl) (headerLines_demo _) (noContinuation_head (by decide) rfl) merge_yields
    (by rw [rawLines_text (by decide)]; rfl) (headerLines_demo _) (noContinuation_blank (by decide) (by decide) (noContinuation_head (by decide) rfl)) note_yields
    rfl (merge_part.elim fun _ ⟨_, _, _, _, _, _, _, h⟩ => h.resolve_right (by
      intro h
      obtain ⟨t, e, h⟩ := h _ List.mem_cons_self
      cases e
      revert h
      decide)) (.inl (by simp)) (by rw [rawLines_text (by decide)]; rfl)

-- why a part must end with a translation: a comment line at its end goes to the next unit
set_option maxRecDepth 100000 in
example : Yields (parse demoEnv (textStream (headLines twoForms ++ ([c!"msgid \"a\"", c!"msgstr \"b\"", c!"# end"] ++ [c!"msgid \"x\"", c!"msgstr \"y\""]))))
    ⟨[], [], [(c!"Plural-Forms", c!"nplurals=2; plural=n!=1;")], []⟩ (results [unitAB (c!"a") (c!"b"), { unitAB (c!"x") (c!"y") with notes := [⟨.translator, c!"end"⟩] }] none) :=
  yields_text (env := demoEnv) (res := ⟨⟨[], [], [(c!"Plural-Forms", c!"nplurals=2; plural=n!=1;")], []⟩, _, [_, _], none⟩) (by decide) (by rfl)

end Verif
