import Verif.Spec.Least
import Verif.Props.RoundTrip
import Verif.Props.Counting

/-! C88: the least number of lines for given data. -/

namespace Verif
open Spec

/-! ### Comment lines -/

theorem least_comments (cs : List (Char × Str)) :
    (cs.filterMap noteItem).length + (cs.filterMap otherItem).length + someLeast (cs.flatMap locationItems) + someLeast (cs.flatMap flagItems) ≤ cs.length := by
  have app : ∀ a b : List Str, someLeast (a ++ b) ≤ someLeast a + someLeast b := by
    intro a b
    cases a <;> cases b <;> simp [someLeast]
  have one : ∀ a : List Str, someLeast a ≤ 1 := by intro a; cases a <;> simp [someLeast]
  induction cs with
  | nil => simp [someLeast]
  | cons c cs ih =>
    have h1 := app (locationItems c) (cs.flatMap locationItems)
    have h2 := app (flagItems c) (cs.flatMap flagItems)
    have h3 := one (locationItems c)
    have h4 := one (flagItems c)
    rw [List.flatMap_cons, List.flatMap_cons, List.filterMap_cons, List.filterMap_cons, List.length_cons]
    by_cases e1 : c.1 = ','
    · have h5 : locationItems c = [] := by unfold locationItems; rw [if_neg (by rw [e1]; decide)]
      have h6 : noteItem c = none := by unfold noteItem; rw [if_neg (by rw [e1]; decide), if_neg (by rw [e1]; decide)]
      have h7 : otherItem c = none := by unfold otherItem; rw [if_pos (.inl e1)]
      rw [h6, h7]
      rw [h5] at h1 ⊢
      simp only [someLeast, List.nil_append] at *
      omega
    · have h5 : flagItems c = [] := by unfold flagItems; rw [if_neg e1]
      rw [h5] at h2 ⊢
      by_cases e2 : c.1 = ':'
      · have h6 : noteItem c = none := by unfold noteItem; rw [if_neg (by rw [e2]; decide), if_neg (by rw [e2]; decide)]
        have h7 : otherItem c = none := by unfold otherItem; rw [if_pos (.inr (.inl e2))]
        rw [h6, h7]
        simp only [someLeast, List.nil_append] at *
        omega
      · have h6 : locationItems c = [] := by unfold locationItems; rw [if_neg e2]
        rw [h6]
        simp only [List.nil_append]
        by_cases e3 : c.1 = '.'
        · have h7 : otherItem c = none := by unfold otherItem; rw [if_pos (.inr (.inr (.inl e3)))]
          rw [h7]
          cases noteItem c <;> simp only [List.length_cons] <;> omega
        · by_cases e4 : c.1 = ' '
          · have h7 : otherItem c = none := by unfold otherItem; rw [if_pos (.inr (.inr (.inr e4)))]
            rw [h7]
            cases noteItem c <;> simp only [List.length_cons] <;> omega
          · have h7 : noteItem c = none := by unfold noteItem; rw [if_neg e3, if_neg e4]
            rw [h7]
            cases otherItem c <;> simp only [List.length_cons] <;> omega

theorem someLeast_distinct (l : List Str) : someLeast (distinct l) ≤ someLeast l := by
  cases l with
  | nil => simp [distinct, someLeast]
  | cons a l =>
    show _ ≤ 1
    cases distinct (a :: l) <;> simp [someLeast]

theorem least_data {cs : List (Char × Str)} {u : PoUnit} (h : CommentData cs u) :
    u.notes.length + u.comments.length + someLeast u.locations + someLeast u.flags ≤ cs.length := by
  rw [h.notes, h.comments, h.locations, h.flags]
  have := least_comments cs
  have := someLeast_distinct (cs.flatMap flagItems)
  omega

/-! ### Entries -/

theorem field_length {kw : Str} {o : Bool} {b : List PoLine} {v : Str} (h : Field kw o b v) : 1 ≤ b.length := by
  obtain ⟨p, ⟨n, s, cs, rfl, _⟩, _⟩ := h
  simp

theorem optField_length {kw : Str} {o : Bool} {b : List PoLine} {v : Option Str} (h : OptField kw o b v) : optLeast v ≤ b.length := by
  cases h with
  | none => simp [optLeast]
  | some h => exact field_length h

theorem valueFields_lines {o : Bool} {hi lo : Nat} {b : List PoLine} {vs : List Str} (h : ValueFields o hi lo b vs) : vs.length ≤ b.length := by
  induction h with
  | nil => simp
  | cons _ _ h _ ih =>
    have := field_length h
    rw [List.length_append, List.length_cons]; omega

/-- The block of a unit has at least as many lines as the unit needs. -/
theorem entry_least {forms : Option PluralForms} {b : List PoLine} {u : PoUnit} (h : Entry forms b u) : unitLeast u ≤ b.length := by
  obtain ⟨cs, b1, b2, b3, b4, b5, b6, b7, pid, ppl, id, idPl, rfl, f1, f2, f3, g3, f4, f5, f6, f7, f8, f9, f10⟩ := h
  have h0 := least_data f9
  have h1 := optField_length f1
  have h2 := optField_length f2
  have h3 := optField_length f3
  have h4 := optField_length f4
  have h5 := field_length f5
  have h6 := optField_length f6
  have hp : previousLeast u.prevMessage ≤ optLeast pid + optLeast ppl := by
    rw [f8]
    cases pid with
    | none => simp [previousMessage, previousLeast]
    | some pid =>
      cases ppl with
      | none => cases pid <;> simp [previousMessage, previousLeast, optLeast]
      | some ppl => simp [previousMessage, previousLeast, optLeast]
  have hm : messageLeast u.message ≤ 1 + (optLeast idPl + b7.length) := by
    generalize u.message = m at f7
    cases f7 with
    | simple h7 => have := field_length h7; simp [messageLeast, optLeast]; omega
    | plural h7 _ => have := valueFields_lines h7; simp [messageLeast, optLeast]; omega
  simp only [List.length_append, List.length_map] at *
  unfold unitLeast
  omega

theorem run_least {forms : Option PluralForms} {l : List Item} {us : List PoUnit} {e : Option Err} (h : Run forms l us e) : (us.map unitLeast).sum ≤ l.length := by
  induction h with
  | stop => simp
  | entry h _ _ _ ih =>
    have := entry_least h
    simp only [List.map_cons, List.sum_cons, List.length_append, List.length_map]
    omega

/-! ### The header -/

theorem least_block (b : List PoLine) : (notesOf b).length + (commentsOf b).length ≤ b.length ∧
    ((∃ ln ∈ b, ¬ IsComment ln) → (notesOf b).length + (commentsOf b).length + 1 ≤ b.length) := by
  have h1 := least_comments (b.filterMap commentOf)
  have h2 : (b.filterMap commentOf).length ≤ b.length ∧ ((∃ ln ∈ b, ¬ IsComment ln) → (b.filterMap commentOf).length + 1 ≤ b.length) := by
    clear h1
    induction b with
    | nil => simp
    | cons x b ih =>
      obtain ⟨ih1, ih2⟩ := ih
      rw [List.filterMap_cons]
      cases x with
      | comment n c s =>
        simp only [commentOf, List.length_cons]
        refine ⟨by omega, ?_⟩
        rintro ⟨ln, hm, hn⟩
        rcases List.mem_cons.mp hm with rfl | hm
        · exact absurd ⟨(n, c, s), rfl⟩ hn
        · have := ih2 ⟨ln, hm, hn⟩; omega
      | _ =>
        simp only [commentOf, List.length_cons]
        exact ⟨by omega, fun _ => by omega⟩
  unfold notesOf commentsOf
  exact ⟨by omega, fun h => by have := h2.2 h; omega⟩

theorem prefix_comments {forms : Option PluralForms} {cs : List PoLine} {ln : PoLine} (hc : ∀ x ∈ cs, IsComment x) (h : EntryPrefix forms [ln]) :
    FirstPrefix (cs ++ [ln]) := by
  obtain ⟨ds, rfl⟩ := all_comments hc
  have head : ∀ {o b}, EntryHead o b → EntryHead o (ds.map commentLine ++ b) := by
    rintro o b ⟨cs, b1, b2, b3, b4, pc, pid, ppl, ctx, rfl, h⟩
    exact ⟨ds ++ cs, b1, b2, b3, b4, pc, pid, ppl, ctx, by simp, h⟩
  rcases h with ⟨o, h⟩ | ⟨o, idPl, b, b5, b6, id, hb, h1, h2, h3⟩ | ⟨u, h⟩
  · exact .inl (.inl ⟨o, head h⟩)
  · refine .inl (.inr (.inl ⟨o, idPl, ds.map commentLine ++ b, b5, b6, id, ?_, head h1, h2, h3⟩))
    rw [hb]; simp
  · have := entry_least h
    unfold unitLeast at this
    have h2 : 2 ≤ messageLeast u.message := by cases u.message <;> simp [messageLeast]
    simp only [List.length_cons, List.length_nil] at this
    omega

theorem no_properties {env : Env} {ns : List Note} {cs : List Comment} {hdr : Header env.Lang} (h : HeaderRule env ns cs [] hdr) : hdr.properties = [] := by
  have hk : ∀ k, hdr.properties.lookup k = none := by
    intro k
    have := h.properties [[]] ⟨by simp, by simp, rfl⟩ k [] (.miss (fun v => by rintro ⟨a, b, h, _⟩; simp at h) .nil)
    simpa using this
  cases hp : hdr.properties with
  | nil => rfl
  | cons p ps =>
    have := hk p.1
    rw [hp] at this
    simp [List.lookup] at this

theorem headerLeast_le {L : Type} (h : Header L) : headerLeast h ≤ h.notes.length + h.comments.length + 2 := by
  unfold headerLeast
  split
  · omega
  · split <;> omega

theorem reads_least {env : Env} {l : List Item} {hdr : Header env.Lang} {forms : Option PluralForms} {us : List PoUnit} {e : Option Err}
    (h : Reads env l hdr forms us e) : headerLeast hdr + (us.map unitLeast).sum ≤ l.length := by
  have hplain : headerLeast (plainHeader env) = 0 := by simp [headerLeast, plainHeader]
  cases h with
  | nothing => rw [hplain]; simp
  | plain h1 h2 =>
    rw [hplain]
    have := run_least h2
    cases h1 with
    | unit h3 _ _ =>
      have := entry_least h3
      simp only [List.map_cons, List.sum_cons, List.length_append, List.length_map]
      omega
  | headed h1 h2 h3 h4 =>
    have h5 := run_least h4
    cases h1 with
    | @header block u t _ h6 h7 _ =>
      have h8 := entry_least h6
      have h9 := headerLeast_le hdr
      rw [h2.notes, h2.comments] at h9
      unfold unitLeast at h8
      rw [h7] at h8
      simp only [messageLeast] at h8
      rw [List.length_append, List.length_map]
      omega
    | @noId block _ h6 h7 h8 =>
      obtain ⟨h9, h10⟩ := least_block block
      have hh : headerLeast hdr ≤ (notesOf block).length + (commentsOf block).length + 1 := by
        unfold headerLeast
        rw [no_properties h2, h2.notes, h2.comments, if_neg (by simp)]
        split <;> omega
      rw [List.length_append, List.length_map]
      by_cases hc : ∃ ln ∈ block, ¬ IsComment ln
      · have := h10 hc; omega
      · have hall : ∀ ln ∈ block, IsComment ln := fun ln hl => Classical.byContradiction fun hn => hc ⟨ln, hl, hn⟩
        rcases h8 with rfl | ⟨ln, tl, rfl, hn⟩
        · exact absurd (h7.resolve_right hc) (by simp)
        · have hu : us = [] := by
            generalize hl : Except.ok ln :: tl = l at h4
            cases h4 with
            | stop => rfl
            | @entry b u rest us e h11 _ _ _ =>
              obtain ⟨x, b', rfl⟩ : ∃ x b', b = x :: b' := by
                cases b with
                | nil =>
                  have := entry_least h11
                  have h2 : 2 ≤ messageLeast u.message := by cases u.message <;> simp [messageLeast]
                  unfold unitLeast at this
                  simp at this
                  omega
                | cons x b' => exact ⟨x, b', rfl⟩
              simp only [List.map_cons, List.cons_append, List.cons.injEq, Except.ok.injEq] at hl
              obtain ⟨rfl, _⟩ := hl
              exact absurd (prefix_comments hall (prefix_append (b := [ln]) (c := b') (.inr (.inr ⟨u, h11⟩)))) hn
          subst hu
          simp only [List.map_nil, List.sum_nil, List.length_cons]
          omega

theorem items_solid {rs : List (Except IoErr Str)} (hn : ∀ s, .ok s ∈ rs → '\n' ∉ s) (n : Nat) : (items n rs).length ≤ (rs.filter notBlank).length := by
  have h := items_lineItems hn n
  generalize items n rs = l at h
  induction h with
  | nil => simp
  | failed => rw [List.filter_cons_of_pos rfl]; simp
  | @unrecognised n s rs hc =>
    have : notBlank (.ok s) = true := by
      unfold notBlank
      have : ¬ White s := by cases hc; assumption
      simpa using this
    rw [List.filter_cons_of_pos this]
    simp
  | blank _ _ ih =>
    have := ih (fun s hs => hn s (List.mem_cons_of_mem _ hs))
    rw [List.filter_cons]
    split
    · rw [List.length_cons]; omega
    · exact this
  | @line n s rs ln l hc hb _ ih =>
    have := ih (fun s hs => hn s (List.mem_cons_of_mem _ hs))
    have hw : notBlank (.ok s) = true := by
      unfold notBlank
      have : ¬ White s := by
        intro hw
        have := classified_unique (hn _ (List.mem_cons_self ..)) (.blank hw) hc
        cases this
        exact absurd rfl hb
      simpa using this
    rw [List.filter_cons_of_pos hw, List.length_cons, List.length_cons]
    omega

/-- **C88** The input has at least as many lines that are not blank as header data and units need. -/
theorem C88_least {env : Env} {stream : List Event} {hdr : Header env.Lang} {us : List PoUnit} {e : Option Err}
    (h : Yields (parse env stream) hdr (results us e)) : headerLeast hdr + (us.map unitLeast).sum ≤ solidLines stream := by
  obtain ⟨forms, us', e', hx, hr⟩ := yields_reads h
  obtain ⟨rfl, rfl⟩ := results_inj hx
  have h1 := reads_least hr
  rw [streamItems_code] at h1
  have h2 := items_solid (rs := rawLines (flatten stream)) (fun s hs => rawLines_no_nl hs) 1
  unfold solidLines
  omega

/-- **C88** Two lines for each unit. -/
theorem C88_two {env : Env} {stream : List Event} {hdr : Header env.Lang} {us : List PoUnit} {e : Option Err}
    (h : Yields (parse env stream) hdr (results us e)) : 2 * us.length ≤ solidLines stream := by
  have h1 := C88_least h
  have h2 : 2 * us.length ≤ (us.map unitLeast).sum := by
    clear h h1
    induction us with
    | nil => simp
    | cons u us ih =>
      have : 2 ≤ unitLeast u := by
        unfold unitLeast
        have : 2 ≤ messageLeast u.message := by cases u.message <;> simp [messageLeast]
        omega
      simp only [List.map_cons, List.sum_cons, List.length_cons]
      omega
  omega

/-! ### Inputs with as many lines as needed -/

theorem valueLines_length (o : Bool) (i : Nat) (vs : List Str) : (valueLines o i vs).length = vs.length := by
  induction vs generalizing i with
  | nil => rfl
  | cons v vs ih => simp [valueLines, ih]

theorem unitLines_length (u : PoUnit) : (unitLines u).length = unitLeast u := by
  have h1 : (locationLines u.locations).length = someLeast u.locations := by cases u.locations <;> simp [locationLines, someLeast]
  have h2 : (flagLines u.flags).length = someLeast u.flags := by cases u.flags <;> simp [flagLines, someLeast]
  have h3 : ∀ o p k (v : Option Str), (optLine o p k v).length = optLeast v := by intro o p k v; cases v <;> rfl
  have h4 : (previousLines u.obsolete u.prevMessage).length = previousLeast u.prevMessage := by
    rcases u.prevMessage with ⟨_ | _, _⟩ | _ <;> simp [previousLines, previousLeast]
  have h5 : (messageLines u.obsolete u.message).length = messageLeast u.message := by
    cases u.message <;> simp [messageLines, messageLeast, valueLines_length]
    omega
  unfold unitLines unitLeast
  simp only [List.length_append, List.length_map, h1, h2, h3, h4, h5]
  omega

theorem layout_refl (ls : List Str) {rs rs' : List (Except IoErr Str)} (h : Layout rs rs') : Layout (ls.map .ok ++ rs) (ls.map .ok ++ rs') := by
  induction ls with
  | nil => exact h
  | cons l ls ih => exact .line (fun _ _ => Iff.rfl) (fun _ => rfl) ih

/-- The lines of a catalogue without blank lines. -/
def denseLines {L : Type} (c : Cat L) : List Str :=
  (match c.header with
   | none => []
   | some h => headerLines h) ++ c.units.flatMap unitLines

theorem dense_layout {L : Type} (c : Cat L) : Layout ((denseLines c).map .ok) ((catLines c).map .ok) := by
  have hu : ∀ us : List PoUnit, Layout ((us.flatMap unitLines).map .ok) ((us.flatMap fun u => unitLines u ++ [[]]).map .ok) := by
    intro us
    induction us with
    | nil => exact .nil
    | cons u us ih =>
      simp only [List.flatMap_cons, List.map_append, List.append_assoc]
      exact layout_refl _ (.blankRight (by simp [White]) ih)
  obtain ⟨header, us⟩ := c
  cases header with
  | none => exact hu us
  | some h =>
    simp only [denseLines, catLines, List.map_append, List.append_assoc]
    exact layout_refl _ (.blankRight (by simp [White]) (hu us))

/-- A catalogue can be written with no more lines than it needs. -/
theorem dense_reads {env : Env} {c : Cat env.Lang} {forms : Option PluralForms} (w : WritableCat env c forms) :
    ∃ stream hdr, SameHeader hdr (c.header.getD (plainHeader env)) ∧ Yields (parse env stream) hdr (results c.units none) ∧
      (rawLines (flatten stream)).length = (denseLines c).length := by
  have hn : ∀ x ∈ denseLines c, '\n' ∉ x := by
    intro x hx
    refine catLines_clean w x ?_
    unfold denseLines at hx
    unfold catLines
    rcases List.mem_append.mp hx with h | h
    · refine List.mem_append.mpr (.inl ?_)
      cases hc : c.header with
      | none => rw [hc] at h; exact h
      | some hd => rw [hc] at h; exact List.mem_append.mpr (.inl h)
    · obtain ⟨u, hu, h⟩ := List.mem_flatMap.mp h
      exact List.mem_append.mpr (.inr (List.mem_flatMap.mpr ⟨u, hu, List.mem_append.mpr (.inl h)⟩))
  obtain ⟨stream, hd⟩ := delivers_exists (utf8 ((denseLines c).flatMap fun l => l ++ ['\r', '\n']))
  have hr : rawLines (flatten stream) = (denseLines c).map .ok := by
    rw [show flatten stream = _ from hd, rawLines_rendering (rendering_crlf hn)]
  obtain ⟨hdr, h1, h2⟩ := C13_layout w (stream := stream) (by rw [hr]; exact dense_layout c)
  exact ⟨stream, hdr, h1, h2, by rw [hr, List.length_map]⟩

/-! ### Notes and comments without properties -/

theorem head_first {o : Bool} {b : List PoLine} (h : EntryHead o b) (l : List Str) (hl : l.head? ≠ some (c!"msgid_plural")) :
    (kws b ++ l).head? ≠ some (c!"msgid_plural") := by
  cases hk : kws b with
  | nil => exact hl
  | cons k ks =>
    have := kws_head h (k := k) (by rw [hk]; simp)
    simp only [List.cons_append, List.head?_cons, ne_eq, Option.some.injEq]
    rintro rfl
    simp at this

/-- Nothing but a continuation line can follow a plural id that comes before any other keyword. -/
theorem stray_ends {b : List PoLine} {ln : PoLine} (hb : kws b = [c!"msgid_plural"]) (hl : IsComment ln ∨ ∃ n p k s, ln = .message n p k s) :
    ¬ FirstPrefix (b ++ [ln]) := by
  have hk : (kws (b ++ [ln])).head? = some (c!"msgid_plural") := by rw [kws_append, hb]; rfl
  rintro ((⟨o, h⟩ | ⟨o, idPl, a, b5, b6, id, he, h1, f5, f6⟩ | ⟨u, h⟩) | ⟨o, a, b6, pl, he, h1, f6⟩)
  · have := head_first h [] (by simp)
    rw [List.append_nil] at this
    exact this hk
  · rw [he, kws_append, kws_append, kws_field f5] at hk
    exact head_first h1 _ (by simp) hk
  · obtain ⟨o, idPl, id, m, a, b7, bh, b5, b6, he, h1, h2, f5, f6, f7⟩ := entry_split.mp ⟨u, h⟩
    rw [he, h1, kws_append, kws_append, List.append_assoc, kws_append, kws_field f5] at hk
    exact head_first h2 _ (by simp) hk
  · have hk' := congrArg kws he
    rw [kws_append, kws_append, hb, kws_field f6] at hk'
    have ha : kws a = [] := by
      cases hka : kws a with
      | nil => rfl
      | cons k ks =>
        have := kws_head h1 (k := k) (by rw [hka]; simp)
        rw [hka] at hk'
        simp only [List.cons_append, List.cons.injEq] at hk'
        rw [← hk'.1] at this
        simp at this
    rw [ha] at hk'
    rcases hl with ⟨c, rfl⟩ | ⟨n, p, k, s, rfl⟩
    · obtain ⟨p, ⟨n, s, cs, rfl, _⟩, _⟩ := f6
      have hg := congrArg List.getLast? he
      rw [List.getLast?_append, List.getLast?_append] at hg
      rcases List.eq_nil_or_concat cs with rfl | ⟨cs', x, rfl⟩
      · simp [commentLine] at hg
      · rw [List.concat_eq_append, List.map_append, ← List.cons_append, List.getLast?_append] at hg
        simp [commentLine] at hg
    · simp [kws, keywordOf] at hk'

/-- The lines of notes, comments and units with a plural id between them. -/
def noIdLines {L : Type} (h : Header L) (body : List Str) : List Str :=
  (h.notes.map noteLine ++ h.comments.map otherLine) ++ ([fieldLine false false (c!"msgid_plural") []] ++ body)

theorem stray_header {env : Env} {hd : Header env.Lang} {us : List PoUnit} (w : WritableHeader env hd) (hp : hd.properties = [])
    (hu : ∀ u ∈ us, WritableUnit none u) :
    Reads env (items 1 ((noIdLines hd (us.flatMap fun u => unitLines u ++ [[]])).map .ok)) hd none us none := by
  have hc : CommentsOf (hd.notes.map noteLine ++ hd.comments.map otherLine) (hd.notes.map notePair ++ hd.comments.map otherPair) :=
    (CommentsOf.map fun x hx => note_line (w.notes x hx)).append (CommentsOf.map fun x hx => other_line (w.comments x hx))
  obtain ⟨cs, hcs, b0⟩ := hc.block 1
  obtain ⟨b1, g1, f1⟩ := field_block (o := false) (pr := false) kw_msgid_plural [] (1 + (hd.notes.map noteLine ++ hd.comments.map otherLine).length)
  have f1 : Field (c!"msgid_plural") false b1 [] := f1
  unfold noIdLines
  rw [← List.append_assoc, List.map_append, (b0.append g1).items]
  generalize 1 + _ = n
  have hkw : kws (cs.map commentLine ++ b1) = [c!"msgid_plural"] := by rw [kws_append, kws_comments, kws_field f1]; rfl
  have hf := units_fresh hu n
  have hrun := units_run hu n
  generalize items n _ = rest at hf hrun
  have hends : FirstEnds (cs.map commentLine ++ b1) rest := by
    rcases hf with rfl | ⟨ln, tl, rfl, hln⟩
    · exact .inl rfl
    · refine .inr ⟨ln, tl, rfl, stray_ends hkw (hln.imp id ?_)⟩
      rintro ⟨n, p, k, s, rfl, _⟩
      exact ⟨n, p, k, s, rfl⟩
  have hdata : (cs.map commentLine ++ b1).filterMap commentOf = hd.notes.map notePair ++ hd.comments.map otherPair := by
    rw [List.filterMap_append]
    have h1 : (cs.map commentLine).filterMap commentOf = cs.map Prod.snd := by
      rw [List.filterMap_map]
      clear hcs b0 hkw hends
      induction cs with
      | nil => rfl
      | cons c cs ih => rw [List.filterMap_cons_some (f := commentOf ∘ commentLine) (b := c.2) rfl, ih]; rfl
    have h2 : b1.filterMap commentOf = [] := by
      obtain ⟨p, ⟨n, s, xs, rfl, _⟩, _⟩ := f1
      rw [List.filterMap_eq_nil_iff]
      intro x hx
      rcases List.mem_cons.mp hx with rfl | hx
      · rfl
      · obtain ⟨y, _, rfl⟩ := List.mem_map.mp hx
        rfl
    rw [h1, h2, hcs, List.append_nil]
  obtain ⟨n1, n2, _, _⟩ := notes_filter hd.notes
  obtain ⟨o1, o2, _, _⟩ := others_filter w.comments
  have hfirst := First.noId (.inr ⟨false, _, _, [], rfl, entryHead_comments false cs, f1⟩) (.inr ?_) hends
  · unfold notesOf commentsOf at hfirst
    rw [hdata, List.filterMap_append, List.filterMap_append, n1, o1, n2, o2, List.append_nil, List.nil_append] at hfirst
    have hrule := header_rule w
    rw [hp] at hrule
    have hforms : FormsRule env (hd.properties.lookup (c!"Plural-Forms")) (.ok none) := by rw [hp]; exact .absent
    exact .headed hfirst hrule hforms hrun
  · obtain ⟨p, ⟨n, s, xs, rfl, _⟩, _⟩ := f1
    exact ⟨.message n p (c!"msgid_plural") s, by simp, by rintro ⟨c, hc⟩; cases hc⟩

/-- Notes and comments of a header without properties can be written with one line more. -/
theorem stray_reads {env : Env} {hd : Header env.Lang} {us : List PoUnit} (w : WritableCat env ⟨some hd, us⟩ none) (hp : hd.properties = []) :
    ∃ stream hdr, SameHeader hdr hd ∧ Yields (parse env stream) hdr (results us none) ∧
      (rawLines (flatten stream)).length = hd.notes.length + hd.comments.length + 1 + (us.flatMap unitLines).length := by
  have hclean := catLines_clean w
  have hx : '\n' ∉ fieldLine false false (c!"msgid_plural") [] := fieldLine_nl kw_msgid_plural []
  have hn0 : ∀ x ∈ hd.notes.map noteLine ++ hd.comments.map otherLine, '\n' ∉ x := by
    intro x hx
    refine hclean x ?_
    simp only [catLines, headerLines, List.append_assoc]
    rcases List.mem_append.mp hx with h | h
    · exact List.mem_append.mpr (.inl h)
    · exact List.mem_append.mpr (.inr (List.mem_append.mpr (.inl h)))
  have hnu : ∀ x ∈ us.flatMap fun u => unitLines u ++ [[]], '\n' ∉ x := by
    intro x hx
    refine hclean x ?_
    simp only [catLines]
    exact List.mem_append.mpr (.inr hx)
  have mk : ∀ body : List Str, (∀ x ∈ body, '\n' ∉ x) → ∃ stream, rawLines (flatten stream) = (noIdLines hd body).map .ok := by
    intro body hb
    have hn : ∀ x ∈ noIdLines hd body, '\n' ∉ x := by
      intro x hx'
      rcases List.mem_append.mp hx' with h | h
      · exact hn0 x h
      · rcases List.mem_cons.mp h with rfl | h
        · exact hx
        · exact hb x h
    obtain ⟨stream, hs⟩ := delivers_exists (utf8 ((noIdLines hd body).flatMap fun l => l ++ ['\r', '\n']))
    exact ⟨stream, by rw [show flatten stream = _ from hs, rawLines_rendering (rendering_crlf hn)]⟩
  obtain ⟨s1, e1⟩ := mk (us.flatMap fun u => unitLines u ++ [[]]) hnu
  obtain ⟨s2, e2⟩ := mk (us.flatMap unitLines) (by
    intro x hx
    obtain ⟨u, hu, h⟩ := List.mem_flatMap.mp hx
    exact hnu x (List.mem_flatMap.mpr ⟨u, hu, List.mem_append.mpr (.inl h)⟩))
  have hl : Layout (rawLines (flatten s2)) (rawLines (flatten s1)) := by
    rw [e1, e2]
    have hu : ∀ us : List PoUnit, Layout ((us.flatMap unitLines).map .ok) ((us.flatMap fun u => unitLines u ++ [[]]).map .ok) := by
      intro us
      induction us with
      | nil => exact .nil
      | cons u us ih =>
        simp only [List.flatMap_cons, List.map_append, List.append_assoc]
        exact layout_refl _ (.blankRight (by simp [White]) ih)
    unfold noIdLines
    simp only [List.map_append, ← List.append_assoc]
    rw [← List.map_append, ← List.map_append]
    exact layout_refl _ (hu us)
  obtain ⟨⟨w1, _⟩, w2⟩ := w
  have hr := stray_header w1 hp w2
  rw [← e1, ← streamItems_code] at hr
  obtain ⟨hdr, h1, h2⟩ := reads_yields hr
  have hlen : (rawLines (flatten s2)).length = hd.notes.length + hd.comments.length + 1 + (us.flatMap unitLines).length := by
    rw [e2]
    simp only [noIdLines, List.length_map, List.length_append, List.length_cons, List.length_nil]
    omega
  rcases C10_layout env hl with ⟨e1, e2, _, hf, _⟩ | ⟨hdr', us', x1, x2, hy, hy', hs⟩
  · exact absurd hf (by
      intro hf
      have a := h2 0
      rw [hf] at a
      simp [observe, Out.bind] at a)
  · obtain ⟨rfl, h3⟩ := hy'.unique h2
    obtain ⟨rfl, rfl⟩ := results_inj h3
    have hx1 : x1 = none := by cases x1 <;> first | rfl | cases hs
    subst hx1
    exact ⟨s2, hdr', h1, hy, hlen⟩

/-- **C88** There is an input with exactly that many lines that gives the same header data and units and no error. -/
theorem C88_attained {env : Env} {stream : List Event} {hdr : Header env.Lang} {us : List PoUnit} {e : Option Err}
    (h : Yields (parse env stream) hdr (results us e)) :
    ∃ stream' hdr', SameHeader hdr' hdr ∧ Yields (parse env stream') hdr' (results us none) ∧
      (rawLines (flatten stream')).length = headerLeast hdr + (us.map unitLeast).sum := by
  obtain ⟨c, forms, w, rfl, hh⟩ := C46_normal h
  have hlen : (c.units.flatMap unitLines).length = (c.units.map unitLeast).sum := by
    rw [List.length_flatMap]
    congr 1
    exact List.map_congr_left fun u _ => unitLines_length u
  have hplain : headerLeast (plainHeader env) = 0 := by simp [headerLeast, plainHeader]
  have none_case : ∀ c' : Cat env.Lang, c'.header = none → c'.units = c.units → WritableCat env c' forms → hdr = plainHeader env →
      ∃ stream' hdr', SameHeader hdr' hdr ∧ Yields (parse env stream') hdr' (results c.units none) ∧
      (rawLines (flatten stream')).length = headerLeast hdr + (c.units.map unitLeast).sum := by
    intro c' h1 h2 w' h3
    obtain ⟨stream', hdr', h4, h5, h6⟩ := dense_reads w'
    have h7 : (rawLines (flatten stream')).length = headerLeast hdr + (c.units.map unitLeast).sum := by
      rw [h6, h3, hplain]
      unfold denseLines
      rw [h1, h2, ← hlen]
      simp
    rw [h1, Option.getD_none] at h4
    rw [h2] at h5
    exact ⟨stream', hdr', h3 ▸ h4, h5, h7⟩
  cases hc : c.header with
  | none => exact none_case c hc rfl w (by rw [← hh, hc]; rfl)
  | some hd =>
    rw [hc, Option.getD_some] at hh
    subst hh
    by_cases hq : hd.properties = []
    · have hf : forms = none := by
        obtain ⟨w1, w2⟩ := w
        rw [hc] at w1
        obtain ⟨w1, wf⟩ := w1
        rw [hq] at wf
        have : List.lookup (c!"Plural-Forms") ([] : List (Str × Str)) = none := rfl
        rw [this] at wf
        cases wf; rfl
      by_cases hp : hd.notes = [] ∧ hd.comments = []
      · obtain ⟨p2, p3⟩ := hp
        obtain ⟨w1, w2⟩ := w
        rw [hc] at w1
        have hl := w1.1.language
        rw [hq] at hl
        refine none_case ⟨none, c.units⟩ rfl rfl ⟨hf, w2⟩ ?_
        obtain ⟨a, b, d, l⟩ := hd
        simp only at hq p2 p3 hl
        subst hq p2 p3 hl
        rfl
      · subst hf
        have w' : WritableCat env ⟨some hd, c.units⟩ none := by
          obtain ⟨hdr, us⟩ := c
          simp only at hc
          subst hc
          exact w
        obtain ⟨stream', hdr', h4, h5, h6⟩ := stray_reads w' hq
        refine ⟨stream', hdr', h4, h5, ?_⟩
        rw [h6, hlen]
        unfold headerLeast
        rw [if_neg (by simp [hq]), if_neg hp]
    · obtain ⟨stream', hdr', h4, h5, h6⟩ := dense_reads w
      rw [hc, Option.getD_some] at h4
      refine ⟨stream', hdr', h4, h5, ?_⟩
      rw [h6]
      unfold denseLines headerLeast
      rw [hc, List.length_append, hlen, if_pos hq]
      simp [headerLines]
      omega

/-! ### Examples -/

-- the two units of the demo catalogue need 12 and 2 lines, its header 4
example : unitLeast richUnit = 12 ∧ unitLeast goneUnit = 2 ∧ headerLeast richHeader = 4 := by decide

-- so the demo text has at least 18 lines that are not blank (it has 25), and 18 are enough
example : 18 ≤ solidLines (textStream richLines) := C88_least rich_yields

example : ∃ stream hdr, SameHeader hdr richHeader ∧ Yields (parse demoEnv stream) hdr (results [richUnit, goneUnit] none) ∧ (rawLines (flatten stream)).length = 18 := by
  exact C88_attained rich_yields

-- a header with a note and without properties needs one line more than the note
example : headerLeast (⟨[⟨.translator, c!"a"⟩], [], [], ()⟩ : Header Unit) = 2 := by decide

example : Yields (parse demoEnv (textStream [c!"# a", c!"msgctxt \"x\""])) ⟨[⟨.translator, c!"a"⟩], [], [], demoEnv.langInvariant⟩ (results [] none) :=
  yields_text (res := ⟨⟨[⟨.translator, c!"a"⟩], [], [], demoEnv.langInvariant⟩, none, [], none⟩) (by decide) (by rfl)

-- a note before a unit: four lines are needed, and these four are enough
example : Yields (parse demoEnv (textStream [c!"# a", c!"msgid_plural \"\"", c!"msgid \"a\"", c!"msgstr \"b\""]))
    ⟨[⟨.translator, c!"a"⟩], [], [], demoEnv.langInvariant⟩ (results [unitAB (c!"a") (c!"b")] none) :=
  yields_text (res := ⟨⟨[⟨.translator, c!"a"⟩], [], [], demoEnv.langInvariant⟩, none, [unitAB (c!"a") (c!"b")], none⟩) (by decide) (by rfl)

end Verif
