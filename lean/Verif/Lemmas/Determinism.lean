import Verif.Lemmas.Run

/-! The specification of runs determines the result; so it is exact. -/

namespace Verif
open Spec

/-- The keywords of a block. -/
def kws (block : List PoLine) : List Str := block.filterMap keywordOf

theorem kws_append (a b : List PoLine) : kws (a ++ b) = kws a ++ kws b := List.filterMap_append

theorem kws_field {kw : Str} {o : Bool} {b : List PoLine} {v : Str} (h : Field kw o b v) : kws b = [kw] := by
  obtain ⟨p, ⟨n, s, cs, rfl, _⟩, _⟩ := h
  unfold kws
  have : List.filterMap keywordOf (cs.map fun c : Nat × Str => PoLine.continuation c.1 p c.2) = [] := by
    rw [List.filterMap_eq_nil_iff]; intro a ha
    obtain ⟨c, _, rfl⟩ := List.mem_map.mp ha
    rfl
  rw [List.filterMap_cons_some (f := keywordOf) (b := kw) rfl, this]

theorem kws_opt {kw : Str} {o : Bool} {b : List PoLine} {v : Option Str} (h : OptField kw o b v) :
    kws b = if v = none then [] else [kw] := by
  cases h with
  | none => rfl
  | some h => simp [kws_field h]

theorem kws_comments (cs : List (Nat × Char × Str)) : kws (cs.map commentLine) = [] := by
  unfold kws
  rw [List.filterMap_eq_nil_iff]
  intro a ha
  obtain ⟨c, _, rfl⟩ := List.mem_map.mp ha
  rfl

theorem kws_head {o : Bool} {b : List PoLine} (h : EntryHead o b) {k : Str} (hk : k ∈ kws b) :
    k = c!"|msgctxt" ∨ k = c!"|msgid" ∨ k = c!"|msgid_plural" ∨ k = c!"msgctxt" := by
  obtain ⟨cs, b1, b2, b3, b4, pc, pid, ppl, ctx, rfl, f1, f2, f3, g3, f4⟩ := h
  simp only [kws_append, kws_comments, List.nil_append, kws_opt f1, kws_opt f2, kws_opt f3, kws_opt f4, List.mem_append] at hk
  rcases hk with hk | hk | hk | hk
  · split at hk
    · simp at hk
    · left; simpa using hk
  · split at hk
    · simp at hk
    · right; left; simpa using hk
  · split at hk
    · simp at hk
    · right; right; left; simpa using hk
  · split at hk
    · simp at hk
    · right; right; right; simpa using hk

theorem kws_ids {o : Bool} {idPl : Option Str} {b : List PoLine} (h : EntryIds o idPl b) :
    c!"msgid" ∈ kws b ∧ (c!"msgid_plural" ∈ kws b ↔ idPl ≠ none) ∧ ∀ k, IsTextKw k → k ∉ kws b := by
  obtain ⟨a, b5, b6, id, rfl, h1, f5, f6⟩ := h
  simp only [kws_append, kws_field f5, kws_opt f6]
  refine ⟨by simp, ?_, ?_⟩
  · have : c!"msgid_plural" ∉ kws a := fun hk => by
      rcases kws_head h1 hk with h | h | h | h <;> exact absurd h (by decide)
    cases idPl <;> simp [this]
  · intro k hk hm
    simp only [List.mem_append] at hm
    rcases hm with hm | hm | hm
    · rcases kws_head h1 hm with rfl | rfl | rfl | rfl <;> exact not_textKw (by decide) (by decide) hk
    · simp only [List.mem_singleton] at hm
      subst hm
      exact not_textKw (by decide) (by decide) hk
    · split at hm
      · simp at hm
      · simp only [List.mem_singleton] at hm
        subst hm
        exact not_textKw (by decide) (by decide) hk

theorem kws_text {forms : Option PluralForms} {o : Bool} {id : Str} {idPl : Option Str} {b : List PoLine} {m : Message}
    (h : TextFields forms o id idPl b m) : ∃ k ∈ kws b, IsTextKw k := by
  cases h with
  | simple h => exact ⟨_, by rw [kws_field h]; exact List.mem_singleton_self _, .inl rfl⟩
  | plural h hne =>
    cases h with
    | nil => simp at hne
    | @cons _ i b v bs vs _ _ h _ => exact ⟨_, by rw [kws_append, kws_field h]; simp, .inr ⟨i, rfl⟩⟩

theorem kws_entry {forms : Option PluralForms} {b : List PoLine} {u : PoUnit} (h : Entry forms b u) : ∃ k ∈ kws b, IsTextKw k := by
  obtain ⟨o, idPl, id, m, a, b7, bh, b5, b6, rfl, h1, h2, f5, f6, f7⟩ := entry_split.mp ⟨u, h⟩
  obtain ⟨k, hk, hk'⟩ := kws_text f7
  exact ⟨k, by rw [kws_append]; exact List.mem_append_right _ hk, hk'⟩

theorem not_head_ids {o o' : Bool} {idPl : Option Str} {b : List PoLine} (h : EntryHead o b) (h' : EntryIds o' idPl b) : False := by
  rcases kws_head h (kws_ids h').1 with h | h | h | h <;> exact absurd h (by decide)

theorem not_head_entry {forms : Option PluralForms} {o : Bool} {b : List PoLine} {u : PoUnit} (h : EntryHead o b) (h' : Entry forms b u) : False := by
  obtain ⟨k, hk, ht⟩ := kws_entry h'
  rcases kws_head h hk with rfl | rfl | rfl | rfl <;> exact not_textKw (by decide) (by decide) ht

theorem not_ids_entry {forms : Option PluralForms} {o : Bool} {idPl : Option Str} {b : List PoLine} {u : PoUnit} (h : EntryIds o idPl b)
    (h' : Entry forms b u) : False := by
  obtain ⟨k, hk, ht⟩ := kws_entry h'
  exact (kws_ids h).2.2 k ht hk

theorem ids_keyword {o o' : Bool} {idPl idPl' : Option Str} {b : List PoLine} (h : EntryIds o idPl b) (h' : EntryIds o' idPl' b) :
    textKeyword idPl = textKeyword idPl' := by
  have h1 := (kws_ids h).2.1
  have h2 := (kws_ids h').2.1
  cases idPl <;> cases idPl' <;> simp_all [textKeyword]

/-- **The grammar of entries is unambiguous.** -/
theorem Spec.Entry.unique {forms : Option PluralForms} {b : List PoLine} {u u' : PoUnit} (h : Entry forms b u) (h' : Entry forms b u') : u = u' := by
  have h1 := entry_complete (first := true) (rest := []) h ⟨by simp [NoErr], trivial⟩ (by simp)
  have h2 := entry_complete (first := true) (rest := []) h' ⟨by simp [NoErr], trivial⟩ (by simp)
  rw [h1] at h2
  simpa using h2

theorem comment_split {cs cs' : List PoLine} {ln ln' : PoLine} {b b' : List PoLine} (he : cs ++ ln :: b = cs' ++ ln' :: b')
    (h1 : ∀ c ∈ cs, IsComment c) (h2 : ¬ IsComment ln) (h1' : ∀ c ∈ cs', IsComment c) (h2' : ¬ IsComment ln') : ln = ln' := by
  induction cs generalizing cs' with
  | nil =>
    cases cs' with
    | nil => simp at he; exact he.1
    | cons c cs' => simp at he; exact absurd (h1' c (by simp)) (he.1 ▸ h2)
  | cons c cs ih =>
    cases cs' with
    | nil => simp at he; exact absurd (h1 c (by simp)) (he.1 ▸ h2')
    | cons c' cs' =>
      simp at he
      exact ih he.2 (fun x hx => h1 x (by simp [hx])) (fun x hx => h1' x (by simp [hx]))

/-- The outcome of stopping after a block. -/
def StopAt (forms : Option PluralForms) (block : List PoLine) (rest : List Item) (e : Option Err) : Prop :=
  match rest with
  | .error e' :: _ => e = some e'
  | _ =>
    (∃ o, EntryHead o block ∧ e = (nextLine rest).map (missing (c!"msgid"))) ∨
    (∃ o idPl, EntryIds o idPl block ∧ e = (nextLine rest).map (missing (textKeyword idPl))) ∨
    (∃ u t cs ln b, Entry forms block u ∧ u.message = .simple [] t ∧ block = cs ++ ln :: b ∧ (∀ c ∈ cs, IsComment c) ∧ ¬ IsComment ln ∧
      e = some (.unexpected (lineNumber ln) (c!"Source should not be empty")))

theorem endsHere_longest {forms : Option PluralForms} {block : List PoLine} {rest : List Item} (hp : EntryPrefix forms block) (h : EndsHere forms block rest) :
    Longest forms block rest ∧ NoErr rest := by
  rcases h with rfl | ⟨ln, tl, rfl, h⟩
  · exact ⟨⟨hp, by simp⟩, by simp [NoErr]⟩
  · refine ⟨⟨hp, ?_⟩, by simp [NoErr]⟩
    intro ln' tl' he
    cases he
    exact h

theorem Spec.Stops.view {forms : Option PluralForms} {l : List Item} {e : Option Err} (h : Stops forms l e) :
    ∃ block rest, l = block.map .ok ++ rest ∧ Longest forms block rest ∧ StopAt forms block rest e := by
  cases h with
  | @endsInHead o block h => exact ⟨block, [], by simp, ⟨.inl ⟨_, h⟩, by simp⟩, .inl ⟨o, h, rfl⟩⟩
  | @endsAfterIds o idPl block h => exact ⟨block, [], by simp, ⟨.inr (.inl ⟨_, _, h⟩), by simp⟩, .inr (.inl ⟨o, idPl, h, rfl⟩)⟩
  | @unreadable block e tl h => exact ⟨block, _, rfl, ⟨h, by simp⟩, rfl⟩
  | @noId o block ln tl h h' =>
    refine ⟨block, _, rfl, ⟨.inl ⟨_, h⟩, ?_⟩, .inl ⟨o, h, rfl⟩⟩
    intro ln tl he; cases he; exact h'
  | @noText o idPl block ln tl h h' =>
    refine ⟨block, _, rfl, ⟨.inr (.inl ⟨_, _, h⟩), ?_⟩, .inr (.inl ⟨o, idPl, h, rfl⟩)⟩
    intro ln tl he; cases he; exact h'
  | @noSource cs ln block u rest t h h1 h2 h3 h4 =>
    obtain ⟨h5, h6⟩ := endsHere_longest (.inr (.inr ⟨_, h⟩)) h4
    refine ⟨_, rest, rfl, h5, ?_⟩
    unfold StopAt
    split
    · exact absurd rfl (h6 _)
    · exact .inr (.inr ⟨u, t, cs, ln, block, h, h3, rfl, h1, h2, rfl⟩)

theorem Spec.Stops.unique {forms : Option PluralForms} {l : List Item} {e e' : Option Err} (h : Stops forms l e) (h' : Stops forms l e') : e = e' := by
  obtain ⟨b, r, rfl, hl, hs⟩ := h.view
  obtain ⟨b', r', he, hl', hs'⟩ := h'.view
  obtain ⟨rfl, rfl⟩ := hl.unique hl' he
  unfold StopAt at hs hs'
  split at hs
  · exact hs.trans hs'.symm
  · rename_i hne
    split at hs'
    · exact absurd rfl (hne _ _)
    rcases hs with ⟨o, h1, rfl⟩ | ⟨o, idPl, h1, rfl⟩ | ⟨u, t, cs, ln, c, h1, h2, h3, h4, h5, rfl⟩ <;>
    rcases hs' with ⟨o', h1', rfl⟩ | ⟨o', idPl', h1', rfl⟩ | ⟨u', t', cs', ln', c', h1', h2', h3', h4', h5', rfl⟩
    · rfl
    · exact (not_head_ids h1 h1').elim
    · exact (not_head_entry h1 h1').elim
    · exact (not_head_ids h1' h1).elim
    · rw [ids_keyword h1 h1']
    · exact (not_ids_entry h1 h1').elim
    · exact (not_head_entry h1' h1).elim
    · exact (not_ids_entry h1' h1).elim
    · rw [comment_split (h3.symm.trans h3') h4 h5 h4' h5']

theorem not_stops_entry {forms : Option PluralForms} {block : List PoLine} {rest : List Item} {e : Option Err} {u : PoUnit}
    (h : Stops forms (block.map .ok ++ rest) e) (h1 : Entry forms block u) (h2 : HasSource u.message) (h3 : EndsHere forms block rest) : False := by
  obtain ⟨b', r', he, hl', hs'⟩ := h.view
  obtain ⟨h5, h6⟩ := endsHere_longest (.inr (.inr ⟨_, h1⟩)) h3
  obtain ⟨rfl, rfl⟩ := h5.unique hl' he
  unfold StopAt at hs'
  split at hs'
  · exact absurd rfl (h6 _)
  · rcases hs' with ⟨o, h0, rfl⟩ | ⟨o, idPl, h0, rfl⟩ | ⟨u', t, cs, ln, c, h0, h', _⟩
    · exact not_head_entry h0 h1
    · exact not_ids_entry h0 h1
    · rw [h1.unique h0, h'] at h2
      exact h2 rfl

/-- **Runs are deterministic.** -/
theorem Spec.Run.unique {forms : Option PluralForms} {l : List Item} {us us' : List PoUnit} {e e' : Option Err} (h : Run forms l us e)
    (h' : Run forms l us' e') : us = us' ∧ e = e' := by
  induction h generalizing us' e' with
  | stop h =>
    cases h' with
    | stop h' => exact ⟨rfl, h.unique h'⟩
    | entry h1 h2 h3 h4 => exact (not_stops_entry h h1 h2 h3).elim
  | @entry block u rest us e h1 h2 h3 h4 ih =>
    generalize hl : block.map .ok ++ rest = l at h'
    cases h' with
    | stop h => subst hl; exact (not_stops_entry h h1 h2 h3).elim
    | @entry block' u' rest' us' _ h1' h2' h3' h4' =>
      have h5 := (endsHere_longest (.inr (.inr ⟨_, h1⟩)) h3).1
      have h5' := (endsHere_longest (.inr (.inr ⟨_, h1'⟩)) h3').1
      obtain ⟨rfl, rfl⟩ := h5.unique h5' hl
      obtain ⟨rfl, rfl⟩ := ih h4'
      rw [h1.unique h1']
      exact ⟨rfl, rfl⟩

/-- **The specification of runs is exact.** -/
theorem run_iff {forms : Option PluralForms} {l : List Item} (hb : NoBlank l) {us : List PoUnit} {e : Option Err} :
    Run forms l us e ↔ drain forms l = (us, e) := by
  constructor
  · intro h
    obtain ⟨h1, h2⟩ := h.unique (drain_run hb)
    rw [h1, h2]
  · intro h
    have := drain_run (forms := forms) hb
    rw [h] at this
    exact this

end Verif
