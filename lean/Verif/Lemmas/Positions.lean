import Verif.Spec.Positions
import Verif.Props.Lines
import Verif.Lemmas.Header
import Verif.Lemmas.Utf8

/-! Line items by the line grammar; positions of items. -/

namespace Verif
open Spec

/-- The items are those of the line grammar. -/
theorem items_lineItems {rs : List (Except IoErr Str)} (h : ∀ s, .ok s ∈ rs → '\n' ∉ s) (n : Nat) : LineItems n rs (items n rs) := by
  induction rs generalizing n with
  | nil => exact .nil
  | cons r rs ih =>
    have ih := ih (fun s hs => h s (List.mem_cons_of_mem _ hs))
    cases r with
    | error e => exact .failed
    | ok s =>
      have hc := fun x => C06_line_classification s n (h s (by simp)) x
      rw [items]
      split
      · rename_i hp; exact .unrecognised ((hc _).mp hp)
      · rename_i hp; exact .blank ((hc _).mp hp) (ih _)
      · rename_i hp hne
        exact .line ((hc _).mp hne) hp (ih _)

theorem Spec.LineItems.unique {rs : List (Except IoErr Str)} (hn : ∀ s, .ok s ∈ rs → '\n' ∉ s) {n : Nat} {l l' : List Item} (h : LineItems n rs l)
    (h' : LineItems n rs l') : l = l' := by
  have key : ∀ {rs n l}, LineItems n rs l → (∀ s, .ok s ∈ rs → '\n' ∉ s) → l = items n rs := by
    intro rs n l h
    induction h with
    | nil => intro _; rfl
    | failed => intro _; rfl
    | unrecognised hc => intro hn; rw [items, (C06_line_classification _ _ (hn _ (by simp)) _).mpr hc]
    | blank hc _ ih =>
      intro hn
      rw [items, (C06_line_classification _ _ (hn _ (by simp)) _).mpr hc, ih (fun s hs => hn s (List.mem_cons_of_mem _ hs))]
    | @line n s rs ln l hc hne _ ih =>
      intro hn
      rw [items, (C06_line_classification _ _ (hn _ (by simp)) _).mpr hc, ih (fun s hs => hn s (List.mem_cons_of_mem _ hs))]
      cases ln with
      | blank => exact absurd rfl hne
      | _ => rfl
  rw [key h hn, key h' hn]

/-- The items of a stream are those of its lines by the line grammar, and only those. -/
theorem stream_items (stream : List Event) (l : List Item) : LineItems 1 (rawLines (flatten stream)) l ↔ l = streamItems stream := by
  have hn : ∀ s, .ok s ∈ rawLines (flatten stream) → '\n' ∉ s := fun s hs => rawLines_no_nl hs
  rw [streamItems_code]
  constructor
  · intro h; exact h.unique hn (items_lineItems hn 1)
  · rintro rfl; exact items_lineItems hn 1

theorem classified_line {s : Str} {n : Nat} {ln : PoLine} (h : Classified s n (some ln)) (hb : ln ≠ .blank) : lineNumber ln = n := by
  cases h with
  | blank => exact absurd rfl hb
  | _ => rfl

/-- Lines before position `k` (counted from 0) are readable and recognised. -/
def Before (n : Nat) (rs : List (Except IoErr Str)) (k : Nat) : Prop :=
  ∀ j, j < k → ∃ t ln', rs[j]? = some (.ok t) ∧ Classified t (n + j) (some ln')

theorem Before.cons {n k : Nat} {rs : List (Except IoErr Str)} {s : Str} {ln : PoLine} (hc : Classified s n (some ln)) (h : Before (n + 1) rs k) :
    Before n (.ok s :: rs) (k + 1) := by
  intro j hj
  cases j with
  | zero => exact ⟨s, ln, rfl, hc⟩
  | succ j =>
    obtain ⟨t, ln', h1, h2⟩ := h j (by omega)
    exact ⟨t, ln', by simpa using h1, by rw [show n + (j + 1) = n + 1 + j from by omega]; exact h2⟩

theorem Spec.LineItems.ok_at {n : Nat} {rs : List (Except IoErr Str)} {l : List Item} (h : LineItems n rs l) {ln : PoLine} (hm : .ok ln ∈ l) :
    ln ≠ .blank ∧ ∃ k s, rs[k]? = some (.ok s) ∧ Classified s (n + k) (some ln) ∧ Before n rs k := by
  induction h with
  | nil => simp at hm
  | failed => simp at hm
  | unrecognised => simp at hm
  | @blank n s rs l hc _ ih =>
    obtain ⟨h1, k, s', h2, h3, h4⟩ := ih hm
    exact ⟨h1, k + 1, s', by simpa using h2, by rw [show n + (k + 1) = n + 1 + k from by omega]; exact h3, h4.cons hc⟩
  | @line n s rs ln' l hc hne _ ih =>
    rcases List.mem_cons.mp hm with hm | hm
    · cases hm
      exact ⟨hne, 0, s, rfl, hc, fun j hj => by omega⟩
    · obtain ⟨h1, k, s', h2, h3, h4⟩ := ih hm
      exact ⟨h1, k + 1, s', by simpa using h2, by rw [show n + (k + 1) = n + 1 + k from by omega]; exact h3, h4.cons hc⟩

theorem Spec.LineItems.error_at {n : Nat} {rs : List (Except IoErr Str)} {l : List Item} (h : LineItems n rs l) {e : Err} (hm : .error e ∈ l) :
    ∃ k, Before n rs k ∧ ((∃ x, rs[k]? = some (.error x) ∧ e = .io (n + k) x) ∨
      ∃ s, rs[k]? = some (.ok s) ∧ Classified s (n + k) none ∧ e = .parse (n + k + 1) s []) := by
  induction h with
  | nil => simp at hm
  | failed => cases List.mem_singleton.mp hm; exact ⟨0, fun j hj => by omega, .inl ⟨_, rfl, rfl⟩⟩
  | unrecognised hc => cases List.mem_singleton.mp hm; exact ⟨0, fun j hj => by omega, .inr ⟨_, rfl, hc, rfl⟩⟩
  | @blank n s rs l hc _ ih =>
    obtain ⟨k, h1, h2⟩ := ih hm
    refine ⟨k + 1, h1.cons hc, ?_⟩
    rw [show n + (k + 1) = n + 1 + k from by omega]
    simpa using h2
  | @line n s rs ln' l hc hne _ ih =>
    rcases List.mem_cons.mp hm with hm | hm
    · cases hm
    · obtain ⟨k, h1, h2⟩ := ih hm
      refine ⟨k + 1, h1.cons hc, ?_⟩
      rw [show n + (k + 1) = n + 1 + k from by omega]
      simpa using h2

theorem lineAt_of_mem {rs : List (Except IoErr Str)} {l : List Item} (h : LineItems 1 rs l) {ln : PoLine} (hm : .ok ln ∈ l) :
    ln ≠ .blank ∧ ∃ s, LineAt rs (lineNumber ln) s ln := by
  obtain ⟨h1, k, s, h2, h3, h4⟩ := h.ok_at hm
  have hl := classified_line h3 h1
  refine ⟨h1, s, by omega, ?_, ?_, ?_⟩
  · rw [hl]; simpa using h2
  · rw [hl]; exact h3
  · intro j hj
    obtain ⟨t, ln', h5, h6⟩ := h4 j (by omega)
    exact ⟨t, ln', h5, by rw [show j + 1 = 1 + j from by omega]; exact h6⟩

theorem errorAt_of_mem {rs : List (Except IoErr Str)} {l : List Item} (h : LineItems 1 rs l) {e : Err} (hm : .error e ∈ l) : ErrorAt rs e := by
  obtain ⟨k, h1, h2⟩ := h.error_at hm
  have hb : ∀ j, j < k + 1 - 1 → ∃ t ln', rs[j]? = some (.ok t) ∧ Classified t (j + 1) (some ln') := by
    intro j hj
    obtain ⟨t, ln', h5, h6⟩ := h1 j (by omega)
    exact ⟨t, ln', h5, by rw [show j + 1 = 1 + j from by omega]; exact h6⟩
  rcases h2 with ⟨x, h2, rfl⟩ | ⟨s, h2, h3, rfl⟩
  · rw [show 1 + k = k + 1 from by omega]
    exact .io (by omega) (by simpa using h2) hb
  · rw [show 1 + k = k + 1 from by omega] at h3 ⊢
    exact .unrecognised (by omega) (by simpa using h2) h3 hb

theorem prefix_no_kws {forms : Option PluralForms} {b : List PoLine} (h : EntryPrefix forms b) (hk : kws b = []) : ∀ ln ∈ b, IsComment ln := by
  rcases h with ⟨o, h⟩ | ⟨o, idPl, h⟩ | ⟨u, h⟩
  · obtain ⟨cs, b1, b2, b3, b4, pc, pid, ppl, ctx, rfl, f1, f2, f3, g3, f4⟩ := h
    simp only [kws_append, kws_opt f1, kws_opt f2, kws_opt f3, kws_opt f4, List.append_eq_nil_iff] at hk
    have hn : ∀ {kw b v}, OptField kw o b v → (if v = none then [] else [kw] : List Str) = [] → b = [] := by
      intro kw b v f h
      cases f with
      | none => rfl
      | some f => simp at h
    rw [hn f1 hk.2.1, hn f2 hk.2.2.1, hn f3 hk.2.2.2.1, hn f4 hk.2.2.2.2]
    intro ln hln
    simp only [List.append_nil, List.mem_map] at hln
    obtain ⟨c, _, rfl⟩ := hln
    exact ⟨c, rfl⟩
  · have := (kws_ids h).1
    rw [hk] at this; simp at this
  · obtain ⟨k, h1, _⟩ := kws_entry h
    rw [hk] at h1; simp at h1

theorem Spec.Stops.errorAt {forms : Option PluralForms} {rs : List (Except IoErr Str)} {l0 l : List Item} (h0 : LineItems 1 rs l0) (hs : l <:+ l0) {e : Err}
    (h : Stops forms l (some e)) : ErrorAt rs e := by
  generalize he : some e = oe at h
  have hmem : ∀ x ∈ l, x ∈ l0 := fun x hx => hs.subset hx
  have hmiss : ∀ {ln exp}, .ok ln ∈ l → exp = c!"msgid" ∨ exp = c!"msgstr" ∨ exp = c!"msgstr[0]" → ErrorAt rs (missing exp ln) := by
    intro ln exp hm hx
    obtain ⟨h1, s, h2⟩ := lineAt_of_mem h0 (hmem _ hm)
    exact .missing h2 h1 hx
  cases h with
  | endsInHead => cases he
  | endsAfterIds => cases he
  | unreadable => cases he; exact errorAt_of_mem h0 (hmem _ (by simp))
  | noId => cases he; exact hmiss (by simp) (.inl rfl)
  | @noText o idPl block ln tl =>
    cases he
    refine hmiss (by simp) (.inr ?_)
    cases idPl with
    | none => exact .inl rfl
    | some _ => exact .inr rfl
  | @noSource cs ln block u rest t h1 h2 h3 h4 h5 =>
    cases he
    obtain ⟨e1, s, e2⟩ := lineAt_of_mem h0 (hmem (.ok ln) (by simp))
    cases ln with
    | blank => exact absurd rfl e1
    | comment n c s => exact absurd ⟨(n, c, s), rfl⟩ h3
    | message n p kw t => exact .noSource e2
    | continuation n p t =>
      exfalso
      have hp : EntryPrefix forms (cs ++ [.continuation n p t]) := by
        have : EntryPrefix forms ((cs ++ [.continuation n p t]) ++ block) := by
          rw [List.append_assoc]; exact .inr (.inr ⟨_, h1⟩)
        exact prefix_append this
      obtain ⟨ds, rfl⟩ := all_comments h2
      have hk : kws (ds.map commentLine ++ [PoLine.continuation n p t]) = [] := by rw [kws_append, kws_comments]; rfl
      have hno := prefix_no_kws hp hk (.continuation n p t) (by simp)
      obtain ⟨c, hc⟩ := hno
      cases hc

end Verif
