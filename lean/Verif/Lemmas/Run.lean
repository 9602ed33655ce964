import Verif.Lemmas.Exact

/-! Runs of the reader against the specification of runs: soundness, determinism, hence exactness. -/

namespace Verif
open Spec

/-- Where reading an entry leaves a line, the lines read cannot be continued with it. -/
theorem ends_of_rest {forms : Option PluralForms} {first : Bool} {block : List PoLine} {ln : PoLine} {tl : List Item} {o : Out (Option PoUnit)}
    (h : entry forms first (block.map .ok ++ .ok ln :: tl) = (o, .ok ln :: tl)) : ¬ EntryPrefix forms (block ++ [ln]) := by
  intro hp
  have h1 := entry_cut h
  have h2 := prefix_rest hp first
  rw [List.map_append, List.map_cons, List.map_nil, h1] at h2
  simp at h2

theorem endsHere_of_rest {forms : Option PluralForms} {first : Bool} {block : List PoLine} {rest : List Item} {o : Out (Option PoUnit)}
    (h : entry forms first (block.map .ok ++ rest) = (o, rest)) (hn : NoErr rest) : EndsHere forms block rest := by
  rcases rest with _ | ⟨e | ln, tl⟩
  · exact .inl rfl
  · exact absurd rfl (hn e)
  · exact .inr ⟨ln, tl, rfl, ends_of_rest h⟩

/-- **Soundness of `entry`, when it does not give a unit.** -/
theorem entry_stops {forms : Option PluralForms} {first : Bool} {l : List Item} (hb : NoBlank l) {out : Out (Option PoUnit)} {rest : List Item}
    (h : entry forms first l = (out, rest)) :
    (out = .ok none → Stops forms l none) ∧
    (∀ e, out = .err e → Stops forms l (some e) ∨
      first = true ∧ ∃ block, StrayPlural block ∧ l = block.map .ok ++ .error e :: rest) := by
  have key : ∀ e, StopR forms first l e rest → Stops forms l e := by
    intro e hs
    cases hs with
    | endsInHead h1 _ => exact .endsInHead h1
    | endsAfterIds h1 => exact .endsAfterIds h1
    | unreadableHead h1 => exact .unreadable (.inl ⟨_, h1⟩)
    | unreadableIds h1 => exact .unreadable (.inr (.inl ⟨_, _, h1⟩))
    | unreadableAfter h1 => exact .unreadable (.inr (.inr ⟨_, h1⟩))
    | noId _ h1 _ => exact .noId h1 (ends_of_rest h)
    | noText h1 _ _ => exact .noText h1 (ends_of_rest h)
    | noSource _ h1 h2 h3 h4 h5 h6 => exact .noSource h1 h2 h3 h4 (endsHere_of_rest h h6)
  obtain ⟨h1, h2⟩ := entry_stop hb h
  refine ⟨fun ho => key _ (h1 ho), fun e ho => ?_⟩
  rcases h2 e ho with h | h
  · exact .inl (key _ h)
  · exact .inr h

/-- **The items after the header are read as the specification says.** -/
theorem drain_run {forms : Option PluralForms} {l : List Item} (hb : NoBlank l) : Run forms l (drain forms l).1 (drain forms l).2 := by
  generalize hk : l.length = k
  induction k using Nat.strongRecOn generalizing l with
  | ind k ih =>
    rw [drain_eq]
    rcases he : entry forms false l with ⟨(_ | u) | e | _, rest⟩
    · exact .stop ((entry_stops hb he).1 rfl)
    · obtain ⟨block, hl, ⟨h1, h2, h3⟩ | ⟨h, _⟩⟩ := entry_sound he
      · have hlen := consumes_entry forms l u rest he
        have hb' : NoBlank rest := by rw [hl] at hb; exact hb.append
        have := ih rest.length (by omega) hb' rfl
        have h4 := Run.entry h1 ((hasSource_iff _).mp (h3 rfl)) (endsHere_of_rest (hl ▸ he) h2.1) this
        rw [← hl] at h4
        exact h4
      · cases h
    · rcases (entry_stops hb he).2 e rfl with h | ⟨h, _⟩
      · exact .stop h
      · cases h
    · have := (good_entry forms false l).1
      rw [he] at this
      exact absurd rfl this

/-! ### Beginnings of beginnings -/

theorem fieldLines_snoc {kw p : Str} {b : List PoLine} {ln : PoLine} {v : Str} (h : FieldLines kw p (b ++ [ln]) v) :
    b = [] ∨ ∃ v', FieldLines kw p b v' := by
  obtain ⟨n, s, cs, h1, _⟩ := h
  cases b with
  | nil => exact .inl rfl
  | cons x b =>
    right
    simp only [List.cons_append, List.cons.injEq] at h1
    obtain ⟨rfl, h1⟩ := h1
    rcases List.eq_nil_or_concat cs with rfl | ⟨cs', c, rfl⟩
    · simp at h1
    · rw [List.map_concat, List.concat_eq_append] at h1
      obtain ⟨h2, _⟩ := List.append_inj' h1 rfl
      exact ⟨_, n, s, cs', by rw [h2], rfl⟩

theorem field_snoc {kw : Str} {o : Bool} {b : List PoLine} {ln : PoLine} {v : Str} (h : Field kw o (b ++ [ln]) v) :
    b = [] ∨ ∃ v', Field kw o b v' := by
  obtain ⟨p, h1, h2⟩ := h
  rcases fieldLines_snoc h1 with h | ⟨v', h⟩
  · exact .inl h
  · exact .inr ⟨v', p, h, h2⟩

theorem optField_snoc {kw : Str} {o : Bool} {b : List PoLine} {ln : PoLine} {v : Option Str} (h : OptField kw o (b ++ [ln]) v) :
    ∃ v', OptField kw o b v' := by
  generalize hb : b ++ [ln] = b' at h
  cases h with
  | none => simp at hb
  | some h =>
    subst hb
    rcases field_snoc h with rfl | ⟨v', h⟩
    · exact ⟨none, .none⟩
    · exact ⟨some v', .some h⟩

/-- Splitting off the last line of `a ++ b`. -/
theorem snoc_append {α : Type} {a b c : List α} {x : α} (h : c ++ [x] = a ++ b) :
    (b = [] ∧ a = c ++ [x]) ∨ ∃ b', b = b' ++ [x] ∧ c = a ++ b' := by
  rcases List.eq_nil_or_concat b with rfl | ⟨b', y, rfl⟩
  · exact .inl ⟨rfl, by simpa using h.symm⟩
  · right
    rw [List.concat_eq_append, ← List.append_assoc] at h
    obtain ⟨h1, h2⟩ := List.append_inj' h rfl
    cases h2
    exact ⟨b', by simp, h1⟩

theorem valueFields_snoc {o : Bool} {hi lo : Nat} {b' : List PoLine} {vs : List Str} (h : ValueFields o hi lo b' vs) {b : List PoLine} {ln : PoLine}
    (hb : b ++ [ln] = b') : ∃ vs', ValueFields o hi lo b vs' := by
  induction h generalizing b with
  | nil => simp at hb
  | @cons lo i a v bs vs h1 h2 h3 h4 ih =>
    rcases snoc_append hb with ⟨rfl, rfl⟩ | ⟨b', rfl, rfl⟩
    · rcases field_snoc h3 with rfl | ⟨v', h⟩
      · exact ⟨[], .nil⟩
      · refine ⟨[v'], ?_⟩
        rw [← List.append_nil b]
        exact .cons h1 h2 h .nil
    · obtain ⟨vs', h⟩ := ih rfl
      exact ⟨v :: vs', .cons h1 h2 h3 h⟩

theorem textFields_snoc {forms : Option PluralForms} {o : Bool} {id : Str} {idPl : Option Str} {b : List PoLine} {ln : PoLine} {m : Message}
    (h : TextFields forms o id idPl (b ++ [ln]) m) : b = [] ∨ ∃ m', TextFields forms o id idPl b m' := by
  generalize hb : b ++ [ln] = b' at h
  cases h with
  | simple h =>
    subst hb
    rcases field_snoc h with h | ⟨v', h⟩
    · exact .inl h
    · exact .inr ⟨_, .simple h⟩
  | plural h hne =>
    obtain ⟨vs', h'⟩ := valueFields_snoc h hb
    cases vs' with
    | nil => cases h'; exact .inl rfl
    | cons v vs' => exact .inr ⟨_, .plural h' (by simp)⟩

theorem optField_nil (kw : Str) (o : Bool) : OptField kw o [] none := .none

theorem optField_nil_inv {kw : Str} {o : Bool} {v : Option Str} (h : OptField kw o [] v) : v = none := by
  cases h with
  | none => rfl
  | some h => obtain ⟨p, h, _⟩ := h; exact absurd rfl h.ne_nil

theorem entryHead_snoc {o : Bool} {b : List PoLine} {ln : PoLine} (h : EntryHead o (b ++ [ln])) : EntryHead o b := by
  obtain ⟨cs, b1, b2, b3, b4, pc, pid, ppl, ctx, h, f1, f2, f3, g3, f4⟩ := h
  rcases snoc_append h with ⟨hz, h'⟩ | ⟨c1, h1, rfl⟩
  · simp only [List.append_eq_nil_iff] at hz
    obtain ⟨rfl, rfl, rfl, rfl⟩ := hz
    rcases List.eq_nil_or_concat cs with rfl | ⟨cs', c, rfl⟩
    · simp at h'
    · rw [List.map_concat, List.concat_eq_append] at h'
      obtain ⟨rfl, _⟩ := List.append_inj' h' rfl
      exact ⟨cs', [], [], [], [], none, none, none, none, by simp, .none, .none, .none, fun _ => rfl, .none⟩
  rcases snoc_append h1.symm with ⟨hz, h'⟩ | ⟨c2, h2, rfl⟩
  · simp only [List.append_eq_nil_iff] at hz
    obtain ⟨rfl, rfl, rfl⟩ := hz
    rw [h'] at f1
    obtain ⟨v, f1⟩ := optField_snoc f1
    exact ⟨cs, c1, [], [], [], v, none, none, none, by simp, f1, .none, .none, fun _ => rfl, .none⟩
  rcases snoc_append h2.symm with ⟨hz, h'⟩ | ⟨c3, h3, rfl⟩
  · simp only [List.append_eq_nil_iff] at hz
    obtain ⟨rfl, rfl⟩ := hz
    rw [h'] at f2
    obtain ⟨v, f2⟩ := optField_snoc f2
    exact ⟨cs, b1, c2, [], [], pc, v, none, none, by simp, f1, f2, .none, fun _ => rfl, .none⟩
  rcases snoc_append h3.symm with ⟨rfl, h'⟩ | ⟨c4, h4, rfl⟩
  · rw [h'] at f3
    have hp : pid ≠ none := by
      intro hp
      have := g3 hp
      subst this
      generalize hq : c3 ++ [ln] = q at f3
      cases f3
      simp at hq
    obtain ⟨v, f3⟩ := optField_snoc f3
    exact ⟨cs, b1, b2, c3, [], pc, pid, v, none, by simp, f1, f2, f3, fun h => absurd h hp, .none⟩
  · rw [h4] at f4
    obtain ⟨v, f4⟩ := optField_snoc f4
    exact ⟨cs, b1, b2, b3, c4, pc, pid, ppl, v, by simp, f1, f2, f3, g3, f4⟩

theorem entryIds_snoc {o : Bool} {idPl : Option Str} {b : List PoLine} {ln : PoLine} (h : EntryIds o idPl (b ++ [ln])) :
    EntryHead o b ∨ ∃ idPl', EntryIds o idPl' b := by
  obtain ⟨a, b5, b6, id, h, h1, f5, f6⟩ := h
  rcases snoc_append h with ⟨hz, h'⟩ | ⟨c1, h2, rfl⟩
  · simp only [List.append_eq_nil_iff] at hz
    obtain ⟨rfl, rfl⟩ := hz
    obtain ⟨p, f5, _⟩ := f5
    exact absurd rfl f5.ne_nil
  rcases snoc_append h2.symm with ⟨rfl, h'⟩ | ⟨c2, h3, rfl⟩
  · rw [h'] at f5
    rcases field_snoc f5 with rfl | ⟨v, f5⟩
    · left; rwa [List.append_nil]
    · exact .inr ⟨none, a, c1, [], v, by simp, h1, f5, .none⟩
  · rw [h3] at f6
    obtain ⟨v, f6⟩ := optField_snoc f6
    exact .inr ⟨v, a, b5, c2, id, rfl, h1, f5, f6⟩

/-- An entry is its ids and its texts. -/
theorem entry_split {forms : Option PluralForms} {block : List PoLine} :
    (∃ u, Entry forms block u) ↔ ∃ o idPl id m b b7 bh b5 b6, block = b ++ b7 ∧ b = bh ++ (b5 ++ b6) ∧ EntryHead o bh ∧ Field (c!"msgid") o b5 id ∧
      OptField (c!"msgid_plural") o b6 idPl ∧ TextFields forms o id idPl b7 m := by
  constructor
  · rintro ⟨u, cs, b1, b2, b3, b4, b5, b6, b7, pid, ppl, id, idPl, rfl, f1, f2, f3, g3, f4, f5, f6, f7, _⟩
    exact ⟨u.obsolete, idPl, id, u.message, _, b7, cs.map commentLine ++ (b1 ++ (b2 ++ (b3 ++ b4))), b5, b6, by simp, rfl,
      ⟨cs, b1, b2, b3, b4, _, _, _, _, rfl, f1, f2, f3, g3, f4⟩, f5, f6, f7⟩
  · rintro ⟨o, idPl, id, m, b, b7, bh, b5, b6, rfl, rfl, ⟨cs, b1, b2, b3, b4, pc, pid, ppl, ctx, rfl, f1, f2, f3, g3, f4⟩, f5, f6, f7⟩
    obtain ⟨u, hu, _⟩ := entry_of_fields cs f1 f2 f3 g3 f4 f5 f6 f7
    exact ⟨u, by simpa using hu⟩

/-- A beginning of a beginning of an entry is one. -/
theorem prefix_snoc {forms : Option PluralForms} {b : List PoLine} {ln : PoLine} (h : EntryPrefix forms (b ++ [ln])) : EntryPrefix forms b := by
  rcases h with ⟨o, h⟩ | ⟨o, idPl, h⟩ | h
  · exact .inl ⟨o, entryHead_snoc h⟩
  · rcases entryIds_snoc h with h | ⟨idPl', h⟩
    · exact .inl ⟨o, h⟩
    · exact .inr (.inl ⟨o, idPl', h⟩)
  · obtain ⟨o, idPl, id, m, a, b7, bh, b5, b6, h1, rfl, h2, f5, f6, f7⟩ := entry_split.mp h
    rcases snoc_append h1 with ⟨rfl, _⟩ | ⟨c, rfl, rfl⟩
    · exact absurd rfl (TextFields_ne_nil f7).1
    · rcases textFields_snoc f7 with rfl | ⟨m', f7⟩
      · exact .inr (.inl ⟨o, idPl, bh, b5, b6, id, by simp, h2, f5, f6⟩)
      · exact .inr (.inr (entry_split.mpr ⟨o, idPl, id, m', _, c, bh, b5, b6, rfl, rfl, h2, f5, f6, f7⟩))

theorem prefix_append {forms : Option PluralForms} {b c : List PoLine} (h : EntryPrefix forms (b ++ c)) : EntryPrefix forms b := by
  induction c generalizing b with
  | nil => simpa using h
  | cons x c ih => exact prefix_snoc (ih (b := b ++ [x]) (by simpa using h))

/-! ### Determinism -/

/-- The block is a beginning of an entry that cannot be continued. -/
def Longest (forms : Option PluralForms) (block : List PoLine) (rest : List Item) : Prop :=
  EntryPrefix forms block ∧ ∀ ln tl, rest = .ok ln :: tl → ¬ EntryPrefix forms (block ++ [ln])

theorem longest_aux {forms : Option PluralForms} {b c : List PoLine} {r r' : List Item} (h : Longest forms b r) (h' : Longest forms c r')
    (he : b.map .ok ++ r = c.map .ok ++ r') : b <+: c → b = c ∧ r = r' := by
  rintro ⟨d, rfl⟩
  rw [List.map_append, List.append_assoc, List.append_cancel_left_eq] at he
  cases d with
  | nil => simpa using he
  | cons x d =>
    refine absurd ?_ (h.2 x (d.map .ok ++ r') (by simpa using he))
    apply prefix_append (c := d)
    have := h'.1
    simpa using this

theorem map_ok_prefix {b c : List PoLine} {r r' : List Item} (he : b.map .ok ++ r = c.map .ok ++ r') : b <+: c ∨ c <+: b := by
  rcases List.append_eq_append_iff.mp he with ⟨a, h1, _⟩ | ⟨a, h1, _⟩
  · left
    obtain ⟨x, y, rfl, h2, _⟩ := List.map_eq_append_iff.mp h1
    have := (List.map_inj_right (fun a b h => Except.ok.inj h)).mp h2
    subst this
    exact ⟨y, rfl⟩
  · right
    obtain ⟨x, y, rfl, h2, _⟩ := List.map_eq_append_iff.mp h1
    have := (List.map_inj_right (fun a b h => Except.ok.inj h)).mp h2
    subst this
    exact ⟨y, rfl⟩

theorem Longest.unique {forms : Option PluralForms} {b c : List PoLine} {r r' : List Item} (h : Longest forms b r) (h' : Longest forms c r')
    (he : b.map .ok ++ r = c.map .ok ++ r') : b = c ∧ r = r' := by
  rcases map_ok_prefix he with hp | hp
  · exact longest_aux h h' he hp
  · obtain ⟨h1, h2⟩ := longest_aux h' h he.symm hp
    exact ⟨h1.symm, h2.symm⟩

end Verif
