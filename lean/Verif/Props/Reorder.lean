import Verif.Props.Change

/-! C63: the entries of a catalogue can be moved, removed and repeated. -/

namespace Verif
open Spec

/-! ### Entries do not depend on line numbers -/

/-- A line without its number. -/
def at0 : PoLine → PoLine
  | .blank => .blank
  | .comment _ c t => .comment 0 c t
  | .message _ p k t => .message 0 p k t
  | .continuation _ p t => .continuation 0 p t

theorem comments_at0 {b : List PoLine} {cs : List (Nat × Char × Str)} (h : b.map at0 = cs.map commentLine) :
    ∃ ds : List (Nat × Char × Str), b = ds.map commentLine ∧ ds.map Prod.snd = cs.map Prod.snd := by
  induction b generalizing cs with
  | nil => cases cs with
    | nil => exact ⟨[], rfl, rfl⟩
    | cons => cases h
  | cons x b ih =>
    cases cs with
    | nil => cases h
    | cons c cs =>
      simp only [List.map_cons, List.cons.injEq] at h
      obtain ⟨ds, rfl, h2⟩ := ih h.2
      cases x with
      | comment n k t =>
        have := h.1
        simp only [at0, commentLine, PoLine.comment.injEq] at this
        exact ⟨(n, k, t) :: ds, rfl, by rw [List.map_cons, List.map_cons, h2, this.2.1, this.2.2]⟩
      | _ => cases h.1

theorem fieldLines_at0 {kw p v : Str} {b : List PoLine} (h : FieldLines kw p (b.map at0) v) : FieldLines kw p b v := by
  obtain ⟨n, s, cs, hb, rfl⟩ := h
  cases b with
  | nil => cases hb
  | cons x b =>
    simp only [List.map_cons, List.cons.injEq] at hb
    obtain ⟨hx, hb⟩ := hb
    have key : ∀ {b : List PoLine} {cs : List (Nat × Str)}, b.map at0 = cs.map (fun c => PoLine.continuation c.1 p c.2) →
        ∃ ds : List (Nat × Str), b = ds.map (fun c => PoLine.continuation c.1 p c.2) ∧ ds.map Prod.snd = cs.map Prod.snd := by
      intro b cs h
      induction b generalizing cs with
      | nil => cases cs with
        | nil => exact ⟨[], rfl, rfl⟩
        | cons => cases h
      | cons x b ih =>
        cases cs with
        | nil => cases h
        | cons c cs =>
          simp only [List.map_cons, List.cons.injEq] at h
          obtain ⟨ds, rfl, h2⟩ := ih h.2
          cases x with
          | continuation n q t =>
            have := h.1
            simp only [at0, PoLine.continuation.injEq] at this
            obtain ⟨_, rfl, ht⟩ := this
            exact ⟨(n, t) :: ds, rfl, by rw [List.map_cons, List.map_cons, h2, ht]⟩
          | _ => cases h.1
    obtain ⟨ds, rfl, h2⟩ := key hb
    cases x with
    | message m q k t =>
      simp only [at0, PoLine.message.injEq] at hx
      obtain ⟨_, rfl, rfl, rfl⟩ := hx
      exact ⟨m, t, ds, rfl, by rw [h2]⟩
    | _ => cases hx

theorem field_at0 {kw v : Str} {o : Bool} {b : List PoLine} (h : Field kw o (b.map at0) v) : Field kw o b v := by
  obtain ⟨p, h1, h2⟩ := h
  exact ⟨p, fieldLines_at0 h1, h2⟩

theorem optField_at0 {kw : Str} {v : Option Str} {o : Bool} {b : List PoLine} (h : OptField kw o (b.map at0) v) : OptField kw o b v := by
  generalize hb : b.map at0 = b' at h
  cases h with
  | none =>
    rw [List.map_eq_nil_iff] at hb
    subst hb
    exact .none
  | some h => subst hb; exact .some (field_at0 h)

theorem valueFields_at0 {o : Bool} {hi lo : Nat} {b : List PoLine} {vs : List Str} (h : ValueFields o hi lo (b.map at0) vs) : ValueFields o hi lo b vs := by
  generalize hb : b.map at0 = b' at h
  induction h generalizing b with
  | nil =>
    rw [List.map_eq_nil_iff] at hb
    subst hb
    exact .nil
  | cons h1 h2 h3 _ ih =>
    obtain ⟨b1, b2, rfl, rfl, rfl⟩ := List.map_eq_append_iff.mp hb
    exact .cons h1 h2 (field_at0 h3) (ih rfl)

theorem textFields_at0 {forms : Option PluralForms} {o : Bool} {id : Str} {idPl : Option Str} {b : List PoLine} {m : Message}
    (h : TextFields forms o id idPl (b.map at0) m) : TextFields forms o id idPl b m := by
  cases h with
  | simple h => exact .simple (field_at0 h)
  | plural h1 h2 => exact .plural (valueFields_at0 h1) h2

/-- An entry stays an entry when its lines get numbers. -/
theorem entry_at0 {forms : Option PluralForms} {block : List PoLine} {u : PoUnit} (h : Entry forms (block.map at0) u) : Entry forms block u := by
  obtain ⟨cs, b1, b2, b3, b4, b5, b6, b7, pid, ppl, id, idPl, hb, f1, f2, f3, g3, f4, f5, f6, f7, f8, f9, f10⟩ := h
  obtain ⟨c0, r0, rfl, hc, hb0⟩ := List.map_eq_append_iff.mp hb
  obtain ⟨b1, r1, rfl, rfl, hb1⟩ := List.map_eq_append_iff.mp hb0
  obtain ⟨b2, r2, rfl, rfl, hb2⟩ := List.map_eq_append_iff.mp hb1
  obtain ⟨b3, r3, rfl, rfl, hb3⟩ := List.map_eq_append_iff.mp hb2
  obtain ⟨b4, r4, rfl, rfl, hb4⟩ := List.map_eq_append_iff.mp hb3
  obtain ⟨b5, r5, rfl, rfl, hb5⟩ := List.map_eq_append_iff.mp hb4
  obtain ⟨b6, b7, rfl, rfl, rfl⟩ := List.map_eq_append_iff.mp hb5
  obtain ⟨ds, rfl, hd⟩ := comments_at0 hc
  rw [← hd] at f9
  exact ⟨ds, b1, b2, b3, b4, b5, b6, b7, pid, ppl, id, idPl, rfl, optField_at0 f1, optField_at0 f2, optField_at0 f3, g3, optField_at0 f4, field_at0 f5,
    optField_at0 f6, textFields_at0 f7, f8, f9, f10⟩

theorem field_map0 {kw v : Str} {o : Bool} {b : List PoLine} (h : Field kw o b v) : Field kw o (b.map at0) v := by
  obtain ⟨p, ⟨n, s, cs, rfl, rfl⟩, h2⟩ := h
  refine ⟨p, ⟨0, s, cs.map fun c => (0, c.2), ?_, by simp [Function.comp_def]⟩, h2⟩
  simp [at0, Function.comp_def]

theorem optField_map0 {kw : Str} {v : Option Str} {o : Bool} {b : List PoLine} (h : OptField kw o b v) : OptField kw o (b.map at0) v := by
  cases h with
  | none => exact .none
  | some h => exact .some (field_map0 h)

theorem valueFields_map0 {o : Bool} {hi lo : Nat} {b : List PoLine} {vs : List Str} (h : ValueFields o hi lo b vs) : ValueFields o hi lo (b.map at0) vs := by
  induction h with
  | nil => exact .nil
  | cons h1 h2 h3 _ ih =>
    rw [List.map_append]
    exact .cons h1 h2 (field_map0 h3) ih

/-- An entry stays an entry when its lines lose their numbers. -/
theorem entry_map0 {forms : Option PluralForms} {block : List PoLine} {u : PoUnit} (h : Entry forms block u) : Entry forms (block.map at0) u := by
  obtain ⟨cs, b1, b2, b3, b4, b5, b6, b7, pid, ppl, id, idPl, rfl, f1, f2, f3, g3, f4, f5, f6, f7, f8, f9, f10⟩ := h
  refine ⟨cs.map fun c => (0, c.2), b1.map at0, b2.map at0, b3.map at0, b4.map at0, b5.map at0, b6.map at0, b7.map at0, pid, ppl, id, idPl, ?_,
    optField_map0 f1, optField_map0 f2, optField_map0 f3, g3, optField_map0 f4, field_map0 f5, optField_map0 f6, ?_, f8, ?_, f10⟩
  · simp [Function.comp_def, at0, commentLine]
  · generalize u.message = m at f7
    cases f7 with
    | simple h => exact .simple (field_map0 h)
    | plural h1 h2 => exact .plural (valueFields_map0 h1) h2
  · have : (cs.map fun c => ((0, c.2) : Nat × Char × Str)).map Prod.snd = cs.map Prod.snd := by simp [Function.comp_def]
    rw [this]
    exact f9

theorem entry_numbers {forms : Option PluralForms} {block block' : List PoLine} {u : PoUnit} (h : Entry forms block u)
    (hb : block'.map at0 = block.map at0) : Entry forms block' u := entry_at0 (hb ▸ entry_map0 h)

theorem lastMarker_at0 (block : List PoLine) : lastMarker (block.map at0) = lastMarker block := by
  unfold lastMarker
  rw [List.getLast?_map]
  cases block.getLast? with
  | none => rfl
  | some x => cases x <;> rfl

theorem lastKeyword_at0 (block : List PoLine) : lastKeyword (block.map at0) = lastKeyword block := by
  unfold lastKeyword
  congr 1
  rw [List.filterMap_map]
  congr 1
  funext x
  cases x <;> rfl

/-- The items of the same lines with other numbers. -/
theorem items_numbers {rs : List (Except IoErr Str)} (hn : ∀ s, .ok s ∈ rs → '\n' ∉ s) {n : Nat} (m : Nat) {block : List PoLine}
    (h : items n rs = block.map .ok) : ∃ block' : List PoLine, items m rs = block'.map .ok ∧ block'.map at0 = block.map at0 := by
  induction rs generalizing n m block with
  | nil =>
    cases block with
    | nil => exact ⟨[], rfl, rfl⟩
    | cons => cases h
  | cons r rs ih =>
    have ih := fun n m block h => @ih (fun s hs => hn s (List.mem_cons_of_mem _ hs)) n m block h
    cases r with
    | error e =>
      cases block with
      | nil => cases h
      | cons => cases h
    | ok s =>
      simp only [items] at h ⊢
      rw [parseLine_renumber (hn s (by simp)) n m]
      cases hp : parseLine s n with
      | none =>
        rw [hp] at h
        cases block with
        | nil => cases h
        | cons => cases h
      | some p =>
        rw [hp] at h
        cases p with
        | blank => exact ih _ (m + 1) _ h
        | _ =>
          cases block with
          | nil => cases h
          | cons x block =>
            simp only [List.map_cons, List.cons.injEq, Except.ok.injEq] at h
            obtain ⟨rfl, h⟩ := h
            obtain ⟨b', h1, h2⟩ := ih _ (m + 1) _ h
            exact ⟨_ :: b', congrArg (List.cons _) h1, congrArg (List.cons _) h2⟩

/-- The first item of the same lines with other numbers, without its number. -/
theorem nextLine_numbers {rs : List (Except IoErr Str)} (hn : ∀ s, .ok s ∈ rs → '\n' ∉ s) (n m : Nat) :
    (NoErr (items n rs) → NoErr (items m rs)) ∧ (nextLine (items m rs)).map at0 = (nextLine (items n rs)).map at0 := by
  induction rs generalizing n m with
  | nil => exact ⟨id, rfl⟩
  | cons r rs ih =>
    have ih := fun n m => ih (fun s hs => hn s (List.mem_cons_of_mem _ hs)) n m
    cases r with
    | error e => exact ⟨by simp [items, NoErr], rfl⟩
    | ok s =>
      simp only [items]
      rw [parseLine_renumber (hn s (by simp)) n m]
      cases hp : parseLine s n with
      | none => exact ⟨by simp [NoErr], rfl⟩
      | some p =>
        cases p with
        | blank => exact ih _ _
        | _ => exact ⟨by simp [NoErr], rfl⟩

theorem endsBefore_numbers {forms : Option PluralForms} {u : PoUnit} {block block' : List PoLine} {x x' : Option PoLine} (h : EndsBefore forms u block x)
    (hb : block'.map at0 = block.map at0) (hx : x'.map at0 = x.map at0) : EndsBefore forms u block' x' := by
  have h1 : lastMarker block' = lastMarker block := by rw [← lastMarker_at0, hb, lastMarker_at0]
  have h2 : lastKeyword block' = lastKeyword block := by rw [← lastKeyword_at0, hb, lastKeyword_at0]
  rcases x with _ | x <;> rcases x' with _ | x'
  · trivial
  · cases hx
  · trivial
  · simp only [Option.map_some, Option.some.injEq] at hx
    cases x with
    | blank => cases x' <;> first | trivial | cases hx
    | comment => cases x' <;> first | trivial | cases hx
    | message n p k s =>
      cases x' with
      | message n' p' k' s' =>
        simp only [at0, PoLine.message.injEq] at hx
        obtain ⟨_, rfl, rfl, rfl⟩ := hx
        simp only [EndsBefore, h2] at h ⊢
        exact h
      | _ => cases hx
    | continuation n p s =>
      cases x' with
      | continuation n' p' s' =>
        simp only [at0, PoLine.continuation.injEq] at hx
        obtain ⟨_, rfl, rfl⟩ := hx
        simp only [EndsBefore, h1] at h ⊢
        exact h
      | _ => cases hx

/-! ### The lines of the entries -/

theorem items_split {n : Nat} {rs : List (Except IoErr Str)} {a : List PoLine} {b : List Item} (h : items n rs = a.map .ok ++ b) :
    ∃ rs1 rs2, rs = rs1 ++ rs2 ∧ items n rs1 = a.map .ok ∧ items (n + rs1.length) rs2 = b := by
  induction rs generalizing n a with
  | nil =>
    cases a with
    | nil => exact ⟨[], [], rfl, rfl, h⟩
    | cons => cases h
  | cons r rs ih =>
    cases a with
    | nil => exact ⟨[], r :: rs, rfl, rfl, h⟩
    | cons x a =>
      cases r with
      | error e => cases h
      | ok s =>
        simp only [items] at h
        cases hp : parseLine s n with
        | none => rw [hp] at h; cases h
        | some p =>
          rw [hp] at h
          cases p with
          | blank =>
            obtain ⟨r1, r2, rfl, h1, h2⟩ := ih (a := x :: a) h
            exact ⟨.ok s :: r1, r2, rfl, by simp only [items, hp]; exact h1, by rw [← h2]; congr 1; simp; omega⟩
          | _ =>
            simp only [List.map_cons, List.cons_append, List.cons.injEq, Except.ok.injEq] at h
            obtain ⟨rfl, h⟩ := h
            obtain ⟨r1, r2, rfl, h1, h2⟩ := ih h
            exact ⟨.ok s :: r1, r2, rfl, by simp only [items, hp, h1]; rfl, by rw [← h2]; congr 1; simp; omega⟩

/-- The lines are an entry for the unit `u`. -/
def LinesOf (forms : Option PluralForms) (b : List (Except IoErr Str) × PoUnit) : Prop :=
  HasSource b.2.message ∧ ∀ n, ∃ block : List PoLine, items n b.1 = block.map .ok ∧ Entry forms block b.2

/-- The lines of an entry end before the other lines. -/
def LinesEnd (forms : Option PluralForms) (b : List (Except IoErr Str) × PoUnit) (rs : List (Except IoErr Str)) : Prop :=
  ∀ n m, ∃ block : List PoLine, items n b.1 = block.map .ok ∧ Entry forms block b.2 ∧ EndsHere forms block (items m rs)

theorem after_lines {forms : Option PluralForms} {l l' : List Item} {us : List PoUnit} (h : After forms l us l') :
    ∀ {n : Nat} {rs : List (Except IoErr Str)}, (∀ s, .ok s ∈ rs → '\n' ∉ s) → l = items n rs →
    ∃ (blocks : List (List (Except IoErr Str) × PoUnit)) (tail : List (Except IoErr Str)), rs = blocks.flatMap Prod.fst ++ tail ∧ us = blocks.map Prod.snd ∧
      (∀ b ∈ blocks, LinesOf forms b) ∧ (∀ b, blocks.getLast? = some b → LinesEnd forms b tail) ∧ items (n + (blocks.flatMap Prod.fst).length) tail = l' := by
  induction h with
  | refl =>
    intro n rs hn hl
    exact ⟨[], rs, rfl, rfl, by simp, by simp, hl.symm⟩
  | @entry block u rest us l' h1 h2 h3 h4 ih =>
    intro n rs hn hl
    obtain ⟨r1, r2, rfl, e1, e2⟩ := items_split hl.symm
    have hn1 : ∀ s, .ok s ∈ r1 → '\n' ∉ s := fun s hs => hn s (by simp [hs])
    have hn2 : ∀ s, .ok s ∈ r2 → '\n' ∉ s := fun s hs => hn s (by simp [hs])
    obtain ⟨bs, tail, rfl, rfl, b3, b4, b5⟩ := ih hn2 e2.symm
    refine ⟨(r1, u) :: bs, tail, by simp, rfl, ?_, ?_, ?_⟩
    · intro b hb
      rcases List.mem_cons.mp hb with rfl | hb
      · refine ⟨h2, fun m => ?_⟩
        obtain ⟨block', k1, k2⟩ := items_numbers hn1 m e1
        exact ⟨block', k1, entry_numbers h1 k2⟩
      · exact b3 b hb
    · intro b hb
      cases bs with
      | cons c bs =>
        rw [List.getLast?_cons_cons] at hb
        exact b4 b hb
      | nil =>
        cases hb
        intro m m'
        obtain ⟨block', k1, k2⟩ := items_numbers hn1 m e1
        have k3 := entry_numbers h1 k2
        refine ⟨block', k1, k3, (ends_iff k3).mpr ?_⟩
        obtain ⟨j1, j2⟩ := (ends_iff h1).mp h3
        simp only [List.flatMap_nil, List.nil_append] at e2 hn2
        rw [← e2] at j1 j2
        obtain ⟨i1, i2⟩ := nextLine_numbers hn2 (n + r1.length) m'
        exact ⟨i1 j1, endsBefore_numbers j2 k2 i2⟩
    · rw [← b5]
      congr 1
      simp
      omega

theorem fresh_entry {forms : Option PluralForms} {block : List PoLine} {u : PoUnit} (h : Entry forms block u) (l : List Item) :
    FreshStart (block.map .ok ++ l) := by
  obtain ⟨o, idPl, id, m, b, b7, bh, b5, b6, rfl, rfl, h, f5, f6, f7⟩ := entry_split.mp ⟨u, h⟩
  have := fresh_ids h f5 ((b6 ++ b7).map .ok ++ l)
  simpa using this

theorem fresh_head {o : Bool} {b : List PoLine} (h : EntryHead o b) : FreshStart (b.map .ok) := by
  obtain ⟨cs, b1, b2, b3, b4, pc, pid, ppl, ctx, rfl, f1, f2, f3, g3, f4⟩ := h
  cases cs with
  | cons c cs => exact .inr ⟨_, _, rfl, .inl ⟨c, rfl⟩⟩
  | nil =>
    rcases optField_first f1 with rfl | ⟨n, p, s, b', rfl⟩
    · rcases optField_first f2 with rfl | ⟨n, p, s, b', rfl⟩
      · rcases optField_first f3 with rfl | ⟨n, p, s, b', rfl⟩
        · rcases optField_first f4 with rfl | ⟨n, p, s, b', rfl⟩
          · exact .inl rfl
          · exact .inr ⟨_, _, rfl, .inr ⟨_, _, _, _, rfl, not_valueKeyword (by decide)⟩⟩
        · exact .inr ⟨_, _, rfl, .inr ⟨_, _, _, _, rfl, not_valueKeyword (by decide)⟩⟩
      · exact .inr ⟨_, _, rfl, .inr ⟨_, _, _, _, rfl, not_valueKeyword (by decide)⟩⟩
    · exact .inr ⟨_, _, rfl, .inr ⟨_, _, _, _, rfl, not_valueKeyword (by decide)⟩⟩

theorem fresh_stops {forms : Option PluralForms} {l : List Item} (h : Stops forms l none) : FreshStart l := by
  generalize he : (none : Option Err) = e at h
  cases h with
  | endsInHead h => exact fresh_head h
  | endsAfterIds h =>
    obtain ⟨b, b5, b6, id, rfl, h, f5, f6⟩ := h
    have := fresh_ids h f5 (b6.map .ok)
    simpa using this
  | _ => cases he

theorem endsHere_fresh {forms : Option PluralForms} {block : List PoLine} {u : PoUnit} {l : List Item} (h : Entry forms block u) (hl : FreshStart l) :
    EndsHere forms block l := (ends_iff h).mpr (entryEnd_fresh hl)

/-- Entries put one after the other. -/
theorem run_lines {forms : Option PluralForms} {tail : List (Except IoErr Str)} {e : Option Err} {k : Nat}
    (ht : ∀ m, ∃ e', Run forms (items (1 + m) tail) [] e' ∧ SameEndAfter k m e e') :
    ∀ (blocks : List (List (Except IoErr Str) × PoUnit)), (∀ b ∈ blocks, LinesOf forms b) →
      (e = none ∨ ∀ b, blocks.getLast? = some b → LinesEnd forms b tail) → ∀ n,
      (∃ e', Run forms (items (1 + n) (blocks.flatMap Prod.fst ++ tail)) (blocks.map Prod.snd) e' ∧ SameEndAfter k (n + (blocks.flatMap Prod.fst).length) e e') ∧
        (blocks ≠ [] ∨ e = none → FreshStart (items (1 + n) (blocks.flatMap Prod.fst ++ tail))) := by
  have hf : e = none → ∀ n, FreshStart (items (1 + n) tail) := by
    rintro rfl n
    obtain ⟨e', h1, h2⟩ := ht n
    cases sameEndAfter_none h2
    generalize items (1 + n) tail = l at h1 ⊢
    cases h1 with | stop h => exact fresh_stops h
  intro blocks
  induction blocks with
  | nil =>
    intro _ _ n
    refine ⟨by simpa using ht n, ?_⟩
    rintro (h | h)
    · exact absurd rfl h
    · simpa using hf h n
  | cons b bs ih =>
    intro hb he n
    obtain ⟨hs, hb1⟩ := hb b (by simp)
    obtain ⟨block, k1, k2⟩ := hb1 (1 + n)
    have hi : items (1 + n) ((b :: bs).flatMap Prod.fst ++ tail) = block.map .ok ++ items (1 + (n + b.1.length)) (bs.flatMap Prod.fst ++ tail) := by
      rw [List.flatMap_cons, List.append_assoc, items_append, k1, Nat.add_assoc]
      rw [k1]
      simp
    obtain ⟨⟨e', r1, r2⟩, r3⟩ := ih (fun b hb' => hb b (by simp [hb'])) (by
      rcases he with he | he
      · exact .inl he
      · cases bs with
        | nil => exact .inr (by simp)
        | cons c bs => exact .inr fun b hb => he b (by rw [List.getLast?_cons_cons]; exact hb)) (n + b.1.length)
    rw [hi]
    rw [Nat.add_assoc, ← List.length_append, ← List.flatMap_cons] at r2
    refine ⟨⟨e', .entry k2 hs ?_ r1, r2⟩, fun _ => fresh_entry k2 _⟩
    by_cases hx : bs ≠ [] ∨ e = none
    · exact endsHere_fresh k2 (r3 hx)
    · have hx : bs = [] ∧ e ≠ none := ⟨Classical.byContradiction fun h => hx (.inl h), fun h => hx (.inr h)⟩
      obtain ⟨rfl, hne⟩ := hx
      rcases he with he | he
      · exact absurd he hne
      · obtain ⟨block', j1, j2, j3⟩ := he b rfl (1 + n) (1 + (n + b.1.length))
        rw [k1] at j1
        have : block = block' := by
          have := congrArg (List.filterMap fun x : Item => match x with | .ok a => some a | .error _ => none) j1
          simpa [List.filterMap_map, Function.comp_def] using this
        subst this
        simpa using j3

theorem values_empty (k : Str) : Values k [[]] [] := .miss (by rintro v ⟨a, b, h, _⟩; simp at h) .nil

/-- A header without text has no properties. -/
theorem header_empty {env : Env} {ns : List Note} {cs : List Comment} {hdr : Header env.Lang} (h : HeaderRule env ns cs [] hdr) : hdr.properties = [] := by
  have hl : IsLines [] [[]] := ⟨by simp, by simp, by simp [List.intercalate]⟩
  cases hp : hdr.properties with
  | nil => rfl
  | cons x l =>
    have := h.properties _ hl x.1 [] (values_empty x.1)
    rw [hp, if_pos rfl] at this
    obtain ⟨k, v⟩ := x
    simp at this

theorem linesOf_items {forms : Option PluralForms} {b : List (Except IoErr Str) × PoUnit} (h : LinesOf forms b) (hn : ∀ s, .ok s ∈ b.1 → '\n' ∉ s) :
    ∃ (forms : Option PluralForms) (block : List PoLine), LineItems 1 b.1 (block.map .ok) ∧ Entry forms block b.2 := by
  obtain ⟨block, h1, h2⟩ := h.2 1
  exact ⟨forms, block, h1 ▸ items_lineItems hn 1, h2⟩

/-! ### The property -/

/-- The lines after a header, in groups that can be moved. -/
theorem entries_core {env : Env} {stream : List Event} {hdr : Header env.Lang} {us : List PoUnit} {e : Option Err} {forms : Option PluralForms}
    {hd rs : List (Except IoErr Str)} {block : List PoLine} {u : PoUnit} {t : Option Str} (e0 : rawLines (flatten stream) = hd ++ rs)
    (e1 : items 1 hd = block.map .ok) (h1 : Entry none block u) (h2 : u.message = .simple [] t) (h3 : EndsHere none block (items (1 + hd.length) rs))
    (r1 : HeaderRule env u.notes u.comments (t.getD []) hdr) (r2 : FormsRule env (hdr.properties.lookup (c!"Plural-Forms")) (.ok forms))
    (r : Run forms (items (1 + hd.length) rs) us e) :
    ∃ (tail : List (Except IoErr Str)) (blocks : List (List (Except IoErr Str) × PoUnit)),
      rs = blocks.flatMap Prod.fst ++ tail ∧ us = blocks.map Prod.snd ∧
      (∀ b ∈ blocks, ∃ forms block, LineItems 1 b.1 (block.map .ok) ∧ Entry forms block b.2) ∧
      ∀ (blocks' : List (List (Except IoErr Str) × PoUnit)) (stream' : List Event), blocks' ⊆ blocks →
        (e = none ∨ blocks'.getLast? = blocks.getLast?) →
        rawLines (flatten stream') = hd ++ (blocks'.flatMap Prod.fst ++ tail) →
        ∃ hdr' e', SameHeader hdr' hdr ∧ Yields (parse env stream') hdr' (results (blocks'.map Prod.snd) e') ∧
          SameEndAfter (hd.length + (blocks.flatMap Prod.fst).length) (hd.length + (blocks'.flatMap Prod.fst).length) e e' := by
  have hn : ∀ s, .ok s ∈ rawLines (flatten stream) → '\n' ∉ s := fun _ hs => rawLines_no_nl hs
  rw [e0] at hn
  have hn2 : ∀ s, .ok s ∈ rs → '\n' ∉ s := fun s hs => hn s (by simp [hs])
  obtain ⟨l', a, s⟩ := r.after
  obtain ⟨blocks, tail, rfl, b2, b3, b4, b5⟩ := after_lines a hn2 rfl
  refine ⟨tail, blocks, rfl, b2, fun b hb => linesOf_items (b3 b hb) fun s hs => hn2 s (List.mem_append_left _ (List.mem_flatMap.mpr ⟨b, hb, hs⟩)), ?_⟩
  intro blocks' stream' hsub hlast hs'
  have hn3 : ∀ s, .ok s ∈ tail → '\n' ∉ s := fun s hs => hn2 s (by simp [hs])
  have ht : ∀ m, ∃ e', Run forms (items (1 + m) tail) [] e' ∧ SameEndAfter (hd.length + (blocks.flatMap Prod.fst).length) m e e' := by
    intro m
    rw [← b5, Nat.add_assoc] at s
    exact run_renumber (.stop s)
  obtain ⟨⟨e', q1, q2⟩, q3⟩ := run_lines ht blocks' (fun b hb => b3 b (hsub hb)) (by
    rcases hlast with hl | hl
    · exact .inl hl
    · rw [hl]; exact .inr b4) hd.length
  have hi' : streamItems stream' = block.map .ok ++ items (1 + hd.length) (blocks'.flatMap Prod.fst ++ tail) := by
    rw [streamItems_code, hs', items_append, e1]
    rw [e1]
    simp
  have hf : First (streamItems stream') (.header u.notes u.comments (t.getD []) (items (1 + hd.length) (blocks'.flatMap Prod.fst ++ tail))) := by
    rw [hi']
    refine .header h1 h2 ?_
    by_cases hx : blocks' ≠ [] ∨ e = none
    · exact endsHere_fresh h1 (q3 hx)
    · have hx : blocks' = [] ∧ e ≠ none := ⟨Classical.byContradiction fun h => hx (.inl h), fun h => hx (.inr h)⟩
      obtain ⟨rfl, hne⟩ := hx
      rcases hlast with hl | hl
      · exact absurd hl hne
      · have : blocks = [] := by
          cases blocks with
          | nil => rfl
          | cons b bs => simp [List.getLast?_cons] at hl
        subst this
        exact h3
  obtain ⟨hdr', w1, w2⟩ := reads_yields (Reads.headed hf r1 r2 q1)
  exact ⟨hdr', e', w1, w2, q2⟩

/-- **C63** The lines of an input with a header that has some property are those of the header, then those of the units, one group of lines for each unit, then
other lines.  In any input with the same lines before and after and any of these groups between them – in any order, some of them left out, some of them
repeated – each group gives the same unit, in the order of the groups, with the same header data, and reading stops in the same way, with the same error at the
same place after the groups.  (If reading stops with an error
then the last group must be the same, because the lines after it may otherwise belong to it.) -/
theorem C63_entries {env : Env} {stream : List Event} {hdr : Header env.Lang} {us : List PoUnit} {e : Option Err}
    (h : Yields (parse env stream) hdr (results us e)) (hp : hdr.properties ≠ []) :
    ∃ (hd tail : List (Except IoErr Str)) (blocks : List (List (Except IoErr Str) × PoUnit)),
      rawLines (flatten stream) = hd ++ (blocks.flatMap Prod.fst ++ tail) ∧ us = blocks.map Prod.snd ∧
      (∀ b ∈ blocks, ∃ forms block, LineItems 1 b.1 (block.map .ok) ∧ Entry forms block b.2) ∧
      ∀ (blocks' : List (List (Except IoErr Str) × PoUnit)) (stream' : List Event), blocks' ⊆ blocks →
        (e = none ∨ blocks'.getLast? = blocks.getLast?) →
        rawLines (flatten stream') = hd ++ (blocks'.flatMap Prod.fst ++ tail) →
        ∃ hdr' e', SameHeader hdr' hdr ∧ Yields (parse env stream') hdr' (results (blocks'.map Prod.snd) e') ∧
          SameEndAfter (hd.length + (blocks.flatMap Prod.fst).length) (hd.length + (blocks'.flatMap Prod.fst).length) e e' := by
  obtain ⟨forms, us', e', hx, hr⟩ := yields_reads h
  obtain ⟨rfl, rfl⟩ := results_inj hx
  cases hr with
  | nothing => exact absurd rfl hp
  | plain => exact absurd rfl hp
  | @headed ns cs t rest hdr forms us e f r1 r2 r =>
    generalize hi : streamItems stream = l at f
    generalize ho : FirstOut.header ns cs t rest = out at f
    cases f with
    | @header block u t' rest' h1 h2 h3 =>
      cases ho
      rw [streamItems_code] at hi
      obtain ⟨hd, rs, e0, e1, rfl⟩ := items_split hi
      obtain ⟨tail, blocks, rfl, k2, k3, k4⟩ := entries_core e0 e1 h1 h2 h3 r1 r2 r
      exact ⟨hd, tail, blocks, e0, k2, k3, k4⟩
    | noId => cases ho; exact absurd (header_empty r1) hp
    | _ => cases ho

/-- **C63** The same for every input that begins with the lines of a complete header, whether it has properties or not. -/
theorem C63_headed {env : Env} {stream : List Event} {hd rs : List (Except IoErr Str)} {hdr : Header env.Lang} {us : List PoUnit} {e : Option Err}
    (h0 : rawLines (flatten stream) = hd ++ rs) (hh : HeaderLines hd) (hc : NoContinuation rs) (h : Yields (parse env stream) hdr (results us e)) :
    ∃ (tail : List (Except IoErr Str)) (blocks : List (List (Except IoErr Str) × PoUnit)),
      rs = blocks.flatMap Prod.fst ++ tail ∧ us = blocks.map Prod.snd ∧
      (∀ b ∈ blocks, ∃ forms block, LineItems 1 b.1 (block.map .ok) ∧ Entry forms block b.2) ∧
      ∀ (blocks' : List (List (Except IoErr Str) × PoUnit)) (stream' : List Event), blocks' ⊆ blocks →
        (e = none ∨ blocks'.getLast? = blocks.getLast?) →
        rawLines (flatten stream') = hd ++ (blocks'.flatMap Prod.fst ++ tail) →
        ∃ hdr' e', SameHeader hdr' hdr ∧ Yields (parse env stream') hdr' (results (blocks'.map Prod.snd) e') ∧
          SameEndAfter (hd.length + (blocks.flatMap Prod.fst).length) (hd.length + (blocks'.flatMap Prod.fst).length) e e' := by
  obtain ⟨forms, us', e', hx, hr⟩ := yields_reads h
  obtain ⟨rfl, rfl⟩ := results_inj hx
  obtain ⟨block, u, t, e1, h1, h2, hcase⟩ := first_block h0 hh hc
  rcases hcase with ⟨e0, hf⟩ | ⟨h3, hf⟩
  · exact (not_rejects_reads (.first hf) hr).elim
  · cases hr with
    | nothing f => cases hf.unique f
    | plain f => cases hf.unique f
    | headed f r1 r2 r =>
      cases hf.unique f
      exact entries_core h0 e1 h1 h2 h3 r1 r2 r

/-- **C63** The same for inputs whose first entry is not a header, if at least one group of lines is left. -/
theorem C63_plain {env : Env} {stream : List Event} {hdr : Header env.Lang} {us : List PoUnit} {e : Option Err}
    (h : Yields (parse env stream) hdr (results us e)) {u : PoUnit} {rest : List Item} (hf : First (streamItems stream) (.unit u rest)) :
    ∃ (tail : List (Except IoErr Str)) (blocks : List (List (Except IoErr Str) × PoUnit)),
      rawLines (flatten stream) = blocks.flatMap Prod.fst ++ tail ∧ us = blocks.map Prod.snd ∧
      (∀ b ∈ blocks, ∃ forms block, LineItems 1 b.1 (block.map .ok) ∧ Entry forms block b.2) ∧
      ∀ (blocks' : List (List (Except IoErr Str) × PoUnit)) (stream' : List Event), blocks' ⊆ blocks → blocks' ≠ [] →
        (e = none ∨ blocks'.getLast? = blocks.getLast?) →
        rawLines (flatten stream') = blocks'.flatMap Prod.fst ++ tail →
        ∃ hdr' e', SameHeader hdr' hdr ∧ Yields (parse env stream') hdr' (results (blocks'.map Prod.snd) e') ∧
          SameEndAfter (blocks.flatMap Prod.fst).length (blocks'.flatMap Prod.fst).length e e' := by
  obtain ⟨forms, us', e', hx, hr⟩ := yields_reads h
  obtain ⟨rfl, rfl⟩ := results_inj hx
  have hn : ∀ s, .ok s ∈ rawLines (flatten stream) → '\n' ∉ s := fun _ hs => rawLines_no_nl hs
  cases hr with
  | nothing f => cases hf.unique f
  | headed f => cases hf.unique f
  | @plain u' rest' us e f r =>
    cases hf.unique f
    obtain ⟨block, h1, h2, h3, h4⟩ := first_unit f
    obtain ⟨l', a, s⟩ := r.after
    have a' : After none (streamItems stream) (u :: us) l' := by rw [h1]; exact .entry h2 h3 h4 a
    obtain ⟨blocks, tail, e0, b2, b3, b4, b5⟩ := after_lines a' hn (streamItems_code stream)
    refine ⟨tail, blocks, e0, b2, fun b hb => linesOf_items (b3 b hb) fun s hs => hn s (e0 ▸ List.mem_append_left _ (List.mem_flatMap.mpr ⟨b, hb, hs⟩)), ?_⟩
    intro blocks' stream' hsub hne hlast hs'
    rw [e0] at hn
    have hn3 : ∀ s, .ok s ∈ tail → '\n' ∉ s := fun s hs => hn s (by simp [hs])
    have ht : ∀ m, ∃ e', Run none (items (1 + m) tail) [] e' ∧ SameEndAfter (blocks.flatMap Prod.fst).length m e e' := by
      intro m
      rw [← b5] at s
      exact run_renumber (.stop s)
    obtain ⟨⟨e', q1, q2⟩, q3⟩ := run_lines ht blocks' (fun b hb => b3 b (hsub hb)) (by
      rcases hlast with hl | hl
      · exact .inl hl
      · rw [hl]; exact .inr b4) 0
    rw [Nat.zero_add] at q2
    rw [Nat.add_zero, ← hs', ← streamItems_code] at q1
    generalize hl : streamItems stream' = l at q1
    cases blocks' with
    | nil => exact absurd rfl hne
    | cons b bs =>
      rw [List.map_cons] at q1 ⊢
      cases q1 with
      | entry k1 k2 k3 k4 =>
        have : Reads env (streamItems stream') (plainHeader env) none (b.2 :: bs.map Prod.snd) e' := by
          rw [hl]
          exact .plain (.unit k1 k2 k3) k4
        obtain ⟨hdr', w1, w2⟩ := reads_yields this
        exact ⟨hdr', e', w1, w2, q2⟩

/-! ### Concrete cases -/

example := C63_entries rich_yields (by decide)

-- a header without properties
set_option maxRecDepth 100000 in
example := C63_headed (env := demoEnv) (stream := textStream (headLines (c!"no property") ++ demoLines')) (hd := (headLines (c!"no property")).map .ok) (rs := demoLines'.map .ok)
  (rawLines_text (by decide)) (headerLines_demo _) demo_noContinuation
  (yields_text (env := demoEnv) (ls := headLines (c!"no property") ++ demoLines') (res := ⟨⟨[], [], [], []⟩, none, _, _⟩) (by decide) (by rfl))

/-- Two entries, the first with a comment, after a header. -/
def orderLines (a b : List Str) : List Str := [c!"msgid \"\"", c!"msgstr \"Language: fr\\n\""] ++ (a ++ b)

/-- The lines of the first. -/
def orderA : List Str := [c!"", c!"# note", c!"msgid \"a\"", c!"msgstr \"b\""]

/-- The lines of the second. -/
def orderC : List Str := [c!"msgid \"c\"", c!"msgstr \"d\"", c!"\"e\""]

set_option maxRecDepth 100000 in
example (x y : List Str) (u v : PoUnit)
    (h : (x, y, u, v) ∈ [(orderA, orderC, { unitAB (c!"a") (c!"b") with notes := [⟨.translator, c!"note"⟩] }, unitAB (c!"c") (c!"de")),
      (orderC, orderA, unitAB (c!"c") (c!"de"), { unitAB (c!"a") (c!"b") with notes := [⟨.translator, c!"note"⟩] })]) :
    Yields (parse demoEnv (textStream (orderLines x y))) ⟨[], [], [(c!"Language", c!"fr")], c!"fr"⟩ (results [u, v] none) := by
  simp only [List.mem_cons, List.not_mem_nil, or_false, Prod.mk.injEq] at h
  rcases h with ⟨rfl, rfl, rfl, rfl⟩ | ⟨rfl, rfl, rfl, rfl⟩
  · exact yields_text (env := demoEnv) (ls := orderLines orderA orderC) (res := ⟨⟨[], [], [(c!"Language", c!"fr")], c!"fr"⟩, none, [_, _], none⟩) (by decide) (by rfl)
  · exact yields_text (env := demoEnv) (ls := orderLines orderC orderA) (res := ⟨⟨[], [], [(c!"Language", c!"fr")], c!"fr"⟩, none, [_, _], none⟩) (by decide) (by rfl)

-- why the last group must be the same if reading stops with an error: the line `#~ "c"` belongs to no entry after an active entry, but to an obsolete one
set_option maxRecDepth 100000 in
example : Yields (parse demoEnv (textStream (orderLines [c!"#~ msgid \"a\"", c!"#~ msgstr \"b\"", c!"msgid \"d\"", c!"msgstr \"e\""] [c!"#~ \"c\""])))
      ⟨[], [], [(c!"Language", c!"fr")], c!"fr"⟩ (results [{ unitAB (c!"a") (c!"b") with obsolete := true }, unitAB (c!"d") (c!"e")] (some (.parse 7 (c!"\"") (c!"msgid")))) ∧
    Yields (parse demoEnv (textStream (orderLines [c!"msgid \"d\"", c!"msgstr \"e\"", c!"#~ msgid \"a\"", c!"#~ msgstr \"b\""] [c!"#~ \"c\""])))
      ⟨[], [], [(c!"Language", c!"fr")], c!"fr"⟩ (results [unitAB (c!"d") (c!"e"), { unitAB (c!"a") (c!"bc") with obsolete := true }] none) :=
  ⟨yields_text (env := demoEnv) (ls := orderLines [c!"#~ msgid \"a\"", c!"#~ msgstr \"b\"", c!"msgid \"d\"", c!"msgstr \"e\""] [c!"#~ \"c\""])
      (res := ⟨⟨[], [], [(c!"Language", c!"fr")], c!"fr"⟩, none, [_, _], some _⟩) (by decide) (by rfl),
    yields_text (env := demoEnv) (ls := orderLines [c!"msgid \"d\"", c!"msgstr \"e\"", c!"#~ msgid \"a\"", c!"#~ msgstr \"b\""] [c!"#~ \"c\""])
      (res := ⟨⟨[], [], [(c!"Language", c!"fr")], c!"fr"⟩, none, [_, _], none⟩) (by decide) (by rfl)⟩

end Verif
