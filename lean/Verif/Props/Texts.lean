import Verif.Spec.Texts
import Verif.Props.Counting
import Verif.Props.Reorder
import Verif.Props.RoundTrip

/-! C90: the quoted texts and the data of the units are the same sequence. -/

namespace Verif
open Spec

/-! ### Texts of classified lines -/

/-- `TextsOf` for classified lines. -/
inductive LineTexts : List PoLine → Str → List (Bool × Slot × Str) → Prop
  | nil : LineTexts [] [] []
  | comment {n c s b ts} : LineTexts b [] ts → LineTexts (.comment n c s :: b) [] ts
  | continuation {n p s b t ts} : LineTexts b t ts → LineTexts (.continuation n p s :: b) (s ++ t) ts
  | message {n p k s b t ts} {o : Bool} {x : Slot} : (o = true ↔ Tilde p) → SlotKeyword x k → LineTexts b t ts →
      LineTexts (.message n p k s :: b) [] ((o, x, s ++ t) :: ts)

theorem LineTexts.append {a b : List PoLine} {t : Str} {ts ts' : List (Bool × Slot × Str)} (h : LineTexts a t ts) (h' : LineTexts b [] ts') :
    LineTexts (a ++ b) t (ts ++ ts') := by
  induction h with
  | nil => exact h'
  | comment _ ih => exact .comment ih
  | continuation _ ih => exact .continuation ih
  | message h1 h2 _ ih => exact .message h1 h2 ih

theorem Spec.TextsOf.append {a b : List (Except IoErr Str)} {t : Str} {ts ts' : List (Bool × Slot × Str)} (h : TextsOf a t ts) (h' : TextsOf b [] ts') :
    TextsOf (a ++ b) t (ts ++ ts') := by
  induction h with
  | nil => exact h'
  | blank h _ ih => exact .blank h ih
  | comment h _ ih => exact .comment h ih
  | continuation h _ ih => exact .continuation h ih
  | keyword h1 h2 h3 _ ih => exact .keyword h1 h2 h3 ih

theorem texts_lines {n : Nat} {rs : List (Except IoErr Str)} {b : List PoLine} {t : Str} {ts : List (Bool × Slot × Str)} (h : LineItems n rs (b.map .ok))
    (ht : LineTexts b t ts) : TextsOf rs t ts := by
  generalize hl : b.map Except.ok = l at h
  induction h generalizing b t ts with
  | nil => cases List.map_eq_nil_iff.mp hl; cases ht; exact .nil
  | failed => cases b <;> simp at hl
  | unrecognised => cases b <;> simp at hl
  | blank hb _ ih =>
    cases hb with
    | blank hw => exact .blank hw (ih ht hl)
  | @line n s rs ln l hc _ _ ih =>
    cases ht with
    | nil => cases hl
    | comment ht =>
      simp only [List.map_cons, List.cons.injEq, Except.ok.injEq] at hl
      obtain ⟨rfl, hl⟩ := hl
      cases hc with
      | comment _ _ hq => exact .comment hq (ih ht hl)
    | continuation ht =>
      simp only [List.map_cons, List.cons.injEq, Except.ok.injEq] at hl
      obtain ⟨rfl, hl⟩ := hl
      cases hc with
      | continuation hq => exact .continuation hq (ih ht hl)
    | message h1 h2 ht =>
      simp only [List.map_cons, List.cons.injEq, Except.ok.injEq] at hl
      obtain ⟨rfl, hl⟩ := hl
      cases hc with
      | keyword hq => exact .keyword hq h1 h2 (ih ht hl)

/-! ### Texts of fields and entries -/

theorem field_texts {kw : Str} {o : Bool} {b : List PoLine} {v : Str} {x : Slot} (hx : SlotKeyword x kw) (h : Field kw o b v) : LineTexts b [] [(o, x, v)] := by
  obtain ⟨p, ⟨n, s, cs, rfl, rfl⟩, ho⟩ := h
  refine .message ho hx ?_
  clear hx ho
  induction cs with
  | nil => exact .nil
  | cons c cs ih => exact .continuation ih

theorem opt_texts {kw : Str} {o : Bool} {b : List PoLine} {v : Option Str} {x : Slot} (hx : SlotKeyword x kw) (h : OptField kw o b v) :
    LineTexts b [] (optQuote o x v) := by
  cases h with
  | none => exact .nil
  | some h => exact field_texts hx h

theorem comment_texts (cs : List (Nat × Char × Str)) {b : List PoLine} {ts : List (Bool × Slot × Str)} (h : LineTexts b [] ts) :
    LineTexts (cs.map commentLine ++ b) [] ts := by
  induction cs with
  | nil => exact h
  | cons c cs ih => exact .comment ih

theorem value_texts {o : Bool} {hi lo : Nat} {b : List PoLine} {vs : List Str} (h : ValueFields o hi lo b vs) :
    LineTexts b [] (vs.map fun v => (o, .pluralText, v)) := by
  induction h with
  | nil => exact .nil
  | cons _ _ f _ ih => exact (field_texts (x := .pluralText) ⟨_, rfl⟩ f).append ih

/-- The texts of an entry are those of its unit. -/
theorem entry_texts {forms : Option PluralForms} {b : List PoLine} {u : PoUnit} (h : Entry forms b u) :
    ∃ ts, LineTexts b [] ts ∧ ts.filter counts = (unitQuotes u).filter counts := by
  obtain ⟨cs, b1, b2, b3, b4, b5, b6, b7, pid, ppl, id, idPl, rfl, f1, f2, f3, g3, f4, f5, f6, f7, f8, f9, f10⟩ := h
  obtain ⟨tx, h7, h8⟩ : ∃ tx, LineTexts b7 [] tx ∧ messageQuotes u.obsolete u.message = (u.obsolete, .id, id) :: (optQuote u.obsolete .pluralId idPl ++ tx) := by
    generalize u.message = m at f7
    cases f7 with
    | @simple b v f =>
      refine ⟨_, field_texts (x := .text) rfl f, ?_⟩
      by_cases hv : v = [] <;> simp [messageQuotes, optQuote, hv]
    | plural f _ => exact ⟨_, value_texts f, rfl⟩
  refine ⟨_, comment_texts cs ((opt_texts (x := .prevContext) rfl f1).append ((opt_texts (x := .prevId) rfl f2).append ((opt_texts (x := .prevPluralId) rfl f3).append
    ((opt_texts (x := .context) rfl f4).append ((field_texts (x := .id) rfl f5).append ((opt_texts (x := .pluralId) rfl f6).append h7)))))), ?_⟩
  unfold unitQuotes
  rw [h8]
  have hp : (optQuote u.obsolete .prevId pid ++ optQuote u.obsolete .prevPluralId ppl).filter counts = (previousQuotes u.obsolete u.prevMessage).filter counts := by
    rw [f8]
    cases pid with
    | none => rw [g3 rfl]; simp [previousMessage, previousQuotes, optQuote, counts]
    | some pid => cases ppl <;> simp [previousMessage, previousQuotes, optQuote]
  rw [← List.singleton_append (l := optQuote u.obsolete .pluralId idPl ++ tx)]
  simp only [List.filter_append] at hp ⊢
  rw [← hp]
  simp only [List.append_assoc]

theorem head_texts {o : Bool} {b : List PoLine} (h : EntryHead o b) : ∃ ts, LineTexts b [] ts ∧ ∀ x ∈ ts, isTextSlot x = false := by
  obtain ⟨cs, b1, b2, b3, b4, pc, pid, ppl, ctx, rfl, f1, f2, f3, g3, f4⟩ := h
  refine ⟨_, comment_texts cs ((opt_texts (x := .prevContext) rfl f1).append ((opt_texts (x := .prevId) rfl f2).append ((opt_texts (x := .prevPluralId) rfl f3).append
    (opt_texts (x := .context) rfl f4)))), ?_⟩
  cases pc <;> cases pid <;> cases ppl <;> cases ctx <;> simp [optQuote, isTextSlot]

theorem tail_texts {forms : Option PluralForms} {l : List Item} (h : Stops forms l none) :
    ∃ b ts, l = b.map .ok ∧ LineTexts b [] ts ∧ ∀ x ∈ ts, isTextSlot x = false := by
  obtain ⟨b, rfl, ⟨o, h⟩ | ⟨o, idPl, h⟩⟩ := stops_none h
  · obtain ⟨ts, h1, h2⟩ := head_texts h
    exact ⟨b, ts, rfl, h1, h2⟩
  · obtain ⟨a, b5, b6, id, rfl, h1, f5, f6⟩ := h
    obtain ⟨ts, h1, h2⟩ := head_texts h1
    refine ⟨_, _, rfl, h1.append ((field_texts (x := .id) rfl f5).append (opt_texts (x := .pluralId) rfl f6)), ?_⟩
    intro x hx
    rcases List.mem_append.mp hx with hx | hx
    · exact h2 x hx
    · cases idPl <;> simp [optQuote] at hx
      · subst hx; rfl
      · rcases hx with rfl | rfl <;> rfl

theorem after_texts {forms : Option PluralForms} {l l' : List Item} {us : List PoUnit} (h : After forms l us l') {n : Nat} {rs : List (Except IoErr Str)}
    (hn : ∀ s, .ok s ∈ rs → '\n' ∉ s) (hl : items n rs = l) : ∃ rs1 rs2 n' ts, rs = rs1 ++ rs2 ∧ items n' rs2 = l' ∧ TextsOf rs1 [] ts ∧
      ts.filter counts = (us.flatMap unitQuotes).filter counts := by
  induction h generalizing n rs with
  | refl => exact ⟨[], rs, n, [], rfl, hl, .nil, rfl⟩
  | entry he _ _ _ ih =>
    obtain ⟨r1, r2, rfl, h1, h2⟩ := items_split hl
    obtain ⟨r3, r4, n', ts, rfl, h3, h4, h5⟩ := ih (fun s hs => hn s (List.mem_append.mpr (.inr hs))) h2
    obtain ⟨ts', h6, h7⟩ := entry_texts he
    have h8 := items_lineItems (fun s hs => hn s (List.mem_append.mpr (.inl hs))) n
    rw [h1] at h8
    refine ⟨r1 ++ r3, r4, n', ts' ++ ts, by simp, h3, (texts_lines h8 h6).append h4, ?_⟩
    rw [List.flatMap_cons, List.filter_append, List.filter_append, h5, h7]

/-! ### The theorems -/

/-- **C90** In an input that is read without error, the quoted texts after the header, each with its place and its marking, are the texts of the units, one unit
after the other, in the order of a file; then texts of an entry without translation may follow, not if the input ends with a translation. -/
theorem C90_texts {env : Env} {stream : List Event} {rs : List (Except IoErr Str)} {hdr : Header env.Lang} {us : List PoUnit} (h : Spec.Body stream rs)
    (hy : Yields (parse env stream) hdr (results us none)) :
    ∃ ts tail, TextsOf rs [] (ts ++ tail) ∧ ts.filter counts = (us.flatMap unitQuotes).filter counts ∧ (∀ x ∈ tail, isTextSlot x = false) ∧
      (EndsWithText rs → tail = []) := by
  obtain ⟨hn, forms, m, hr⟩ := body_run h hy
  by_cases he : EndsWithText rs
  · obtain ⟨rs1, rs2, n', ts, rfl, h1, h2, h3⟩ := after_texts (after_complete hn hr (.inl he)) hn rfl
    have h4 := items_lineItems (fun s hs => hn s (List.mem_append.mpr (.inr hs))) n'
    rw [h1] at h4
    exact ⟨ts, [], h2.append (texts_lines (b := []) h4 .nil), h3, by simp, fun _ => rfl⟩
  · obtain ⟨l', ha, hs⟩ := hr.after
    obtain ⟨rs1, rs2, n', ts, rfl, h1, h2, h3⟩ := after_texts ha hn rfl
    obtain ⟨b, tail, rfl, h5, h6⟩ := tail_texts hs
    have h4 := items_lineItems (fun s hs => hn s (List.mem_append.mpr (.inr hs))) n'
    rw [h1] at h4
    exact ⟨ts, tail, h2.append (texts_lines h4 h5), h3, h6, fun h => absurd h he⟩

/-- **C90** If there is an error, the same holds for a beginning of the lines after the header. -/
theorem C90_error {env : Env} {stream : List Event} {rs : List (Except IoErr Str)} {hdr : Header env.Lang} {us : List PoUnit} {e : Option Err} (h : Spec.Body stream rs)
    (hy : Yields (parse env stream) hdr (results us e)) :
    ∃ rs1 rs2 ts, rs = rs1 ++ rs2 ∧ TextsOf rs1 [] ts ∧ ts.filter counts = (us.flatMap unitQuotes).filter counts := by
  obtain ⟨hn, forms, m, hr⟩ := body_run h hy
  obtain ⟨l', ha, _⟩ := hr.after
  obtain ⟨rs1, rs2, n', ts, h1, _, h2, h3⟩ := after_texts ha hn rfl
  exact ⟨rs1, rs2, ts, h1, h2, h3⟩

theorem slot_unique {x y : Slot} {k : Str} (h : SlotKeyword x k) (h' : SlotKeyword y k) : x = y := by
  have no : ∀ z ∈ [c!"|msgctxt", c!"|msgid", c!"|msgid_plural", c!"msgctxt", c!"msgid", c!"msgid_plural", c!"msgstr"], ∀ i, z ≠ valueKeyword i := by
    intro z hz i hi
    refine not_valueKeyword ?_ i hi
    clear hi
    revert z
    decide
  cases x <;> cases y <;> first
    | rfl
    | (simp only [SlotKeyword] at h h'; subst h; exact absurd h' (by decide))
    | (simp only [SlotKeyword] at h h'; obtain ⟨i, h⟩ := h; exact absurd (h'.symm.trans h) (no _ (by simp) i))
    | (simp only [SlotKeyword] at h h'; obtain ⟨i, h'⟩ := h'; exact absurd (h.symm.trans h') (no _ (by simp) i))

/-- **C90** Lines have one sequence of texts. -/
theorem C90_unique {rs : List (Except IoErr Str)} {t t' : Str} {ts ts' : List (Bool × Slot × Str)} (hn : ∀ s, .ok s ∈ rs → '\n' ∉ s) (h : TextsOf rs t ts)
    (h' : TextsOf rs t' ts') : t = t' ∧ ts = ts' := by
  have blank_quoted : ∀ {s m k raw}, '\n' ∉ s → White s → ¬ QuotedLine s m k raw := by
    intro s m k raw hs hw hq
    cases k with
    | none => cases classified_unique hs (.blank hw : Classified s 0 _) (.continuation hq)
    | some k => cases classified_unique hs (.blank hw : Classified s 0 _) (.keyword hq)
  induction h generalizing t' ts' with
  | nil => cases h'; exact ⟨rfl, rfl⟩
  | blank hw _ ih =>
    have ih := fun {t' ts'} => @ih t' ts' (fun s hs => hn s (List.mem_cons_of_mem _ hs))
    cases h' with
    | blank _ h' => exact ih h'
    | comment _ h' => exact ih h'
    | continuation hq => exact absurd hq (blank_quoted (hn _ (List.mem_cons_self ..)) hw)
    | keyword hq => exact absurd hq (blank_quoted (hn _ (List.mem_cons_self ..)) hw)
  | comment hq _ ih =>
    have ih := fun {t' ts'} => @ih t' ts' (fun s hs => hn s (List.mem_cons_of_mem _ hs))
    cases h' with
    | blank _ h' => exact ih h'
    | comment _ h' => exact ih h'
    | continuation hq' => exact absurd hq' (hq _ _ _)
    | keyword hq' => exact absurd hq' (hq _ _ _)
  | continuation hq _ ih =>
    have ih := fun {t' ts'} => @ih t' ts' (fun s hs => hn s (List.mem_cons_of_mem _ hs))
    have hs := hn _ (List.mem_cons_self ..)
    cases h' with
    | blank hw => exact absurd hq (blank_quoted hs hw)
    | comment hq' => exact absurd hq (hq' _ _ _)
    | continuation hq' h' =>
      have e := classified_unique hs (.continuation hq : Classified _ 0 _) (.continuation hq')
      simp only [Option.some.injEq, PoLine.continuation.injEq] at e
      obtain ⟨rfl, rfl⟩ := ih h'
      exact ⟨by rw [e.2.2], rfl⟩
    | keyword hq' => cases classified_unique hs (.continuation hq : Classified _ 0 _) (.keyword hq')
  | keyword hq h1 h2 _ ih =>
    have ih := fun {t' ts'} => @ih t' ts' (fun s hs => hn s (List.mem_cons_of_mem _ hs))
    have hs := hn _ (List.mem_cons_self ..)
    cases h' with
    | blank hw => exact absurd hq (blank_quoted hs hw)
    | comment hq' => exact absurd hq (hq' _ _ _)
    | continuation hq' => cases classified_unique hs (.keyword hq : Classified _ 0 _) (.continuation hq')
    | keyword hq' h3 h4 h' =>
      have e := classified_unique hs (.keyword hq : Classified _ 0 _) (.keyword hq')
      simp only [Option.some.injEq, PoLine.message.injEq] at e
      obtain ⟨rfl, rfl⟩ := ih h'
      obtain ⟨_, e1, e2, e3⟩ := e
      rw [← e2] at h4
      rw [← e1] at h3
      refine ⟨rfl, ?_⟩
      rw [slot_unique h2 h4, e3, show _ = _ from Bool.eq_iff_iff.mpr (h1.trans h3.symm)]

/-! ### The texts determine the units -/

theorem takeWhile_all {α : Type} {p : α → Bool} {a b : List α} (ha : ∀ x ∈ a, p x = true) (hb : ∀ x, b.head? = some x → p x = false) :
    (a ++ b).takeWhile p = a ∧ (a ++ b).dropWhile p = b := by
  induction a with
  | nil =>
    cases b with
    | nil => exact ⟨rfl, rfl⟩
    | cons x b => simp [hb x rfl]
  | cons x a ih =>
    obtain ⟨h1, h2⟩ := ih fun y hy => ha y (List.mem_cons_of_mem _ hy)
    simp [ha x (List.mem_cons_self ..), h1, h2]

/-- Texts before the translation, then the translation. -/
structure Shape (l a b : List (Bool × Slot × Str)) : Prop where
  eq : l = a ++ b
  before : ∀ x ∈ a, isTextSlot x = false
  texts : ∀ x ∈ b, isTextSlot x = true
  ne : b ≠ []
  some : a ≠ []

theorem unitQuotes_shape {forms : Option PluralForms} {u : PoUnit} (h : WritableUnit forms u) : ∃ a b, Shape ((unitQuotes u).filter counts) a b := by
  have hm := h.message
  have mem : ∀ x ∈ (optQuote u.obsolete .prevContext u.prevContext ++ previousQuotes u.obsolete u.prevMessage ++ optQuote u.obsolete .context u.context).filter counts,
      isTextSlot x = false := by
    intro x hx
    have hx := (List.mem_filter.mp hx).1
    have opt : ∀ {y : Slot} {v : Option Str}, x ∈ optQuote u.obsolete y v → x.2.1 = y := by
      intro y v hx
      cases v with
      | none => cases hx
      | some v => cases List.mem_singleton.mp hx; rfl
    have prev : x ∈ previousQuotes u.obsolete u.prevMessage → x.2.1 = .prevId ∨ x.2.1 = .prevPluralId := by
      intro hx
      generalize u.prevMessage = m at hx
      cases m <;> simp [previousQuotes] at hx
      · subst hx; exact .inl rfl
      · rcases hx with rfl | rfl
        · exact .inl rfl
        · exact .inr rfl
    unfold isTextSlot
    rcases List.mem_append.mp hx with hx | hx
    · rcases List.mem_append.mp hx with hx | hx
      · rw [opt hx]; rfl
      · rcases prev hx with h | h <;> rw [h] <;> rfl
    · rw [opt hx]; rfl
  unfold unitQuotes
  rw [← List.append_assoc, ← List.append_assoc, List.filter_append]
  generalize (optQuote u.obsolete .prevContext u.prevContext ++ previousQuotes u.obsolete u.prevMessage ++ optQuote u.obsolete .context u.context).filter counts = pre
    at mem ⊢
  cases hmsg : u.message with
  | simple id t =>
    refine ⟨pre ++ [(u.obsolete, .id, id)], [(u.obsolete, .text, t.getD [])], by simp [messageQuotes, counts], ?_, by simp [isTextSlot], by simp, by simp⟩
    intro x hx
    rcases List.mem_append.mp hx with hx | hx
    · exact mem x hx
    · cases List.mem_singleton.mp hx; rfl
  | plural p =>
    rw [hmsg] at hm
    refine ⟨pre ++ [(u.obsolete, .id, p.singular), (u.obsolete, .pluralId, p.plural)], p.values.map fun v => (u.obsolete, .pluralText, v), ?_, ?_, ?_, ?_, by simp⟩
    · have : (p.values.map fun v => (u.obsolete, Slot.pluralText, v)).filter counts = p.values.map fun v => (u.obsolete, Slot.pluralText, v) := by
        rw [List.filter_eq_self]
        intro x hx
        obtain ⟨v, _, rfl⟩ := List.mem_map.mp hx
        rfl
      rw [messageQuotes, List.filter_cons_of_pos (by rfl), List.filter_cons_of_pos (by rfl), this]
      simp
    · intro x hx
      rcases List.mem_append.mp hx with hx | hx
      · exact mem x hx
      · simp at hx; rcases hx with rfl | rfl <;> rfl
    · intro x hx
      obtain ⟨v, _, rfl⟩ := List.mem_map.mp hx
      rfl
    · simpa using hm.1

/-- The texts in a place. -/
def slotTexts (x : Slot) (l : List (Bool × Slot × Str)) : List Str := (l.filter fun y => y.2.1 == x).map fun y => y.2.2

theorem slotTexts_append (x : Slot) (a b : List (Bool × Slot × Str)) : slotTexts x (a ++ b) = slotTexts x a ++ slotTexts x b := by
  simp [slotTexts]

theorem slotTexts_opt (x y : Slot) (o : Bool) (v : Option Str) : slotTexts x (optQuote o y v) = if y = x then v.toList else [] := by
  cases v <;> by_cases h : y = x <;> simp [slotTexts, optQuote, h]

theorem slotTexts_values (x : Slot) (o : Bool) (vs : List Str) : slotTexts x (vs.map fun v => (o, Slot.pluralText, v)) = if x = .pluralText then vs else [] := by
  induction vs with
  | nil => simp [slotTexts]
  | cons v vs ih =>
    by_cases h : x = .pluralText
    · subst h
      simp [slotTexts] at ih ⊢
      exact ih
    · have h' : Slot.pluralText ≠ x := fun e => h e.symm
      simp [slotTexts, h, h'] at ih ⊢

theorem unitQuotes_counts (u : PoUnit) : (unitQuotes u).filter counts = optQuote u.obsolete .prevContext u.prevContext ++
    ((previousQuotes u.obsolete u.prevMessage).filter counts ++ (optQuote u.obsolete .context u.context ++ messageQuotes u.obsolete u.message)) := by
  have opt : ∀ (x : Slot) (v : Option Str), x ≠ .prevId → (optQuote u.obsolete x v).filter counts = optQuote u.obsolete x v := by
    intro x v hx
    cases v <;> simp [optQuote, counts, hx]
  have msg : (messageQuotes u.obsolete u.message).filter counts = messageQuotes u.obsolete u.message := by
    rw [List.filter_eq_self]
    intro x hx
    generalize u.message = m at hx
    cases m <;> simp [messageQuotes] at hx
    · rcases hx with rfl | rfl <;> rfl
    · rcases hx with rfl | rfl | ⟨v, _, rfl⟩ <;> rfl
  unfold unitQuotes
  simp only [List.filter_append, opt _ _ (by decide : Slot.prevContext ≠ .prevId), opt _ _ (by decide : Slot.context ≠ .prevId), msg]

theorem unitQuotes_inj {forms : Option PluralForms} {u u' : PoUnit} (h : WritableUnit forms u) (h' : WritableUnit forms u')
    (e : (unitQuotes u).filter counts = (unitQuotes u').filter counts) : SameTexts u u' := by
  have slots : ∀ {u : PoUnit}, WritableUnit forms u →
      slotTexts .prevContext ((unitQuotes u).filter counts) = u.prevContext.toList ∧
      slotTexts .context ((unitQuotes u).filter counts) = u.context.toList ∧
      u.prevMessage = (match slotTexts .prevPluralId ((unitQuotes u).filter counts) with
        | [] => .simple ((slotTexts .prevId ((unitQuotes u).filter counts)).head?.getD []) none
        | pl :: _ => .plural ⟨(slotTexts .prevId ((unitQuotes u).filter counts)).head?.getD [], pl, [], forms⟩) ∧
      u.message = (match slotTexts .pluralId ((unitQuotes u).filter counts) with
        | [] => .simple ((slotTexts .id ((unitQuotes u).filter counts)).head?.getD [])
            (match (slotTexts .text ((unitQuotes u).filter counts)).head?.getD [] with | [] => none | c :: s => some (c :: s))
        | pl :: _ => .plural ⟨(slotTexts .id ((unitQuotes u).filter counts)).head?.getD [], pl, slotTexts .pluralText ((unitQuotes u).filter counts), forms⟩) ∧
      (((unitQuotes u).filter counts).head?.map Prod.fst) = some u.obsolete := by
    intro u h
    have hm := h.message
    have hp := h.previous
    rw [unitQuotes_counts]
    simp only [slotTexts_append, slotTexts_opt]
    have p1 : ∀ x, x ≠ .prevId → x ≠ .prevPluralId → slotTexts x ((previousQuotes u.obsolete u.prevMessage).filter counts) = [] := by
      intro x h1 h2
      unfold slotTexts
      rw [List.map_eq_nil_iff, List.filter_eq_nil_iff]
      intro y hy
      have hy := (List.mem_filter.mp hy).1
      generalize u.prevMessage = m at hy
      cases m <;> simp [previousQuotes] at hy
      · subst hy; simp [Ne.symm h1]
      · rcases hy with rfl | rfl
        · simp [Ne.symm h1]
        · simp [Ne.symm h2]
    have m1 : ∀ x, x ≠ .id → x ≠ .pluralId → x ≠ .text → x ≠ .pluralText → slotTexts x (messageQuotes u.obsolete u.message) = [] := by
      intro x h1 h2 h3 h4
      unfold slotTexts
      rw [List.map_eq_nil_iff, List.filter_eq_nil_iff]
      intro y hy
      generalize u.message = m at hy
      cases m <;> simp [messageQuotes] at hy
      · rcases hy with rfl | rfl
        · simp [Ne.symm h1]
        · simp [Ne.symm h3]
      · rcases hy with rfl | rfl | ⟨v, _, rfl⟩
        · simp [Ne.symm h1]
        · simp [Ne.symm h2]
        · simp [Ne.symm h4]
    rw [p1 .prevContext (by decide) (by decide), p1 .context (by decide) (by decide), p1 .id (by decide) (by decide), p1 .pluralId (by decide) (by decide),
      p1 .text (by decide) (by decide), p1 .pluralText (by decide) (by decide),
      m1 .prevContext (by decide) (by decide) (by decide) (by decide), m1 .context (by decide) (by decide) (by decide) (by decide),
      m1 .prevId (by decide) (by decide) (by decide) (by decide), m1 .prevPluralId (by decide) (by decide) (by decide) (by decide)]
    refine ⟨by simp, by simp, ?_, ?_, ?_⟩
    · clear p1 m1 hm
      generalize u.prevMessage = m at hp
      cases m with
      | simple id t =>
        have : t = none := hp
        subst this
        by_cases hid : id = [] <;> simp [previousQuotes, slotTexts, counts, hid]
      | plural p =>
        obtain ⟨a, c, vs, f⟩ := p
        obtain ⟨hv, hf⟩ : vs = [] ∧ f = forms := hp
        subst hv hf
        by_cases hid : a = [] <;> simp [previousQuotes, slotTexts, counts, hid]
    · clear p1 m1 hp
      generalize u.message = m at hm
      cases m with
      | simple id t =>
        have ht : t ≠ some [] := hm.2
        rcases t with _ | _ | _
        · simp [messageQuotes, slotTexts]
        · exact absurd rfl ht
        · simp [messageQuotes, slotTexts]
      | plural p =>
        obtain ⟨a, c, vs, f⟩ := p
        obtain ⟨_, _, hf⟩ := hm
        simp only at hf
        subst hf
        have hc : ∀ x, slotTexts x (messageQuotes u.obsolete (.plural ⟨a, c, vs, f⟩)) = (if x = .id then [a] else []) ++ ((if x = .pluralId then [c] else []) ++
            if x = .pluralText then vs else []) := by
          intro x
          rw [messageQuotes, ← slotTexts_values x u.obsolete vs]
          cases x <;> simp [slotTexts]
        simp [hc]
    · rcases u.prevContext with _ | _
      · rcases u.prevMessage with ⟨_ | _, _⟩ | ⟨⟨_ | _, _, _, _⟩⟩ <;> rcases u.context with _ | _ <;> rcases u.message with ⟨_, _⟩ | ⟨⟨_, _, _, _⟩⟩ <;> rfl
      · rfl
  obtain ⟨a1, a2, a3, a4, a5⟩ := slots h
  obtain ⟨b1, b2, b3, b4, b5⟩ := slots h'
  rw [e] at a1 a2 a3 a4 a5
  have opt : ∀ {a b : Option Str}, a.toList = b.toList → a = b := by
    intro a b h
    cases a <;> cases b <;> simp_all
  exact ⟨Option.some.inj (a5.symm.trans b5), opt (a1.symm.trans b1), a3.trans b3.symm, opt (a2.symm.trans b2), a4.trans b4.symm⟩

theorem texts_decode {forms : Option PluralForms} {us us' : List PoUnit} (h : ∀ u ∈ us, WritableUnit forms u) (h' : ∀ u ∈ us', WritableUnit forms u)
    {tail tail' : List (Bool × Slot × Str)} (ht : ∀ x ∈ tail, isTextSlot x = false) (ht' : ∀ x ∈ tail', isTextSlot x = false)
    (e : (us.flatMap unitQuotes).filter counts ++ tail = (us'.flatMap unitQuotes).filter counts ++ tail') : Each SameTexts us us' := by
  have step : ∀ {u : PoUnit} {us : List PoUnit} {tail : List (Bool × Slot × Str)}, WritableUnit forms u → (∀ u ∈ us, WritableUnit forms u) →
      (∀ x ∈ tail, isTextSlot x = false) → ∃ a b, Shape ((unitQuotes u).filter counts) a b ∧
      ((u :: us).flatMap unitQuotes).filter counts ++ tail = a ++ (b ++ ((us.flatMap unitQuotes).filter counts ++ tail)) ∧
      (∀ x, (b ++ ((us.flatMap unitQuotes).filter counts ++ tail)).head? = some x → (!isTextSlot x) = false) ∧
      (∀ x, ((us.flatMap unitQuotes).filter counts ++ tail).head? = some x → isTextSlot x = false) := by
    intro u us tail hu hus ht
    obtain ⟨a, b, hs⟩ := unitQuotes_shape hu
    refine ⟨a, b, hs, ?_, ?_, ?_⟩
    · rw [List.flatMap_cons, List.filter_append, hs.eq]
      simp
    · intro x hx
      have hne := hs.ne
      cases hb : b with
      | nil => exact absurd hb hne
      | cons y b' =>
        rw [hb] at hx
        have := hs.texts y (by rw [hb]; simp)
        cases hx
        simp [this]
    · intro x hx
      cases us with
      | nil => exact ht x (List.mem_of_mem_head? hx)
      | cons v vs =>
        obtain ⟨a', b', hs'⟩ := unitQuotes_shape (hus v (List.mem_cons_self ..))
        rw [List.flatMap_cons, List.filter_append, hs'.eq] at hx
        have hne := hs'.some
        cases ha : a' with
        | nil => exact absurd ha hne
        | cons y a'' =>
          rw [ha] at hx
          have := hs'.before y (by rw [ha]; simp)
          cases hx
          exact this
  have clash : ∀ {u : PoUnit} {us : List PoUnit} {tail tail' : List (Bool × Slot × Str)}, WritableUnit forms u → (∀ x ∈ tail', isTextSlot x = false) →
      ((u :: us).flatMap unitQuotes).filter counts ++ tail = tail' → False := by
    intro u us tail tail' hu ht e
    obtain ⟨a, b, hs⟩ := unitQuotes_shape hu
    cases hb : b with
    | nil => exact hs.ne hb
    | cons y b' =>
      have h1 := hs.texts y (by rw [hb]; simp)
      have h2 := ht y (by rw [← e, List.flatMap_cons, List.filter_append, hs.eq, hb]; simp)
      rw [h1] at h2
      cases h2
  induction us generalizing us' with
  | nil =>
    cases us' with
    | nil => exact .nil
    | cons u' us' => exact (clash (h' u' (List.mem_cons_self ..)) ht e.symm).elim
  | cons u us ih =>
    cases us' with
    | nil => exact (clash (h u (List.mem_cons_self ..)) ht' e).elim
    | cons u' us' =>
      have hu := h u (List.mem_cons_self ..)
      have hu' := h' u' (List.mem_cons_self ..)
      have hus : ∀ u ∈ us, WritableUnit forms u := fun u hu => h u (List.mem_cons_of_mem _ hu)
      have hus' : ∀ u ∈ us', WritableUnit forms u := fun u hu => h' u (List.mem_cons_of_mem _ hu)
      obtain ⟨a, b, s1, s2, s3, s4⟩ := step hu hus ht
      obtain ⟨a', b', s1', s2', s3', s4'⟩ := step hu' hus' ht'
      rw [s2, s2'] at e
      obtain ⟨x1, x2⟩ := takeWhile_all (a := a) (p := fun x => !isTextSlot x) (fun x hx => by simp [s1.before x hx]) s3
      obtain ⟨x1', x2'⟩ := takeWhile_all (a := a') (p := fun x => !isTextSlot x) (fun x hx => by simp [s1'.before x hx]) s3'
      have ea : a = a' := by rw [← x1, ← x1', e]
      have er : b ++ ((us.flatMap unitQuotes).filter counts ++ tail) = b' ++ ((us'.flatMap unitQuotes).filter counts ++ tail') := by rw [← x2, ← x2', e]
      obtain ⟨y1, y2⟩ := takeWhile_all (p := isTextSlot) s1.texts s4
      obtain ⟨y1', y2'⟩ := takeWhile_all (p := isTextSlot) s1'.texts s4'
      have eb : b = b' := by rw [← y1, ← y1', er]
      have ec : (us.flatMap unitQuotes).filter counts ++ tail = (us'.flatMap unitQuotes).filter counts ++ tail' := by rw [← y2, ← y2', er]
      refine .cons (unitQuotes_inj hu hu' ?_) (ih hus hus' ec)
      rw [s1.eq, s1'.eq, ea, eb]

/-- **C90** The quoted texts determine the units, except for what comes from comments: two inputs that are read without error, with the same `Plural-Forms`
property and the same quoted texts after the header, give units that agree in everything else. -/
theorem C90_determined {env : Env} {stream stream' : List Event} {rs rs' : List (Except IoErr Str)} {hdr hdr' : Header env.Lang} {us us' : List PoUnit}
    {ts : List (Bool × Slot × Str)} (h : Spec.Body stream rs) (h' : Spec.Body stream' rs') (hy : Yields (parse env stream) hdr (results us none))
    (hy' : Yields (parse env stream') hdr' (results us' none))
    (hp : hdr.properties.lookup (c!"Plural-Forms") = hdr'.properties.lookup (c!"Plural-Forms")) (ht : TextsOf rs [] ts) (ht' : TextsOf rs' [] ts) :
    Each SameTexts us us' := by
  have norm : ∀ {stream : List Event} {hdr : Header env.Lang} {us : List PoUnit}, Yields (parse env stream) hdr (results us none) →
      ∃ forms, (∀ u ∈ us, WritableUnit forms u) ∧ FormsRule env (hdr.properties.lookup (c!"Plural-Forms")) (.ok forms) := by
    intro stream hdr us hy
    obtain ⟨c, forms, ⟨w1, w2⟩, rfl, rfl⟩ := C46_normal hy
    refine ⟨forms, w2, ?_⟩
    cases hc : c.header with
    | none => rw [hc] at w1; rw [w1]; exact .absent
    | some hd => rw [hc] at w1; exact w1.2
  obtain ⟨forms, w, hf⟩ := norm hy
  obtain ⟨forms', w', hf'⟩ := norm hy'
  rw [formsRule_iff] at hf hf'
  rw [hp, hf'] at hf
  cases hf
  obtain ⟨ps, tail, a1, a2, a3, _⟩ := C90_texts h hy
  obtain ⟨ps', tail', b1, b2, b3, _⟩ := C90_texts h' hy'
  obtain ⟨hn, _⟩ := body_run h hy
  obtain ⟨hn', _⟩ := body_run h' hy'
  have e := (C90_unique hn a1 ht).2.trans (C90_unique hn' b1 ht').2.symm
  have e2 := congrArg (List.filter counts) e
  rw [List.filter_append, List.filter_append, a2, b2] at e2
  exact texts_decode w w' (fun x hx => a3 x (List.mem_filter.mp hx).1) (fun x hx => b3 x (List.mem_filter.mp hx).1) e2

/-! ### Examples -/

/-- The same quoted texts as in `cutTexts` with another layout and another comment. -/
def otherTexts : List Str :=
  [c!"#. y", c!"msgid \"\"", c!"\"a\"", c!"", c!"msgid_plural \"b\"", c!"msgstr[0] \"c\"", c!"  msgstr[1] \"d\"", c!"#. x", c!"msgctxt \"x\"", c!"msgid \"a\""]

/-- The quoted texts of both. -/
def demoTexts : List (Bool × Slot × Str) :=
  [(false, .id, c!"a"), (false, .pluralId, c!"b"), (false, .pluralText, c!"c"), (false, .pluralText, c!"d"), (false, .context, c!"x"), (false, .id, c!"a")]

theorem cut_lineItems : LineItems 1 (cutTexts.map .ok) ([.comment 1 ':' (c!"x.c:1"), .message 2 [] (c!"msgid") (c!"a"), .message 3 [] (c!"msgid_plural") (c!"b"),
    .message 4 [] (c!"msgstr[0]") (c!"c"), .message 5 [] (c!"msgstr[1]") (c!"d"), .message 6 [] (c!"msgctxt") (c!"x"), .message 7 [] (c!"msgid") (c!"a")].map .ok) := by
  have h := items_lineItems (rs := cutTexts.map .ok) (by
    intro s hs
    simp only [List.mem_map, Except.ok.injEq, exists_eq_right] at hs
    revert s
    decide) 1
  exact h

theorem other_lineItems : LineItems 1 (otherTexts.map .ok) ([.comment 1 '.' (c!"y"), .message 2 [] (c!"msgid") [], .continuation 3 [] (c!"a"), .message 5 [] (c!"msgid_plural") (c!"b"),
    .message 6 [] (c!"msgstr[0]") (c!"c"), .message 7 [] (c!"msgstr[1]") (c!"d"), .comment 8 '.' (c!"x"), .message 9 [] (c!"msgctxt") (c!"x"),
    .message 10 [] (c!"msgid") (c!"a")].map .ok) := by
  have h := items_lineItems (rs := otherTexts.map .ok) (by
    intro s hs
    simp only [List.mem_map, Except.ok.injEq, exists_eq_right] at hs
    revert s
    decide) 1
  exact h

theorem plainMark : (false = true) ↔ Tilde [] := by simp [Tilde]

theorem cut_texts : TextsOf (cutTexts.map .ok) [] demoTexts :=
  texts_lines cut_lineItems (.comment (.message plainMark rfl (.message plainMark rfl (.message plainMark ⟨0, by decide⟩ (.message plainMark ⟨1, by decide⟩
    (.message plainMark rfl (.message plainMark rfl .nil)))))))

theorem other_texts : TextsOf (otherTexts.map .ok) [] demoTexts :=
  texts_lines other_lineItems (.comment (.message plainMark rfl (.continuation (.message plainMark rfl (.message plainMark ⟨0, by decide⟩ (.message plainMark ⟨1, by decide⟩
    (.comment (.message plainMark rfl (.message plainMark rfl .nil)))))))))

theorem other_body : Spec.Body (textStream (headLines (c!"X: y") ++ otherTexts)) (otherTexts.map .ok) :=
  .inl ⟨(headLines (c!"X: y")).map .ok, by rw [rawLines_text (by decide)]; rfl, headerLines_demo _, noContinuation_head (by decide) rfl⟩

theorem other_yields : Yields (parse demoEnv (textStream (headLines (c!"X: y") ++ otherTexts))) ⟨[], [], [(c!"X", c!"y")], []⟩
    (results [{ twoTextsUnit none with locations := [], notes := [⟨.developer, c!"y"⟩] }] none) :=
  yields_text (env := demoEnv) (res := ⟨⟨[], [], [(c!"X", c!"y")], []⟩, none, [{ twoTextsUnit none with locations := [], notes := [⟨.developer, c!"y"⟩] }], none⟩) (by decide) (by rfl)

-- `C90_texts`: the texts are those of the unit, then those of the entry that is cut off
example : demoTexts.filter counts = (unitQuotes (twoTextsUnit none)).filter counts ++ [(false, .context, c!"x"), (false, .id, c!"a")] := by decide

example := C90_texts cutTexts_body cutTexts_yields

-- `C90_determined`: the places come from a comment, the rest is the same
example : Each SameTexts [twoTextsUnit none] [{ twoTextsUnit none with locations := [], notes := [⟨.developer, c!"y"⟩] }] :=
  C90_determined cutTexts_body other_body cutTexts_yields other_yields rfl cut_texts other_texts

-- all places
example : (unitQuotes richUnit).map (fun x => x.2.1) = [.prevContext, .prevId, .context, .id, .pluralId, .pluralText, .pluralText] := by rfl

-- `C90_unique`
example (ts : List (Bool × Slot × Str)) (h : TextsOf (cutTexts.map .ok) [] ts) : ts = demoTexts :=
  (C90_unique (by
    intro s hs
    simp only [List.mem_map, Except.ok.injEq, exists_eq_right] at hs
    revert s
    decide) h cut_texts).2

-- `C90_error`: the unit before an error
example : ∃ rs1 rs2 ts, (cutTexts ++ [c!"msgstr \"b\"", c!"\"c\"", c!"junk"]).map Except.ok = rs1 ++ rs2 ∧ TextsOf rs1 [] ts ∧
    ts.filter counts = ([twoTextsUnit none].flatMap unitQuotes).filter counts := by
  refine C90_error (env := demoEnv) (stream := textStream (headLines (c!"X: y") ++ (cutTexts ++ [c!"msgstr \"b\"", c!"\"c\"", c!"junk"])))
    (hdr := ⟨[], [], [(c!"X", c!"y")], []⟩) (e := some (.parse 13 (c!"junk") []))
    (.inl ⟨(headLines (c!"X: y")).map .ok, by rw [rawLines_text (by decide)]; rfl, headerLines_demo _, noContinuation_head (by decide) rfl⟩)
    (yields_text (env := demoEnv) (res := ⟨⟨[], [], [(c!"X", c!"y")], []⟩, none, [twoTextsUnit none], some (.parse 13 (c!"junk") [])⟩) (by decide) (by rfl))

end Verif
