import Verif.Spec.Cause
import Verif.Props.Prefix
import Verif.Props.Layout
import Verif.Props.Change

/-! C69: an error is caused by its line. -/

namespace Verif
open Spec

/-- The item that an error belongs to. -/
inductive Culprit : Item → Err → Prop
  | unreadable {e} : Culprit (.error e) e
  | missing {ln kw} : kw ≠ [] → Culprit (.ok ln) (missing kw ln)
  | noSource {ln} : Culprit (.ok ln) (.unexpected (lineNumber ln) (c!"Source should not be empty"))

/-- The outcome of the input before the culprit. -/
def CutOutcome (pre : List Item) (x : Item) (e : Err) (us us' : List PoUnit) (e' : Option Err) : Prop :=
  us' = us ∧ e' = none ∨ x = .error e ∧ (e' = none ∧ (∃ u, us' = us ++ [u]) ∨
    us' = us ∧ ∃ ln, .ok ln ∈ pre ∧ e' = some (.unexpected (lineNumber ln) (c!"Source should not be empty")))

theorem comments_first {block : List PoLine} (h : ∃ x, x ∈ block ∧ ¬ IsComment x) :
    ∃ cs ln b, block = cs ++ ln :: b ∧ (∀ c ∈ cs, IsComment c) ∧ ¬ IsComment ln := by
  induction block with
  | nil => obtain ⟨x, hx, _⟩ := h; cases hx
  | cons y b ih =>
    by_cases hy : IsComment y
    · obtain ⟨x, hx, hn⟩ := h
      rcases List.mem_cons.mp hx with rfl | hx
      · exact absurd hy hn
      · obtain ⟨cs, ln, b', rfl, h1, h2⟩ := ih ⟨x, hx, hn⟩
        refine ⟨y :: cs, ln, b', rfl, ?_, h2⟩
        intro c hc
        rcases List.mem_cons.mp hc with rfl | hc
        · exact hy
        · exact h1 c hc
    · exact ⟨[], y, b, rfl, by simp, hy⟩

theorem source_cases (m : Message) : (∃ t, m = .simple [] t) ∨ HasSource m := by
  cases m with
  | simple id t => cases id <;> simp [HasSource]
  | plural p => exact .inr trivial

theorem textKeyword_ne (idPl : Option Str) : textKeyword idPl ≠ [] := by
  cases idPl <;> simp [textKeyword]

theorem stops_cut {forms : Option PluralForms} {l : List Item} {e : Err} (h : Stops forms l (some e)) :
    ∃ pre x post, l = pre ++ x :: post ∧ Culprit x e ∧ (∃ us' e', Run forms pre us' e' ∧ CutOutcome pre x e [] us' e') ∧
      ((∀ k t, e ≠ .unexpected k t) → ∀ post', Stops forms (pre ++ x :: post') (some e)) := by
  cases h with
  | @unreadable block e tl h =>
    refine ⟨block.map .ok, .error e, tl, rfl, .unreadable, ?_, fun _ _ => .unreadable h⟩
    rcases h with ⟨o, h⟩ | ⟨o, idPl, h⟩ | ⟨u, h⟩
    · exact ⟨[], none, .stop (.endsInHead h), .inl ⟨rfl, rfl⟩⟩
    · exact ⟨[], none, .stop (.endsAfterIds h), .inl ⟨rfl, rfl⟩⟩
    · rcases source_cases u.message with ⟨t, hm⟩ | hm
      · obtain ⟨cs, ln, b, rfl, h1, h2⟩ := comments_first h.hasKeyword
        refine ⟨[], _, .stop (by simpa using Stops.noSource (rest := []) h h1 h2 hm (.inl rfl)), .inr ⟨rfl, .inr ⟨rfl, ln, by simp, rfl⟩⟩⟩
      · exact ⟨[u], none, by simpa using Run.entry (rest := []) h hm (.inl rfl) (.stop stops_nil_none), .inr ⟨rfl, .inl ⟨rfl, u, rfl⟩⟩⟩
  | @noId o block ln tl h h' =>
    exact ⟨block.map .ok, .ok ln, tl, rfl, .missing (by simp), ⟨[], none, .stop (.endsInHead h), .inl ⟨rfl, rfl⟩⟩, fun _ _ => .noId h h'⟩
  | @noText o idPl block ln tl h h' =>
    exact ⟨block.map .ok, .ok ln, tl, rfl, .missing (textKeyword_ne _), ⟨[], none, .stop (.endsAfterIds h), .inl ⟨rfl, rfl⟩⟩, fun _ _ => .noText h h'⟩
  | @noSource cs ln block u rest t h h1 h2 h3 h4 =>
    refine ⟨cs.map .ok, .ok ln, block.map .ok ++ rest, by simp, .noSource, ?_, fun h => absurd rfl (h _ _)⟩
    obtain ⟨ds, rfl⟩ := all_comments h1
    exact ⟨[], none, .stop (.endsInHead (entryHead_comments false ds)), .inl ⟨rfl, rfl⟩⟩

/-- What ends a block still ends it if the items are cut, or changed after the first one. -/
theorem ends_cut {forms : Option PluralForms} {block : List PoLine} {pre post post' : List Item} {x : Item} (h : EndsHere forms block (pre ++ x :: post)) :
    EndsHere forms block pre ∧ EndsHere forms block (pre ++ x :: post') := by
  cases pre with
  | nil => exact ⟨.inl rfl, ends_prefix h⟩
  | cons z pre => exact ⟨ends_prefix h, ends_prefix h⟩

theorem CutOutcome.block {pre : List Item} {x : Item} {e : Err} {us us' : List PoUnit} {e' : Option Err} (h : CutOutcome pre x e us us' e') (b : List PoLine) :
    CutOutcome (b.map .ok ++ pre) x e us us' e' := by
  rcases h with h | ⟨h, h' | ⟨h1, ln, h2, h3⟩⟩
  · exact .inl h
  · exact .inr ⟨h, .inl h'⟩
  · exact .inr ⟨h, .inr ⟨h1, ln, List.mem_append_right _ h2, h3⟩⟩

theorem CutOutcome.unit {pre : List Item} {x : Item} {e : Err} {us us' : List PoUnit} {e' : Option Err} (h : CutOutcome pre x e us us' e') (u : PoUnit) :
    CutOutcome pre x e (u :: us) (u :: us') e' := by
  rcases h with ⟨rfl, h⟩ | ⟨h, ⟨h', v, rfl⟩ | ⟨rfl, h1⟩⟩
  · exact .inl ⟨rfl, h⟩
  · exact .inr ⟨h, .inl ⟨h', v, rfl⟩⟩
  · exact .inr ⟨h, .inr ⟨rfl, h1⟩⟩

theorem run_cut {forms : Option PluralForms} {l : List Item} {us : List PoUnit} {e : Err} (h : Run forms l us (some e)) :
    ∃ pre x post, l = pre ++ x :: post ∧ Culprit x e ∧ (∃ us' e', Run forms pre us' e' ∧ CutOutcome pre x e us us' e') ∧
      ((∀ k t, e ≠ .unexpected k t) → ∀ post', Run forms (pre ++ x :: post') us (some e)) := by
  generalize he : some e = oe at h
  induction h with
  | stop h =>
    subst he
    obtain ⟨pre, x, post, h1, h2, h3, h4⟩ := stops_cut h
    exact ⟨pre, x, post, h1, h2, h3, fun hu post' => .stop (h4 hu post')⟩
  | @entry block u rest us oe h1 h2 h3 _ ih =>
    obtain ⟨pre, x, post, rfl, i2, ⟨us', e', i3, i4⟩, i5⟩ := ih he
    subst he
    refine ⟨block.map .ok ++ pre, x, post, by simp, i2, ⟨u :: us', e', .entry h1 h2 (ends_cut h3 (post' := post)).1 i3, (i4.block _).unit u⟩, ?_⟩
    intro hu post'
    rw [List.append_assoc]
    exact .entry h1 h2 (ends_cut h3).2 (i5 hu post')

theorem outcome_nil {x : Item} {e : Err} {us us' : List PoUnit} {e' : Option Err} {forms : Option PluralForms} (h : Run forms [] us' e')
    (ho : CutOutcome [] x e us us' e') : us = [] ∧ us' = [] ∧ e' = none := by
  obtain ⟨rfl, rfl⟩ := run_nil h
  rcases ho with ⟨h, _⟩ | ⟨_, ⟨_, u, h⟩ | ⟨_, ln, h, _⟩⟩
  · exact ⟨h.symm, rfl, rfl⟩
  · simp at h
  · simp at h

theorem reads_cut {env : Env} {l : List Item} {hdr : Header env.Lang} {forms : Option PluralForms} {us : List PoUnit} {e : Err}
    (h : Reads env l hdr forms us (some e)) :
    ∃ pre x post, l = pre ++ x :: post ∧ Culprit x e ∧
      (∃ hdr' forms' us' e', Reads env pre hdr' forms' us' e' ∧ CutOutcome pre x e us us' e' ∧
        (hdr' = hdr ∨ hdr' = plainHeader env ∧ us' = [] ∧ e' = none ∧ ∀ y ∈ pre, ∃ ln, y = .ok ln ∧ IsComment ln)) ∧
      ((∀ k t, e ≠ .unexpected k t) → ∀ post', Reads env (pre ++ x :: post') hdr forms us (some e)) := by
  cases h with
  | @plain u rest us e f r =>
    obtain ⟨block, rfl, h2, h3, h4⟩ := first_unit f
    obtain ⟨pre, x, post, rfl, i2, ⟨us', e', i3, i4⟩, i5⟩ := run_cut r
    refine ⟨block.map .ok ++ pre, x, post, by simp, i2,
      ⟨_, none, u :: us', e', .plain (.unit h2 h3 (ends_cut h4 (post' := post)).1) i3, (i4.block _).unit u, .inl rfl⟩, ?_⟩
    intro hu post'
    rw [List.append_assoc]
    exact .plain (.unit h2 h3 (ends_cut h4).2) (i5 hu post')
  | @headed ns cs t rest hdr forms us e f r1 r2 r =>
    obtain ⟨pre, x, post, rfl, i2, ⟨us', e', i3, i4⟩, i5⟩ := run_cut r
    cases f with
    | @header block u t _ h1 h2 h3 =>
      refine ⟨block.map .ok ++ pre, x, post, by simp, i2,
        ⟨hdr, forms, us', e', .headed (.header h1 h2 (ends_cut h3 (post' := post)).1) r1 r2 i3, i4.block _, .inl rfl⟩, ?_⟩
      intro hu post'
      rw [List.append_assoc]
      exact .headed (.header h1 h2 (ends_cut h3).2) r1 r2 (i5 hu post')
    | @noId block _ h1 h2 h3 =>
      have hends : ∀ {z : Item} {a b : List Item}, FirstEnds block (z :: a) → FirstEnds block (z :: b) := by
        rintro z a b (h | ⟨ln, tl, h, hp⟩)
        · cases h
        · simp only [List.cons.injEq] at h
          exact .inr ⟨ln, b, by rw [h.1], hp⟩
      refine ⟨block.map .ok ++ pre, x, post, by simp, i2, ?_, ?_⟩
      · cases pre with
        | nil =>
          obtain ⟨rfl, rfl, rfl⟩ := outcome_nil i3 i4
          by_cases hc : ∀ ln ∈ block, IsComment ln
          · refine ⟨plainHeader env, none, [], none, .nothing (by simpa using First.comments hc), .inl ⟨rfl, rfl⟩, .inr ⟨rfl, rfl, rfl, ?_⟩⟩
            intro y hy
            rw [List.append_nil] at hy
            obtain ⟨ln, hln, rfl⟩ := List.mem_map.mp hy
            exact ⟨ln, rfl, hc ln hln⟩
          · have : ∃ ln ∈ block, ¬ IsComment ln := by simpa using hc
            exact ⟨hdr, forms, [], none, .headed (.noId h1 (.inr this) (.inl rfl)) r1 r2 i3, .inl ⟨rfl, rfl⟩, .inl rfl⟩
        | cons z pre =>
          exact ⟨hdr, forms, us', e', .headed (.noId h1 (.inl (by simp)) (hends h3)) r1 r2 i3, i4.block _, .inl rfl⟩
      · intro hu post'
        rw [List.append_assoc]
        refine .headed (.noId h1 (.inl (by simp)) ?_) r1 r2 (i5 hu post')
        cases pre with
        | nil => exact hends h3
        | cons z pre => exact hends h3

theorem header_cases {env : Env} {l : List Item} {ns : List Note} {cs : List Comment} {t : Str} (h : First l (.header ns cs t [])) :
    (∃ hdr forms, Reads env l hdr forms [] none) ∨ ∃ e s, Rejects env l e ∧ FormsError env s e := by
  rcases hf : textForms env ((textHeader env ns cs t).properties.lookup (c!"Plural-Forms")) with e | f
  · have hr := (formsRule_iff _ _ _).mpr hf
    have hr' := hr
    generalize (textHeader env ns cs t).properties.lookup (c!"Plural-Forms") = p at hr'
    cases hr' with
    | bad _ h1 => exact .inr ⟨e, _, .badForms h (headerRule_text _ _ _ _) hr, h1⟩
  · exact .inl ⟨_, f, .headed h (headerRule_text _ _ _ _) ((formsRule_iff _ _ _).mpr hf) (.stop stops_nil_none)⟩

theorem first_cut {env : Env} {l : List Item} {e : Err} (h : First l (.fail e)) :
    ∃ pre x post, l = pre ++ x :: post ∧ Culprit x e ∧
      ((∃ hdr forms us, Reads env pre hdr forms us none ∧ (us = [] ∨ x = .error e ∧ us.length = 1)) ∨
        x = .error e ∧ ∃ e' s, Rejects env pre e' ∧ FormsError env s e') ∧
      ∀ post', First (pre ++ x :: post') (.fail e) := by
  cases h with
  | @unreadable block e tl h =>
    refine ⟨block.map .ok, .error e, tl, rfl, .unreadable, ?_, fun _ => .unreadable h⟩
    have noid : (∃ o, EntryHead o block) ∨ StrayPlural block →
        (∃ hdr forms us, Reads env (block.map .ok) hdr forms us none ∧ (us = [] ∨ (Except.error e : Item) = .error e ∧ us.length = 1)) ∨
        (Except.error e : Item) = .error e ∧ ∃ e' s, Rejects env (block.map .ok) e' ∧ FormsError env s e' := by
      intro h
      by_cases hc : ∀ ln ∈ block, IsComment ln
      · exact .inl ⟨_, _, [], .nothing (.comments hc), .inl rfl⟩
      · have : ∃ ln ∈ block, ¬ IsComment ln := by simpa using hc
        rcases header_cases (env := env) (First.noId (rest := []) h (.inr this) (.inl rfl)) with ⟨hdr, f, hr⟩ | ⟨e', s, hr, hs⟩
        · exact .inl ⟨hdr, f, [], by simpa using hr, .inl rfl⟩
        · exact .inr ⟨rfl, e', s, by simpa using hr, hs⟩
    rcases h with (h | ⟨o, idPl, h⟩ | ⟨u, h⟩) | h
    · exact noid (.inl h)
    · exact .inl ⟨_, _, [], .nothing (.cut h), .inl rfl⟩
    · rcases source_cases u.message with ⟨t, hm⟩ | hm
      · rcases header_cases (env := env) (First.header (rest := []) h hm (.inl rfl)) with ⟨hdr, f, hr⟩ | ⟨e', s, hr, hs⟩
        · exact .inl ⟨hdr, f, [], by simpa using hr, .inl rfl⟩
        · exact .inr ⟨rfl, e', s, by simpa using hr, hs⟩
      · exact .inl ⟨_, _, [u], .plain (by simpa using First.unit (rest := []) h hm (.inl rfl)) (.stop stops_nil_none), .inr ⟨rfl, rfl⟩⟩
    · exact noid (.inr h)
  | @noText o idPl block ln tl h h' =>
    exact ⟨block.map .ok, .ok ln, tl, rfl, .missing (textKeyword_ne _), .inl ⟨_, _, [], .nothing (.cut h), .inl rfl⟩, fun _ => .noText h h'⟩

/-! ### Positions -/

theorem LineItems.cut_ok {n : Nat} {rs : List (Except IoErr Str)} {l : List Item} (h : LineItems n rs l) {pre post : List Item} {ln : PoLine}
    (hl : l = pre ++ .ok ln :: post) : n ≤ lineNumber ln ∧ lineNumber ln < n + rs.length ∧ LineItems n (rs.take (lineNumber ln - n)) pre ∧
      LineItems n (rs.take (lineNumber ln - n + 1)) (pre ++ [.ok ln]) := by
  induction h generalizing pre with
  | nil => simp at hl
  | failed => cases pre <;> simp at hl
  | unrecognised => cases pre <;> simp at hl
  | @blank n s rs l hc h ih =>
    obtain ⟨h1, h2, h3, h4⟩ := ih hl
    refine ⟨by omega, by rw [List.length_cons]; omega, ?_, ?_⟩
    · rw [show lineNumber ln - n = (lineNumber ln - (n + 1)) + 1 from by omega, List.take_succ_cons]
      exact .blank hc h3
    · rw [show lineNumber ln - n + 1 = (lineNumber ln - (n + 1) + 1) + 1 from by omega, List.take_succ_cons]
      exact .blank hc h4
  | @line n s rs ln' l hc hne h ih =>
    cases pre with
    | nil =>
      simp only [List.nil_append, List.cons.injEq, Except.ok.injEq] at hl
      obtain ⟨rfl, rfl⟩ := hl
      have := classified_line hc hne
      rw [this]
      refine ⟨Nat.le_refl _, by rw [List.length_cons]; omega, by rw [Nat.sub_self]; exact .nil, ?_⟩
      rw [Nat.sub_self]
      exact .line hc hne .nil
    | cons y pre =>
      simp only [List.cons_append, List.cons.injEq] at hl
      obtain ⟨rfl, hl⟩ := hl
      obtain ⟨h1, h2, h3, h4⟩ := ih hl
      refine ⟨by omega, by rw [List.length_cons]; omega, ?_, ?_⟩
      · rw [show lineNumber ln - n = (lineNumber ln - (n + 1)) + 1 from by omega, List.take_succ_cons]
        exact .line hc hne h3
      · rw [show lineNumber ln - n + 1 = (lineNumber ln - (n + 1) + 1) + 1 from by omega, List.take_succ_cons]
        exact .line hc hne h4

theorem LineItems.cut_error {n : Nat} {rs : List (Except IoErr Str)} {l : List Item} (h : LineItems n rs l) (hn : 1 ≤ n) {pre post : List Item} {e : Err}
    (hl : l = pre ++ .error e :: post) : Unreadable e ∧ ∃ k, AtLine e k ∧ n ≤ k ∧ k < n + rs.length ∧ LineItems n (rs.take (k - n)) pre ∧
      LineItems n (rs.take (k - n + 1)) (pre ++ [.error e]) := by
  induction h generalizing pre with
  | nil => simp at hl
  | @failed n x rs =>
    cases pre with
    | nil =>
      simp only [List.nil_append, List.cons.injEq, Except.error.injEq] at hl
      obtain ⟨rfl, _⟩ := hl
      refine ⟨.io, n, .io hn, Nat.le_refl _, by rw [List.length_cons]; omega, by rw [Nat.sub_self]; exact .nil, ?_⟩
      rw [Nat.sub_self]
      exact .failed
    | cons => simp at hl
  | @unrecognised n s rs hc =>
    cases pre with
    | nil =>
      simp only [List.nil_append, List.cons.injEq, Except.error.injEq] at hl
      obtain ⟨rfl, _⟩ := hl
      refine ⟨.unrecognised, n, .unrecognised hn, Nat.le_refl _, by rw [List.length_cons]; omega, by rw [Nat.sub_self]; exact .nil, ?_⟩
      rw [Nat.sub_self]
      exact .unrecognised hc
    | cons => simp at hl
  | @blank n s rs l hc h ih =>
    obtain ⟨hu, k, hk, h1, h2, h3, h4⟩ := ih (by omega) hl
    refine ⟨hu, k, hk, by omega, by rw [List.length_cons]; omega, ?_, ?_⟩
    · rw [show k - n = (k - (n + 1)) + 1 from by omega, List.take_succ_cons]
      exact .blank hc h3
    · rw [show k - n + 1 = (k - (n + 1) + 1) + 1 from by omega, List.take_succ_cons]
      exact .blank hc h4
  | @line n s rs ln' l hc hne h ih =>
    cases pre with
    | nil => simp at hl
    | cons y pre =>
      simp only [List.cons_append, List.cons.injEq] at hl
      obtain ⟨rfl, hl⟩ := hl
      obtain ⟨hu, k, hk, h1, h2, h3, h4⟩ := ih (by omega) hl
      refine ⟨hu, k, hk, by omega, by rw [List.length_cons]; omega, ?_, ?_⟩
      · rw [show k - n = (k - (n + 1)) + 1 from by omega, List.take_succ_cons]
        exact .line hc hne h3
      · rw [show k - n + 1 = (k - (n + 1) + 1) + 1 from by omega, List.take_succ_cons]
        exact .line hc hne h4

/-- The line of a culprit. -/
theorem culprit_line {stream : List Event} {pre post : List Item} {x : Item} {e : Err} (h : streamItems stream = pre ++ x :: post) (hc : Culprit x e) :
    ∃ k, AtLine e k ∧ 1 ≤ k ∧ k ≤ (rawLines (flatten stream)).length ∧ (x = .error e → Unreadable e) ∧
      (∀ stream', rawLines (flatten stream') = (rawLines (flatten stream)).take (k - 1) → streamItems stream' = pre) ∧
      ∀ stream', (rawLines (flatten stream')).take k = (rawLines (flatten stream)).take k → ∃ post', streamItems stream' = pre ++ x :: post' := by
  have hi := (stream_items stream _).mpr rfl
  have key : ∃ k, AtLine e k ∧ 1 ≤ k ∧ k ≤ (rawLines (flatten stream)).length ∧ (x = .error e → Unreadable e) ∧
      LineItems 1 ((rawLines (flatten stream)).take (k - 1)) pre ∧ LineItems 1 ((rawLines (flatten stream)).take k) (pre ++ [x]) := by
    cases hc with
    | unreadable =>
      obtain ⟨hu, k, hk, h1, h2, h3, h4⟩ := LineItems.cut_error hi (Nat.le_refl _) h
      exact ⟨k, hk, h1, by omega, fun _ => hu, h3, by rw [show k - 1 + 1 = k from by omega] at h4; exact h4⟩
    | @missing ln kw hkw =>
      obtain ⟨h1, h2, h3, h4⟩ := LineItems.cut_ok hi h
      exact ⟨lineNumber ln, .missing h1 hkw, h1, by omega, nofun, h3, by rw [show lineNumber ln - 1 + 1 = lineNumber ln from by omega] at h4; exact h4⟩
    | @noSource ln =>
      obtain ⟨h1, h2, h3, h4⟩ := LineItems.cut_ok hi h
      exact ⟨lineNumber ln, .noSource h1, h1, by omega, nofun, h3, by rw [show lineNumber ln - 1 + 1 = lineNumber ln from by omega] at h4; exact h4⟩
  obtain ⟨k, h1, h2, h3, h4, h5, h6⟩ := key
  refine ⟨k, h1, h2, h3, h4, ?_, ?_⟩
  · intro stream' hs
    rw [← hs] at h5
    exact ((stream_items stream' _).mp h5).symm
  · intro stream' hs
    have hn : ∀ s, .ok s ∈ (rawLines (flatten stream)).take k → '\n' ∉ s := fun s h => rawLines_no_nl (List.mem_of_mem_take h)
    have hp := h6.unique hn (items_lineItems hn 1)
    have hr : rawLines (flatten stream') = (rawLines (flatten stream)).take k ++ (rawLines (flatten stream')).drop k := by rw [← hs, List.take_append_drop]
    rw [streamItems_code, hr]
    by_cases he : ∃ e, .error e ∈ items 1 ((rawLines (flatten stream)).take k)
    · obtain ⟨e', he⟩ := he
      rw [items_error he, ← hp]
      exact ⟨[], rfl⟩
    · rw [items_append (fun e' h => he ⟨e', h⟩), ← hp]
      exact ⟨_, by rw [List.append_assoc]; rfl⟩

variable {env : Env} {stream : List Event} {hdr : Header env.Lang}

/-- **C69** The iterator yields the units `us` and then an error.  The error belongs to a line `k` of the input.  An input that consists of the lines
before that line is read without error, gives the units `us`, and has the same header data.  Exceptions: If the error is that of an unreadable line, the entry directly before it, which is lost, is complete
now: it is an additional unit, or an entry with an empty source, which is an error of a line before line `k`.  If only comments come
before line `k`, these are no longer the comments of a header. -/
theorem C69_before {us : List PoUnit} {e : Err} (h : Yields (parse env stream) hdr (results us (some e))) :
    ∃ k, AtLine e k ∧ 1 ≤ k ∧ k ≤ (rawLines (flatten stream)).length ∧
      ∀ stream', rawLines (flatten stream') = (rawLines (flatten stream)).take (k - 1) →
        ∃ hdr' us' e', Yields (parse env stream') hdr' (results us' e') ∧
          (us' = us ∧ e' = none ∨
            Unreadable e ∧ (e' = none ∧ (∃ u, us' = us ++ [u]) ∨
              us' = us ∧ ∃ j, j < k ∧ e' = some (.unexpected j (c!"Source should not be empty")))) ∧
          (SameHeader hdr' hdr ∨ SameHeader hdr' (plainHeader env) ∧ us' = [] ∧ e' = none ∧
            ∀ y ∈ streamItems stream', ∃ ln, y = .ok ln ∧ IsComment ln) := by
  obtain ⟨forms, us0, e0, hx, hr⟩ := yields_reads h
  obtain ⟨rfl, rfl⟩ := results_inj hx
  obtain ⟨pre, x, post, h1, h2, ⟨hdr1, forms1, us', e', h3, h4, h5⟩, _⟩ := reads_cut hr
  obtain ⟨k, k1, k2, k3, k4, k5, _⟩ := culprit_line h1 h2
  refine ⟨k, k1, k2, k3, ?_⟩
  intro stream' hs
  have hp := k5 stream' hs
  rw [← hp] at h3 h4 h5
  obtain ⟨hdr', hh, hy⟩ := reads_yields h3
  refine ⟨hdr', us', e', hy, ?_, ?_⟩
  · rcases h4 with h4 | ⟨hx, h4 | ⟨h4, ln, h6, h7⟩⟩
    · exact .inl h4
    · exact .inr ⟨k4 hx, .inl h4⟩
    · refine .inr ⟨k4 hx, .inr ⟨h4, lineNumber ln, ?_, h7⟩⟩
      obtain ⟨a, b, hab⟩ := List.append_of_mem h6
      have := (LineItems.cut_ok ((stream_items stream' _).mpr rfl) hab).2.1
      rw [hs, List.length_take] at this
      omega
  · rcases h5 with rfl | ⟨rfl, h5⟩
    · exact .inl hh
    · exact .inr ⟨hh, h5⟩

/-- **C69** The lines after the line of an error do not matter: every input with the same lines up to that line gives the same units and
then the same error.  (Not for an entry with an empty source: whether its texts come is seen only after its first line.) -/
theorem C69_after {us : List PoUnit} {e : Err} (h : Yields (parse env stream) hdr (results us (some e))) (hu : ∀ k t, e ≠ .unexpected k t) {k : Nat} (hk : AtLine e k)
    {stream' : List Event} (hs : (rawLines (flatten stream')).take k = (rawLines (flatten stream)).take k) :
    ∃ hdr', SameHeader hdr' hdr ∧ Yields (parse env stream') hdr' (results us (some e)) := by
  obtain ⟨forms, us0, e0, hx, hr⟩ := yields_reads h
  obtain ⟨rfl, rfl⟩ := results_inj hx
  obtain ⟨pre, x, post, h1, h2, _, h3⟩ := reads_cut hr
  obtain ⟨k', k1, _, _, _, _, k6⟩ := culprit_line h1 h2
  have hkk : k' = k := by
    cases k1 with
    | io _ => cases hk; rfl
    | unrecognised _ => cases hk with
      | unrecognised _ => rfl
      | missing _ h => exact absurd rfl h
    | missing _ hne => cases hk with
      | unrecognised _ => exact absurd rfl hne
      | missing _ h => rfl
    | noSource _ => exact absurd rfl (hu _ _)
  subst hkk
  obtain ⟨post', hp⟩ := k6 stream' hs
  have := h3 hu post'
  rw [← hp] at this
  exact reads_yields this

/-- **C69** `parse()` fails because of a line (not because of the `Plural-Forms` property).  The line is unreadable, or it comes where the
translation of the first entry must come.  The input without that line and what follows is read without error and gives at most one unit; or, if the header is complete only
now, its `Plural-Forms` property is bad.  The lines after the line do not matter. -/
theorem C69_first {e : Err} (h : Fails (parse env stream) e) (hf : ∀ s, ¬ FormsError env s e) :
    ∃ k, AtLine e k ∧ 1 ≤ k ∧ k ≤ (rawLines (flatten stream)).length ∧
      (∀ stream', rawLines (flatten stream') = (rawLines (flatten stream)).take (k - 1) →
        (∃ hdr us, Yields (parse env stream') hdr (results us none) ∧ (us = [] ∨ Unreadable e ∧ us.length = 1)) ∨
        Unreadable e ∧ ∃ e' s, Fails (parse env stream') e' ∧ FormsError env s e') ∧
      ∀ stream', (rawLines (flatten stream')).take k = (rawLines (flatten stream)).take k → Fails (parse env stream') e := by
  cases (rejects_iff _ _ _).mpr h with
  | @badForms _ _ _ _ hdr _ _ _ hr =>
    generalize hdr.properties.lookup (c!"Plural-Forms") = p at hr
    cases hr with
    | bad _ h1 => exact absurd h1 (hf _)
  | first hr =>
    obtain ⟨pre, x, post, h1, h2, h3, h4⟩ := first_cut (env := env) hr
    obtain ⟨k, k1, k2, k3, k4, k5, k6⟩ := culprit_line h1 h2
    refine ⟨k, k1, k2, k3, ?_, ?_⟩
    · intro stream' hs
      have hp := k5 stream' hs
      rw [← hp] at h3
      rcases h3 with ⟨hdr, forms, us, h3, h5⟩ | ⟨hx, e', s, h3, h5⟩
      · obtain ⟨hdr', _, hy⟩ := reads_yields h3
        refine .inl ⟨hdr', us, hy, ?_⟩
        rcases h5 with h5 | ⟨hx, h5⟩
        · exact .inl h5
        · exact .inr ⟨k4 hx, h5⟩
      · exact .inr ⟨k4 hx, e', s, (rejects_iff _ _ _).mp h3, h5⟩
    · intro stream' hs
      obtain ⟨post', hp⟩ := k6 stream' hs
      refine (rejects_iff _ _ _).mp (.first ?_)
      rw [hp]
      exact h4 post'

/-! ### Examples -/

/-- Two units, the second one of which is followed by a line that cannot follow. -/
def strayLines : List Str := [c!"msgid \"a\"", c!"msgstr \"b\"", c!"", c!"msgid \"c\"", c!"msgid \"d\"", c!"msgstr \"e\""]

-- a missing `msgstr`: the error belongs to line 5; the first four lines are read without error, with the same unit
example : Yields (parse demoEnv (textStream strayLines)) (noHeader demoEnv) (results [unitAB (c!"a") (c!"b")] (some (.parse 5 [] (c!"msgstr")))) ∧
    AtLine (.parse 5 [] (c!"msgstr")) 5 ∧
    rawLines (flatten (textStream (strayLines.take 4))) = (rawLines (flatten (textStream strayLines))).take (5 - 1) ∧
    Yields (parse demoEnv (textStream (strayLines.take 4))) (noHeader demoEnv) (results [unitAB (c!"a") (c!"b")] none) :=
  ⟨yields_text (res := ⟨noHeader demoEnv, none, [unitAB (c!"a") (c!"b")], some (.parse 5 [] (c!"msgstr"))⟩) (by decide) (by rfl),
   .missing (by decide) (by decide),
   by rw [rawLines_text (by decide), rawLines_text (by decide)]; rfl,
   yields_text (res := ⟨noHeader demoEnv, none, [unitAB (c!"a") (c!"b")], none⟩) (by decide) (by rfl)⟩

-- anything else after line 5: the same unit, the same error
example (stream' : List Event) (more : List (Except IoErr Str)) (h : rawLines (flatten stream') = (strayLines.take 5).map .ok ++ more) :
    ∃ hdr', SameHeader hdr' (noHeader demoEnv) ∧ Yields (parse demoEnv stream') hdr' (results [unitAB (c!"a") (c!"b")] (some (.parse 5 [] (c!"msgstr")))) := by
  refine C69_after (k := 5) (stream := textStream strayLines)
    (yields_text (env := demoEnv) (res := ⟨noHeader demoEnv, none, [unitAB (c!"a") (c!"b")], some (.parse 5 [] (c!"msgstr"))⟩) (by decide) (by rfl))
    (by intro k t h; cases h) (.missing (by decide) (by decide)) ?_
  rw [h, rawLines_text (by decide)]
  rfl

-- an unrecognised line directly after an entry: without it there is one more unit; or, if the source is empty, another error
example : Yields (parse demoEnv (textStream (twoLines ++ [c!"garbage"]))) (noHeader demoEnv) (results [unitAB (c!"a") (c!"b")] (some (.parse 6 (c!"garbage") []))) ∧
    AtLine (.parse 6 (c!"garbage") []) 5 ∧
    Yields (parse demoEnv (textStream twoLines)) (noHeader demoEnv) (results [unitAB (c!"a") (c!"b"), unitAB (c!"c") (c!"d")] none) ∧
    Yields (parse demoEnv (textStream (twoLines.take 2 ++ [c!"msgid \"\"", c!"msgstr \"\"", c!"garbage"]))) (noHeader demoEnv)
      (results [unitAB (c!"a") (c!"b")] (some (.parse 6 (c!"garbage") []))) ∧
    Yields (parse demoEnv (textStream (twoLines.take 2 ++ [c!"msgid \"\"", c!"msgstr \"\""]))) (noHeader demoEnv)
      (results [unitAB (c!"a") (c!"b")] (some (.unexpected 3 (c!"Source should not be empty")))) :=
  ⟨yields_text (res := ⟨noHeader demoEnv, none, [unitAB (c!"a") (c!"b")], some (.parse 6 (c!"garbage") [])⟩) (by decide) (by rfl),
   .unrecognised (by decide),
   yields_text (res := ⟨noHeader demoEnv, none, [unitAB (c!"a") (c!"b"), unitAB (c!"c") (c!"d")], none⟩) (by decide) (by rfl),
   yields_text (res := ⟨noHeader demoEnv, none, [unitAB (c!"a") (c!"b")], some (.parse 6 (c!"garbage") [])⟩) (by decide) (by rfl),
   yields_text (res := ⟨noHeader demoEnv, none, [unitAB (c!"a") (c!"b")], some (.unexpected 3 (c!"Source should not be empty"))⟩) (by decide) (by rfl)⟩

-- only comments before the line: with the line they are the comments of a header, without it they are not
example : Yields (parse demoEnv (textStream [c!"# x", c!"msgstr \"b\""])) ⟨[⟨.translator, c!"x"⟩], [], [], []⟩ (results [] (some (.parse 2 [] (c!"msgid")))) ∧
    Yields (parse demoEnv (textStream [c!"# x"])) (plainHeader demoEnv) (results [] none) :=
  ⟨yields_text (env := demoEnv) (res := ⟨⟨[⟨.translator, c!"x"⟩], [], [], []⟩, none, [], some (.parse 2 [] (c!"msgid"))⟩) (by decide) (by rfl),
   yields_text (env := demoEnv) (res := ⟨plainHeader demoEnv, none, [], none⟩) (by decide) (by rfl)⟩

-- an empty source: the lines up to the one that the error belongs to are not enough for the error
example : Yields (parse demoEnv (textStream (twoLines.take 2 ++ [c!"msgid \"\""]))) (noHeader demoEnv) (results [unitAB (c!"a") (c!"b")] none) :=
  yields_text (res := ⟨noHeader demoEnv, none, [unitAB (c!"a") (c!"b")], none⟩) (by decide) (by rfl)

-- `parse()` fails because of line 3, which hides that the header is bad
example : Fails (parse demoEnv (textStream (headLines (c!"Plural-Forms: x") ++ [c!"garbage"]))) (.parse 4 (c!"garbage") []) ∧
    Fails (parse demoEnv (textStream (headLines (c!"Plural-Forms: x")))) (.unexpected 0 (c!"Bad value list definition: `x`")) :=
  ⟨fails_text (env := demoEnv) (by decide) (by rfl), fails_text (env := demoEnv) (by decide) (by rfl)⟩

-- `parse()` fails because of line 2; the first line alone is no error
example : Fails (parse demoEnv (textStream [c!"msgid \"a\"", c!"# note", c!"msgstr \"b\""])) (.parse 2 (c!"# ") (c!"msgstr")) ∧
    Yields (parse demoEnv (textStream [c!"msgid \"a\""])) (plainHeader demoEnv) (results [] none) :=
  ⟨fails_text (env := demoEnv) (by decide) (by rfl), yields_text (env := demoEnv) (res := ⟨plainHeader demoEnv, none, [], none⟩) (by decide) (by rfl)⟩

end Verif
