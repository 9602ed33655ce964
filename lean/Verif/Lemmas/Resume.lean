import Verif.Props.Layout

/-! Reading from a stream that goes on after having reported the end of input: reading is total. -/

namespace Verif
open Spec

section
variable {σ : Type} [Src σ] [LawfulSrc σ]

/-- No panic, and the bound does not grow. -/
def Total {α : Type} (x : Eff σ α) : Prop := ∀ s, (x s).1 ≠ .panic ∧ Src.bound (x s).2 ≤ Src.bound s

namespace Total
variable {α β : Type}

omit [LawfulSrc σ] in
theorem pure (a : α) : Total (σ := σ) (Eff.pure a) := fun _ => ⟨by simp [Eff.pure], Nat.le_refl _⟩

omit [LawfulSrc σ] in
theorem err (e : Err) : Total (σ := σ) (α := α) (Eff.err e) := fun _ => ⟨by simp [Eff.err], Nat.le_refl _⟩

omit [LawfulSrc σ] in
theorem bind {x : Eff σ α} {f : α → Eff σ β} (hx : Total x) (hf : ∀ a, Total (f a)) : Total (x >>= f) := by
  intro s
  show (Eff.bind x f s).1 ≠ _ ∧ Src.bound (Eff.bind x f s).2 ≤ _
  unfold Eff.bind
  have := hx s
  rcases h : x s with ⟨o, s'⟩
  rw [h] at this
  cases o with
  | ok a => exact ⟨(hf a s').1, Nat.le_trans (hf a s').2 this.2⟩
  | err e => exact ⟨by simp, this.2⟩
  | panic => exact absurd rfl this.1

end Total

theorem total_peekE : Total (σ := σ) peekE := fun s => ⟨by simp [peekE], LawfulSrc.bound_peek s⟩

theorem bound_peek_next (s : σ) : Src.bound (Src.next (Src.peek s).2).2 ≤ Src.bound s :=
  Nat.le_trans (LawfulSrc.bound_next_le _) (LawfulSrc.bound_peek s)

theorem total_fetchNext : Total (σ := σ) fetchNext := by
  intro s
  rw [fetchNext_eq]
  have h1 := bound_peek_next s
  have h2 := LawfulSrc.bound_peek s
  rcases (Src.peek s).1 with _ | e | p
  · exact ⟨by simp, h1⟩
  · exact ⟨by simp, h1⟩
  · exact ⟨by simp, h2⟩

theorem total_contLoop (pfx : Str) (k : Nat) (acc : Str) (s : σ) (h : Src.bound s < k) :
    (contLoop pfx k acc s).1 ≠ .panic ∧ Src.bound (contLoop pfx k acc s).2 ≤ Src.bound s := by
  induction k generalizing acc s with
  | zero => omega
  | succ k ih =>
    rw [contLoop_eq]
    have h1 := bound_peek_next s
    have h2 := LawfulSrc.bound_peek s
    rcases hp : (Src.peek s).1 with _ | e | p
    · exact ⟨by simp, h1⟩
    · exact ⟨by simp, h1⟩
    · have h3 := bound_step hp
      cases p with
      | continuation n p t =>
        simp only
        split
        · exact ⟨by simp, h2⟩
        · have := ih (acc ++ t) (Src.next (Src.peek s).2).2 (by omega)
          exact ⟨this.1, by omega⟩
      | _ => exact ⟨by simp, h2⟩

theorem total_commentLoop (k : Nat) (u : PoUnit) (s : σ) (h : Src.bound s < k) :
    (commentLoop k u s).1 ≠ .panic ∧ Src.bound (commentLoop k u s).2 ≤ Src.bound s := by
  induction k generalizing u s with
  | zero => omega
  | succ k ih =>
    rw [commentLoop_eq]
    have h2 := LawfulSrc.bound_peek s
    rcases hp : (Src.peek s).1 with _ | e | p
    · exact ⟨by simp, h2⟩
    · exact ⟨by simp, h2⟩
    · have h3 := bound_step hp
      cases p with
      | comment n c t =>
        have := ih (addComment u c t) (Src.next (Src.peek s).2).2 (by omega)
        exact ⟨this.1, Nat.le_trans this.2 (by omega)⟩
      | _ => exact ⟨by simp, h2⟩

/-- The text in an `Option`. -/
def someText {σ : Type} : Out Str × σ → Out (Option Str) × σ
  | (.ok string, s') => (.ok (some string), s')
  | (.err e, s') => (.err e, s')
  | (.panic, s') => (.panic, s')

/-- The result of `parse_msg`. -/
theorem parseMsg_eq (tag : Str) (o : Bool) (s : σ) : parseMsg tag o s =
    match (Src.peek s).1 with
    | none => (.ok none, (Src.next (Src.peek s).2).2)
    | some (.error e) => (.err e, (Src.next (Src.peek s).2).2)
    | some (.ok (.message _ p t v)) =>
      if t = tag ∧ startsTilde p = o then
        someText (contLoop p (Src.bound (Src.next (Src.peek s).2).2 + 1) v (Src.next (Src.peek s).2).2)
      else (.ok none, (Src.peek s).2)
    | some (.ok _) => (.ok none, (Src.peek s).2) := by
  have h := LawfulSrc.next_peek s
  unfold parseMsg
  show Eff.bind fetchNext _ s = _
  unfold Eff.bind
  rw [fetchNext_eq]
  rcases hp : (Src.peek s).1 with _ | e | p
  · rfl
  · rfl
  · rw [hp] at h
    cases p with
    | message n p t v =>
      simp only
      by_cases hc : t = tag ∧ startsTilde p = o
      · rw [if_pos hc, if_pos hc]
        show Eff.bind nextE _ _ = _
        unfold Eff.bind nextE
        simp only [h]
        show Eff.bind (fun st => contLoop p (Src.bound st + 1) v st) _ _ = _
        unfold Eff.bind
        simp only
        rcases contLoop p (Src.bound (Src.next (Src.peek s).2).2 + 1) v (Src.next (Src.peek s).2).2 with ⟨_ | e | _, s'⟩ <;> rfl
      · rw [if_neg hc, if_neg hc]; rfl
    | _ => rfl

theorem total_parseMsg (tag : Str) (o : Bool) : Total (σ := σ) (parseMsg tag o) := by
  intro s
  rw [parseMsg_eq]
  have h1 := bound_peek_next s
  have h2 := LawfulSrc.bound_peek s
  rcases hp : (Src.peek s).1 with _ | e | p
  · exact ⟨by simp, h1⟩
  · exact ⟨by simp, h1⟩
  · cases p with
    | message n p t v =>
      simp only
      split
      · have := total_contLoop p (Src.bound (Src.next (Src.peek s).2).2 + 1) v (Src.next (Src.peek s).2).2 (by omega)
        rcases hc : contLoop p (Src.bound (Src.next (Src.peek s).2).2 + 1) v (Src.next (Src.peek s).2).2 with ⟨_ | e | _, s'⟩ <;>
          rw [hc] at this
        · exact ⟨by simp [someText], Nat.le_trans this.2 h1⟩
        · exact ⟨by simp [someText], Nat.le_trans this.2 h1⟩
        · exact absurd rfl this.1
      · exact ⟨by simp, h2⟩
    | _ => exact ⟨by simp, h2⟩

/-- A field that is there uses up at least its line. -/
theorem parseMsg_strict {tag : Str} {o : Bool} {s s' : σ} {t : Str} (h : parseMsg tag o s = (.ok (some t), s')) : Src.bound s' < Src.bound s := by
  rw [parseMsg_eq] at h
  rcases hp : (Src.peek s).1 with _ | e | p <;> rw [hp] at h
  · cases h
  · cases h
  · have h3 := bound_step hp
    cases p with
    | message n p t v =>
      simp only at h
      split at h
      · have := total_contLoop p (Src.bound (Src.next (Src.peek s).2).2 + 1) v (Src.next (Src.peek s).2).2 (by omega)
        rcases hc : contLoop p (Src.bound (Src.next (Src.peek s).2).2 + 1) v (Src.next (Src.peek s).2).2 with ⟨_ | e | _, s'⟩ <;>
          rw [hc] at this h <;> cases h
        exact Nat.lt_of_le_of_lt this.2 h3
      · cases h
    | _ => cases h

theorem total_expected (e : Str) : Total (σ := σ) (expected e) := by
  intro s
  have h := LawfulSrc.next_peek s
  have h1 := bound_peek_next s
  have h2 := LawfulSrc.bound_peek s
  unfold expected
  show (Eff.bind peekE _ s).1 ≠ _ ∧ _
  show _ ∧ Src.bound (Eff.bind peekE _ s).2 ≤ _
  unfold Eff.bind peekE
  simp only
  rcases hp : (Src.peek s).1 with _ | e | p
  · exact ⟨by simp [Eff.pure], h2⟩
  · rw [hp] at h
    simp only
    show (Eff.bind nextE _ _).1 ≠ _ ∧ Src.bound (Eff.bind nextE _ _).2 ≤ _
    unfold Eff.bind nextE
    simp only [h]
    exact ⟨by simp [Eff.err], h1⟩
  · cases p <;> exact ⟨by simp [Eff.err, Eff.pure], h2⟩

theorem total_valuesLoop (o : Bool) (k i : Nat) (vs : List Str) : Total (σ := σ) (valuesLoop o k i vs) := by
  induction k generalizing i vs with
  | zero => exact Total.pure _
  | succ k ih =>
    refine Total.bind (total_parseMsg _ _) fun a => ?_
    split
    · exact ih _ _
    · exact ih _ _

theorem total_newMessage (f : Option PluralForms) (o : Bool) (a b : Option Str) : Total (σ := σ) (newMessage f o a b) := by
  unfold newMessage
  split
  · exact Total.pure _
  · split
    · refine Total.bind (total_valuesLoop _ _ _ _) fun c => ?_
      split
      · exact Total.bind (total_expected _) fun _ => Total.pure _
      · exact Total.pure _
    · refine Total.bind (total_parseMsg _ _) fun c => ?_
      split
      · exact Total.pure _
      · exact Total.bind (total_expected _) fun _ => Total.pure _

/-- The end of `parse_message_fields`, after the id. -/
theorem total_rest (f : Option PluralForms) (u : PoUnit) (first : Bool) (msgid : Option Str) (g : Message → PoUnit) :
    Total (σ := σ) (do
      if !first && msgid.isNone then do
        expected (c!"msgid")
        Eff.pure none
      else do
        let msgidPl ← parseMsg (c!"msgid_plural") u.obsolete
        match ← newMessage f u.obsolete msgid msgidPl with
        | none => Eff.pure none
        | some message => Eff.pure (some (g message))) := by
  split
  · exact Total.bind (total_expected _) fun _ => Total.pure _
  · refine Total.bind (total_parseMsg _ _) fun c => ?_
    refine Total.bind (total_newMessage _ _ _ _) fun m => ?_
    split
    · exact Total.pure _
    · exact Total.pure _

theorem total_parseMessageFields (f : Option PluralForms) (u : PoUnit) (first : Bool) : Total (σ := σ) (parseMessageFields f u first) := by
  refine Total.bind (total_parseMsg _ _) fun a => ?_
  refine Total.bind (total_parseMsg _ _) fun b => ?_
  refine Total.bind (by split; exact total_parseMsg _ _; exact Total.pure _) fun c => ?_
  refine Total.bind (total_parseMsg _ _) fun d => ?_
  refine Total.bind (total_parseMsg _ _) fun e => ?_
  exact total_rest f u first e _

theorem total_parseComments (u : PoUnit) : Total (σ := σ) (parseComments u) := by
  refine Total.bind (fun s => total_commentLoop _ _ _ (Nat.lt_succ_self _)) fun a => ?_
  intro s
  have h := LawfulSrc.next_peek s
  have h1 := bound_peek_next s
  have h2 := LawfulSrc.bound_peek s
  show (Eff.bind peekE _ s).1 ≠ _ ∧ Src.bound (Eff.bind peekE _ s).2 ≤ _
  unfold Eff.bind peekE
  simp only
  rcases hp : (Src.peek s).1 with _ | e | p
  · exact ⟨by simp [Eff.pure], h2⟩
  · rw [hp] at h
    simp only
    show (Eff.bind nextE _ _).1 ≠ _ ∧ Src.bound (Eff.bind nextE _ _).2 ≤ _
    unfold Eff.bind nextE
    simp only [h]
    exact ⟨by simp [Eff.err], h1⟩
  · exact ⟨by simp [Eff.pure], h2⟩

end

/-- Sequencing, when the whole has succeeded. -/
theorem bind_done {σ α β : Type} {x : Eff σ α} {f : α → Eff σ β} {s s'' : σ} {b : β} (h : (x >>= f) s = (.ok b, s'')) :
    ∃ a s', x s = (.ok a, s') ∧ f a s' = (.ok b, s'') := by
  have h : Eff.bind x f s = _ := h
  unfold Eff.bind at h
  split at h
  · exact ⟨_, _, by assumption, h⟩
  · cases h
  · cases h

section
variable {σ : Type} [Src σ] [LawfulSrc σ]

theorem parseMessageFields_strict {f : Option PluralForms} {u u' : PoUnit} {s s' : σ} (h : parseMessageFields f u false s = (.ok (some u'), s')) :
    Src.bound s' < Src.bound s := by
  obtain ⟨a, s1, e1, h⟩ := bind_done h
  obtain ⟨b, s2, e2, h⟩ := bind_done h
  obtain ⟨c, s3, e3, h⟩ := bind_done h
  obtain ⟨d, s4, e4, h⟩ := bind_done h
  obtain ⟨e, s5, e5, h⟩ := bind_done h
  have g1 := (total_parseMsg (c!"|msgctxt") u.obsolete s).2
  have g2 := (total_parseMsg (c!"|msgid") u.obsolete s1).2
  have g3 : Src.bound s3 ≤ Src.bound s2 := by
    cases b with
    | some b =>
      have := (total_parseMsg (c!"|msgid_plural") u.obsolete s2).2
      have e3 : parseMsg (c!"|msgid_plural") u.obsolete s2 = (.ok c, s3) := e3
      rw [e3] at this
      exact this
    | none => cases e3; exact Nat.le_refl _
  have g4 := (total_parseMsg (c!"msgctxt") u.obsolete s3).2
  have g5 := (total_parseMsg (c!"msgid") u.obsolete s4).2
  rw [e1] at g1
  rw [e2] at g2
  rw [e4] at g4
  rw [e5] at g5
  have g6 := (total_rest f u false e (fun message =>
    { u with prevContext := a, prevMessage := newPrevious f b c, context := d, message := message }) s5).2
  have h' := congrArg Prod.snd h
  cases e with
  | some t =>
    have := parseMsg_strict e5
    simp only at *
    have g7 : Src.bound s' ≤ Src.bound s5 := by
      rw [← h']
      exact g6
    omega
  | none =>
    obtain ⟨x, s6, e6, h⟩ := bind_done h
    cases h

end

section
variable {σ L : Type} [Src σ] [LawfulSrc σ]

/-- The header data are the same, and the bound has not grown. -/
structure Kept (r r' : Reader σ L) : Prop where
  header : headerOf r' = headerOf r
  bound : Src.bound r'.lines ≤ Src.bound r.lines

omit [LawfulSrc σ] in
theorem Kept.trans {a b c : Reader σ L} (h1 : Kept a b) (h2 : Kept b c) : Kept a c := ⟨h2.1.trans h1.1, Nat.le_trans h2.2 h1.2⟩

/-- No panic; the header data are kept and the bound does not grow. -/
def TotalR {α : Type} (x : Eff (Reader σ L) α) : Prop := ∀ r, (x r).1 ≠ .panic ∧ Kept r (x r).2

namespace TotalR
variable {α β : Type}

omit [LawfulSrc σ] in
theorem pure (a : α) : TotalR (σ := σ) (L := L) (Eff.pure a) := fun _ => ⟨by simp [Eff.pure], rfl, Nat.le_refl _⟩

omit [LawfulSrc σ] in
theorem err (e : Err) : TotalR (σ := σ) (L := L) (α := α) (Eff.err e) := fun _ => ⟨by simp [Eff.err], rfl, Nat.le_refl _⟩

omit [LawfulSrc σ] in
theorem bind {x : Eff (Reader σ L) α} {f : α → Eff (Reader σ L) β} (hx : TotalR x) (hf : ∀ a, TotalR (f a)) : TotalR (x >>= f) := by
  intro s
  show (Eff.bind x f s).1 ≠ _ ∧ Kept s (Eff.bind x f s).2
  unfold Eff.bind
  have := hx s
  rcases h : x s with ⟨o, s'⟩
  rw [h] at this
  cases o with
  | ok a => exact ⟨(hf a s').1, this.2.trans (hf a s').2⟩
  | err e => exact ⟨by simp, this.2⟩
  | panic => exact absurd rfl this.1

end TotalR

omit [LawfulSrc σ] in
theorem total_onLines {α : Type} {x : Eff σ α} (h : Total x) : TotalR (L := L) (onLines x) := fun r => ⟨(h r.lines).1, rfl, (h r.lines).2⟩

theorem total_readLine : TotalR (σ := σ) (L := L) readLine := by
  intro r
  have h := LawfulSrc.next_peek r.lines
  have h1 := bound_peek_next r.lines
  have h2 := LawfulSrc.bound_peek r.lines
  unfold readLine
  show (Eff.bind (onLines peekE) _ r).1 ≠ _ ∧ Kept r (Eff.bind (onLines peekE) _ r).2
  unfold Eff.bind onLines peekE
  simp only
  rcases hp : (Src.peek r.lines).1 with _ | e | p
  · exact ⟨by simp [Eff.pure], rfl, h2⟩
  · rw [hp] at h
    simp only
    split
    · exact ⟨by simp, rfl, h2⟩
    · show (Eff.bind (onLines nextE) _ _).1 ≠ _ ∧ Kept r (Eff.bind (onLines nextE) _ _).2
      unfold Eff.bind onLines nextE
      simp only [h]
      exact ⟨by simp [Eff.err], rfl, h1⟩
  · cases p with
    | message n p t v =>
      simp only
      split
      · exact ⟨by simp [Eff.pure], rfl, h2⟩
      · exact ⟨by simp [Eff.pure], rfl, h2⟩
    | _ => exact ⟨by simp [Eff.pure], rfl, h2⟩

theorem total_readUnit (first : Bool) : TotalR (σ := σ) (L := L) (readUnit first) := by
  refine TotalR.bind (total_onLines (total_parseComments _)) fun a => ?_
  refine TotalR.bind total_readLine fun b => ?_
  split
  · exact TotalR.pure _
  · refine TotalR.bind (fun r => total_onLines (total_parseMessageFields r.pluralForms _ _) r) fun c => ?_
    split
    · exact TotalR.pure _
    · split
      · exact TotalR.err _
      · exact TotalR.pure _

theorem readUnit_strict {r r' : Reader σ L} {u : PoUnit} (h : readUnit false r = (.ok (some u), r')) : Src.bound r'.lines < Src.bound r.lines := by
  obtain ⟨a, r1, e1, h⟩ := bind_done h
  obtain ⟨b, r2, e2, h⟩ := bind_done h
  have g1 := (total_onLines (L := L) (total_parseComments (σ := σ) .default) r).2.2
  have g2 := (total_readLine r1).2.2
  rw [e1] at g1
  rw [e2] at g2
  cases b with
  | none => cases h
  | some b =>
    obtain ⟨line, o⟩ := b
    obtain ⟨c, r3, e3, h⟩ := bind_done h
    cases c with
    | none => cases h
    | some c =>
      have g3 : Src.bound r3.lines < Src.bound r2.lines := by
        unfold parseUnit onLines at e3
        rcases hx : parseMessageFields r2.pluralForms { a with obsolete := o } false r2.lines with ⟨ou, l⟩
        rw [hx] at e3
        cases e3
        exact parseMessageFields_strict hx
      have h : (match finishUnit false line c with
        | .error e => Eff.err e
        | .ok u => Eff.pure (some u) : Eff (Reader σ L) (Option PoUnit)) r3 = _ := h
      cases hf : finishUnit false line c with
      | error e => rw [hf] at h; cases h
      | ok v =>
        rw [hf] at h
        cases h
        simp only at g1 g2
        omega

/-- What `next_unit` returns. -/
theorem nextUnitM_good (first : Bool) (r : Reader σ L) : ∃ x r', nextUnitM first r = (.ok x, r') ∧ Kept r r' ∧
    (first = false → ∀ u, x = some (.ok u) → Src.bound r'.lines < Src.bound r.lines) := by
  have g := total_readUnit first r
  unfold nextUnitM
  rcases h : readUnit first r with ⟨(_ | u) | e | _, r'⟩ <;> rw [h] at g
  · exact ⟨_, _, rfl, g.2, fun _ u hu => by cases hu⟩
  · refine ⟨_, _, rfl, g.2, fun hf v hv => ?_⟩
    subst hf
    exact readUnit_strict h
  · exact ⟨_, _, rfl, g.2, fun _ u hu => by cases hu⟩
  · exact absurd rfl g.1

omit [LawfulSrc σ] in
theorem trace_none {r : Reader σ L} (h : r.nextUnit = none) (k : Nat) : trace k r = .ok ((List.range k).map fun _ => (headerOf r, none)) := by
  induction k with
  | zero => rfl
  | succ k ih =>
    have hn : r.next = (.ok none, r) := by unfold Reader.next; rw [h]
    rw [trace, hn]
    simp only [ih, Out.bind, List.range_succ_eq_map, List.map_cons, List.map_map]
    rfl

omit [LawfulSrc σ] in
/-- One call of `next`, and then the rest. -/
theorem trace_step {r r' : Reader σ L} {x : Option (Except Err PoUnit)} {xs : List (Except Err PoUnit)} (hn : r.next = (.ok x, r')) (hh : headerOf r' = headerOf r)
    (h : ∀ k, trace k r' = .ok ((List.range k).map fun i => (headerOf r', xs[i]?))) (ys : List (Except Err PoUnit))
    (h0 : ys[0]? = x) (hs : ∀ i, ys[i + 1]? = xs[i]?) (k : Nat) :
    trace k r = .ok ((List.range k).map fun i => (headerOf r, ys[i]?)) := by
  cases k with
  | zero => rfl
  | succ k =>
    rw [trace, hn]
    simp only [h, Out.bind, List.range_succ_eq_map, List.map_cons, List.map_map, h0, hh]
    congr 2
    apply List.map_congr_left
    intro i _
    simp only [Function.comp, hs]

theorem trace_results (r : Reader σ L) : ∃ us e, ∀ k, trace k r = .ok ((List.range k).map fun i => (headerOf r, (results us e)[i]?)) := by
  generalize hb : Src.bound r.lines = b
  induction b using Nat.strongRecOn generalizing r with
  | ind b ih =>
    have hnone : ∀ r : Reader σ L, r.nextUnit = none → ∀ k, trace k r = .ok ((List.range k).map fun i => (headerOf r, (results [] none)[i]?)) := by
      intro r h k
      rw [trace_none h]
      rfl
    have herr : ∀ (r : Reader σ L) (e : Err), r.nextUnit = some (.error e) →
        ∀ k, trace k r = .ok ((List.range k).map fun i => (headerOf r, (results [] (some e))[i]?)) := by
      intro r e h
      have hn : r.next = (.ok (some (.error e)), { r with nextUnit := none }) := by unfold Reader.next; rw [h]
      exact trace_step hn rfl (hnone _ rfl) _ rfl (fun i => by simp [results])
    rcases hu : r.nextUnit with _ | e | u
    · exact ⟨[], none, hnone r hu⟩
    · exact ⟨[], some e, herr r e hu⟩
    · obtain ⟨x, r', hx, hk, hs⟩ := nextUnitM_good false r
      have hn : r.next = (.ok (some (.ok u)), { r' with nextUnit := x }) := by
        rw [next_ok hu, hx]
      have : ∃ us e, ∀ k, trace k { r' with nextUnit := x } =
          .ok ((List.range k).map fun i => (headerOf { r' with nextUnit := x }, (results us e)[i]?)) := by
        rcases x with _ | e | v
        · exact ⟨[], none, hnone _ rfl⟩
        · exact ⟨[], some e, herr _ e rfl⟩
        · have := hs rfl v rfl
          exact ih _ (hb ▸ this) { r' with nextUnit := some (.ok v) } rfl
      obtain ⟨us, e, ht⟩ := this
      refine ⟨u :: us, e, trace_step hn hk.1 ht _ rfl fun i => ?_⟩
      simp [results]

/-- Reading from any source ends. -/
theorem new_total (env : Env) (s : σ) : (∃ e, Fails (Reader.new env s) e) ∨ ∃ hdr us e, Yields (Reader.new env s) hdr (results us e) := by
  have hy : ∀ r : Reader σ env.Lang, ∃ hdr us e, Yields (.ok r) hdr (results us e) := by
    intro r
    obtain ⟨us, e, h⟩ := trace_results r
    refine ⟨headerOf r, us, e, fun k => ?_⟩
    simp only [observe, Out.bind, h]
  obtain ⟨x, r, hx, _⟩ := nextUnitM_good true (⟨s, none, [], [], [], env.langInvariant, none⟩ : Reader σ env.Lang)
  unfold Reader.new
  simp only [hx]
  rcases x with _ | e | u
  · exact .inr (hy _)
  · exact .inl ⟨e, rfl⟩
  · simp only
    split
    · rcases hp : parsePoHeader env { r with nextUnit := some (.ok u) } with ⟨_ | e | _, r'⟩
      · obtain ⟨x, r'', hx, _⟩ := nextUnitM_good false r'
        simp only [hx]
        exact .inr (hy _)
      · exact .inl ⟨e, rfl⟩
      · exfalso
        unfold parsePoHeader at hp
        simp only at hp
        split at hp
        · cases hp
        · split at hp
          · cases hp
          · split at hp <;> cases hp
    · exact .inr (hy _)

end

end Verif
