import Verif.Lemmas.Stops

/-! Reading an entry looks at no more than one item after it. -/

namespace Verif
open Spec

/-- A computation that does not depend on what comes after the first item that it leaves. -/
def Local {α : Type} (x : Eff (List Item) α) : Prop :=
  ∀ l t, ((x l).2 ≠ [] → x (l ++ t) = ((x l).1, (x l).2 ++ t)) ∧ ((x l).2 = [] → (x (l ++ t)).2 <:+ t)

namespace Local
variable {α β : Type}

theorem pure (a : α) : Local (Eff.pure a) := by
  intro l t
  refine ⟨fun _ => rfl, ?_⟩
  intro h
  simp only [Eff.pure] at h ⊢
  simp [h]

theorem bind {x : Eff (List Item) α} {f : α → Eff (List Item) β} (hx : Local x) (gx : Good x) (hf : ∀ a, Local (f a)) (gf : ∀ a, Good (f a)) :
    Local (x >>= f) := by
  intro l t
  obtain ⟨h1, h2⟩ := hx l t
  obtain ⟨g1, g2⟩ := gx l
  rw [bind_eq, bind_eq]
  rcases hl : x l with ⟨o, l'⟩
  rw [hl] at h1 h2 g1 g2
  by_cases hl' : l' = []
  · have hs := h2 hl'
    have key : ((x >>= f) (l ++ t)).2 <:+ t := by
      rw [bind_eq]
      rcases hlt : x (l ++ t) with ⟨o2, l2⟩
      rw [hlt] at hs
      cases o2 with
      | ok a => exact ((gf a l2).2).trans hs
      | err e => exact hs
      | panic => exact hs
    cases o with
    | ok a =>
      have : (f a l').2 = [] := by have := (gf a l').2; rw [hl'] at this ⊢; simpa using this
      exact ⟨fun h => absurd this h, fun _ => key⟩
    | err e => exact ⟨fun h => absurd hl' h, fun _ => key⟩
    | panic => exact ⟨fun h => absurd hl' h, fun _ => key⟩
  · rw [h1 hl']
    cases o with
    | ok a => exact hf a l' t
    | err e => exact ⟨fun _ => rfl, fun h => absurd h hl'⟩
    | panic => exact ⟨fun _ => rfl, fun h => absurd h hl'⟩

end Local

theorem takeCont_append (p : Str) (l t : List Item) :
    ((takeCont p l).2 ≠ [] → takeCont p (l ++ t) = ((takeCont p l).1, (takeCont p l).2 ++ t)) ∧
    ((takeCont p l).2 = [] → (takeCont p (l ++ t)).2 <:+ t) := by
  induction l with
  | nil => exact ⟨fun h => absurd rfl h, fun _ => takeCont_suffix p t⟩
  | cons x l ih =>
    rcases x with e | ln
    · simp [takeCont]
    · cases ln with
      | continuation n q s =>
        simp only [takeCont, List.cons_append]
        split
        · refine ⟨fun h => ?_, ih.2⟩
          rw [ih.1 h]
        · simp
      | _ => simp [takeCont]

theorem takeComments_append (l t : List Item) :
    ((takeComments l).2 ≠ [] → takeComments (l ++ t) = ((takeComments l).1, (takeComments l).2 ++ t)) ∧
    ((takeComments l).2 = [] → (takeComments (l ++ t)).2 <:+ t) := by
  induction l with
  | nil => exact ⟨fun h => absurd rfl h, fun _ => takeComments_suffix t⟩
  | cons x l ih =>
    rcases x with e | ln
    · simp [takeComments]
    · cases ln with
      | comment n q s =>
        simp only [takeComments, List.cons_append]
        refine ⟨fun h => ?_, ih.2⟩
        rw [ih.1 h]
      | _ => simp [takeComments]

theorem afterField_append {α : Type} (v v' : α) (r r' t : List Item) (h1 : r ≠ [] → (v', r') = (v, r ++ t)) (h2 : r = [] → r' <:+ t) :
    ((afterField v r).2 ≠ [] → afterField v' r' = ((afterField v r).1, (afterField v r).2 ++ t)) ∧
    ((afterField v r).2 = [] → (afterField v' r').2 <:+ t) := by
  rcases r with _ | ⟨e | ln, tl⟩
  · exact ⟨fun h => absurd rfl h, fun _ => (afterField_suffix v' r').2.trans (h2 rfl)⟩
  · cases h1 (by simp)
    simp only [afterField, List.cons_append]
    refine ⟨fun _ => trivial, ?_⟩
    rintro rfl
    simp
  · cases h1 (by simp)
    simp [afterField]

theorem local_parseMsg (tag : Str) (o : Bool) : Local (parseMsg tag o) := by
  intro l t
  rcases l with _ | ⟨e | ln, tl⟩
  · refine ⟨fun h => ?_, fun _ => (good_parseMsg tag o _).2⟩
    rw [parseMsg_list] at h
    exact absurd rfl h
  · rw [parseMsg_list, parseMsg_list]
    simp
    rintro rfl; simp
  · rw [parseMsg_list, parseMsg_list]
    cases ln with
    | message n p k s =>
      simp only [List.cons_append]
      split
      · obtain ⟨h1, h2⟩ := takeCont_append p tl t
        exact afterField_append _ _ _ _ _ (fun h => by rw [h1 h]) h2
      · simp
    | _ => simp

theorem local_expected (exp : Str) : Local (expected exp) := by
  intro l t
  rcases l with _ | ⟨e | ln, tl⟩
  · refine ⟨fun h => ?_, fun _ => (good_expected exp _).2⟩
    rw [expected_list] at h
    exact absurd rfl h
  · rw [expected_list, expected_list]
    simp
    rintro rfl; simp
  · rw [expected_list, expected_list]
    cases ln <;> simp

theorem local_valuesLoop (o : Bool) (k i : Nat) (vs : List Str) : Local (valuesLoop o k i vs) := by
  induction k generalizing i vs with
  | zero => exact .pure _
  | succ k ih =>
    refine .bind (local_parseMsg _ _) (good_parseMsg _ _) (fun a => ?_) fun a => ?_
    · split
      · exact ih _ _
      · exact ih _ _
    · split
      · exact good_valuesLoop _ _ _ _
      · exact good_valuesLoop _ _ _ _

theorem local_newMessage (f : Option PluralForms) (o : Bool) (a b : Option Str) : Local (newMessage f o a b) := by
  have hexp : ∀ e, Local (do expected e; Eff.pure (none : Option Message)) := fun e =>
    .bind (local_expected _) (good_expected _) (fun _ => .pure _) fun _ => Good.pure _
  have gexp : ∀ e, Good (do expected e; Eff.pure (none : Option Message)) := fun e => Good.bind (good_expected _) fun _ => Good.pure _
  unfold newMessage
  split
  · exact .pure _
  · split
    · refine .bind (local_valuesLoop _ _ _ _) (good_valuesLoop _ _ _ _) (fun c => ?_) fun c => ?_
      · split
        · exact hexp _
        · exact .pure _
      · split
        · exact gexp _
        · exact Good.pure _
    · refine .bind (local_parseMsg _ _) (good_parseMsg _ _) (fun c => ?_) fun c => ?_
      · split
        · exact .pure _
        · exact hexp _
      · split
        · exact Good.pure _
        · exact gexp _

/-- `Local` together with `Good`. -/
def LG {α : Type} (x : Eff (List Item) α) : Prop := Local x ∧ Good x

theorem LG.bind {α β : Type} {x : Eff (List Item) α} {f : α → Eff (List Item) β} (hx : LG x) (hf : ∀ a, LG (f a)) : LG (x >>= f) :=
  ⟨.bind hx.1 hx.2 (fun a => (hf a).1) fun a => (hf a).2, Good.bind hx.2 fun a => (hf a).2⟩

theorem LG.pure {α : Type} (a : α) : LG (Eff.pure a) := ⟨.pure a, Good.pure a⟩

theorem lg_parseMsg (tag : Str) (o : Bool) : LG (parseMsg tag o) := ⟨local_parseMsg tag o, good_parseMsg tag o⟩

theorem lg_parseMessageFields (f : Option PluralForms) (u : PoUnit) (first : Bool) : LG (parseMessageFields f u first) := by
  refine .bind (lg_parseMsg _ _) fun a => ?_
  refine .bind (lg_parseMsg _ _) fun b => ?_
  refine .bind (by split; exact lg_parseMsg _ _; exact .pure _) fun c => ?_
  refine .bind (lg_parseMsg _ _) fun d => ?_
  refine .bind (lg_parseMsg _ _) fun e => ?_
  split
  · exact .bind ⟨local_expected _, good_expected _⟩ fun _ => .pure _
  · refine .bind (lg_parseMsg _ _) fun g => ?_
    refine .bind ⟨local_newMessage _ _ _ _, good_newMessage _ _ _ _⟩ fun m => ?_
    split
    · exact .pure _
    · exact .pure _

theorem local_parseComments (u : PoUnit) : Local (parseComments u) := by
  intro l t
  rw [parseComments_list, parseComments_list]
  obtain ⟨h1, h2⟩ := takeComments_append l t
  exact afterField_append _ _ _ _ _ (fun h => by rw [h1 h]) h2

/-- **Reading an entry looks at no more than one item after it.** -/
theorem local_entry (f : Option PluralForms) (first : Bool) : Local (entry f first) := by
  intro l t
  obtain ⟨h1, h2⟩ := local_parseComments .default l t
  by_cases hn : (parseComments .default l).2 = []
  · have h3 := h2 hn
    have hsuf : (entry f first (l ++ t)).2 <:+ t := by
      unfold entry
      rcases hlt : parseComments .default (l ++ t) with ⟨o, l2⟩
      rw [hlt] at h3
      cases o with
      | err e => exact h3
      | panic => exact h3
      | ok u =>
        rcases l2 with _ | ⟨e | v, tl⟩
        · exact List.nil_suffix
        · exact h3
        · simp only
          have h4 := (good_parseMessageFields f { u with obsolete := lineObsolete v } first (.ok v :: tl)).2
          rcases hf : parseMessageFields f { u with obsolete := lineObsolete v } first (.ok v :: tl) with ⟨o, l3⟩
          rw [hf] at h4
          have h5 := h4.trans h3
          simp only [hf]
          rcases o with (_ | u') | e | _
          · exact h5
          · simp only
            cases finishUnit first v.line u' <;> exact h5
          · exact h5
          · exact h5
    refine ⟨fun h => absurd ?_ h, fun _ => hsuf⟩
    unfold entry
    rcases hl : parseComments .default l with ⟨o, l2⟩
    rw [hl] at hn
    simp only at hn
    subst hn
    cases o <;> rfl
  · have h3 := h1 hn
    unfold entry
    rw [h3]
    rcases hl : parseComments .default l with ⟨o, l2⟩
    rw [hl] at hn
    simp only at hn
    cases o with
    | err e => exact ⟨fun _ => rfl, fun h => absurd h hn⟩
    | panic => exact ⟨fun _ => rfl, fun h => absurd h hn⟩
    | ok u =>
      rcases l2 with _ | ⟨e | v, tl⟩
      · exact absurd rfl hn
      · exact absurd rfl (parseComments_ok hl _ _)
      · simp only [List.cons_append]
        obtain ⟨h4, h5⟩ := (lg_parseMessageFields f { u with obsolete := lineObsolete v } first).1 (.ok v :: tl) t
        rw [List.cons_append] at h4 h5
        rcases hf : parseMessageFields f { u with obsolete := lineObsolete v } first (.ok v :: tl) with ⟨o, l3⟩
        rw [hf] at h4 h5
        simp only at h4 h5
        simp only [hf]
        by_cases hl3 : l3 = []
        · have h6 := h5 hl3
          refine ⟨fun h => absurd ?_ h, fun _ => ?_⟩
          · rcases o with (_ | u') | e | _
            · exact hl3
            · simp only
              cases finishUnit first v.line u' <;> exact hl3
            · exact hl3
            · exact hl3
          · rcases hf2 : parseMessageFields f { u with obsolete := lineObsolete v } first (.ok v :: (tl ++ t)) with ⟨o2, l4⟩
            rw [hf2] at h6
            simp only [hf2]
            rcases o2 with (_ | u') | e | _
            · exact h6
            · simp only
              cases finishUnit first v.line u' <;> exact h6
            · exact h6
            · exact h6
        · rw [h4 hl3]
          rcases o with (_ | u') | e | _
          · exact ⟨fun _ => rfl, fun h => absurd h hl3⟩
          · simp only
            cases finishUnit first v.line u' <;> exact ⟨fun _ => rfl, fun h => absurd h hl3⟩
          · exact ⟨fun _ => rfl, fun h => absurd h hl3⟩
          · exact ⟨fun _ => rfl, fun h => absurd h hl3⟩

/-- An entry reading that stops before `ln :: tl` does so with `ln` alone, too. -/
theorem entry_cut {f : Option PluralForms} {first : Bool} {l : List Item} {x : Item} {tl : List Item} {o : Out (Option PoUnit)}
    (h : entry f first (l ++ x :: tl) = (o, x :: tl)) : entry f first (l ++ [x]) = (o, [x]) := by
  obtain ⟨h1, h2⟩ := local_entry f first (l ++ [x]) tl
  rw [show l ++ [x] ++ tl = l ++ x :: tl by simp, h] at h1 h2
  by_cases hn : (entry f first (l ++ [x])).2 = []
  · have := (h2 hn).length_le
    simp at this
    omega
  · have h3 := h1 hn
    simp only [Prod.mk.injEq] at h3
    have h4 : (entry f first (l ++ [x])).2 = [x] := by
      have : [x] ++ tl = (entry f first (l ++ [x])).2 ++ tl := h3.2
      exact (List.append_cancel_right this).symm
    exact Prod.ext h3.1.symm h4

end Verif
