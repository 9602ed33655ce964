import Verif.Lemmas.Header
import Verif.Spec.Progress

/-! Reading up to some point. -/

namespace Verif
open Spec

theorem Spec.After.run {forms : Option PluralForms} {l l' : List Item} {us us' : List PoUnit} {e : Option Err} (h : After forms l us l')
    (h' : Run forms l' us' e) : Run forms l (us ++ us') e := by
  induction h with
  | refl => exact h'
  | entry h1 h2 h3 _ ih => exact .entry h1 h2 h3 (ih h')

theorem Spec.After.trans {forms : Option PluralForms} {l l' l'' : List Item} {us us' : List PoUnit} (h : After forms l us l')
    (h' : After forms l' us' l'') : After forms l (us ++ us') l'' := by
  induction h with
  | refl => exact h'
  | entry h1 h2 h3 _ ih => exact .entry h1 h2 h3 (ih h')

/-- A run splits into the units and the end. -/
theorem Spec.Run.after {forms : Option PluralForms} {l : List Item} {us : List PoUnit} {e : Option Err} (h : Run forms l us e) :
    ∃ l', After forms l us l' ∧ Stops forms l' e := by
  induction h with
  | stop h => exact ⟨_, .refl, h⟩
  | entry h1 h2 h3 _ ih =>
    obtain ⟨l', h4, h5⟩ := ih
    exact ⟨l', .entry h1 h2 h3 h4, h5⟩

/-- A run splits after any number of units. -/
theorem Spec.Run.split {forms : Option PluralForms} {l : List Item} {us us' : List PoUnit} {e : Option Err} (h : Run forms l (us ++ us') e) :
    ∃ l', After forms l us l' ∧ Run forms l' us' e := by
  induction us generalizing l with
  | nil => exact ⟨l, .refl, h⟩
  | cons u us ih =>
    cases h with
    | entry h1 h2 h3 h4 =>
      obtain ⟨l', h5, h6⟩ := ih h4
      exact ⟨l', .entry h1 h2 h3 h5, h6⟩

/-- One more entry. -/
theorem Spec.Progress.snoc {env : Env} {l : List Item} {st : Bool} {hdr : Header env.Lang} {forms : Option PluralForms} {us : List PoUnit}
    {block : List PoLine} {u : PoUnit} {rest : List Item} (h : Progress env l st hdr forms us (block.map .ok ++ rest)) (h1 : Entry forms block u)
    (h2 : HasSource u.message) (h3 : EndsHere forms block rest) : Progress env l false hdr forms (us ++ [u]) rest := by
  generalize hl : block.map .ok ++ rest = l' at h
  cases h with
  | start => subst hl; exact .plain (.unit h1 h2 h3) .refl
  | plain f a => exact .plain f (a.trans (hl ▸ .entry h1 h2 h3 .refl))
  | headed f r r' a => exact .headed f r r' (a.trans (hl ▸ .entry h1 h2 h3 .refl))

/-- What comes after the header or a unit decides the rest. -/
theorem Spec.Progress.reads {env : Env} {l l' : List Item} {hdr : Header env.Lang} {forms : Option PluralForms} {us us' : List PoUnit} {e : Option Err}
    (h : Progress env l false hdr forms us l') (h' : Run forms l' us' e) : Reads env l hdr forms (us ++ us') e := by
  cases h with
  | plain f a => exact .plain f (a.run h')
  | headed f r r' a => exact .headed f r r' (a.run h')

/-- What was read when `n` units have been read. -/
theorem Spec.Reads.progress {env : Env} {l : List Item} {hdr : Header env.Lang} {forms : Option PluralForms} {us us' : List PoUnit} {e : Option Err}
    (h : Reads env l hdr forms (us ++ us') e) : ∃ st l', Progress env l st hdr forms us l' ∧ (st = true → us = [] ∧ hdr = plainHeader env ∧ forms = none ∧ l' = l) ∧
      (st = false → Run forms l' us' e) := by
  generalize hu : us ++ us' = us0 at h
  cases h with
  | nothing h =>
    simp only [List.append_eq_nil_iff] at hu
    obtain ⟨rfl, rfl⟩ := hu
    exact ⟨true, l, .start, by simp, by simp⟩
  | plain f r =>
    cases us with
    | nil => exact ⟨true, l, .start, by simp, by simp⟩
    | cons u us =>
      simp only [List.cons_append, List.cons.injEq] at hu
      obtain ⟨rfl, rfl⟩ := hu
      obtain ⟨l', h1, h2⟩ := r.split
      exact ⟨false, l', .plain f h1, by simp, fun _ => h2⟩
  | headed f r r' r2 =>
    subst hu
    obtain ⟨l', h1, h2⟩ := r2.split
    exact ⟨false, l', .headed f r r' h1, by simp, fun _ => h2⟩

theorem results_mem {us : List PoUnit} {e : Option Err} {u : PoUnit} (h : .ok u ∈ results us e) : u ∈ us := by
  simpa [results] using h

/-- The units in the order of their blocks. -/
theorem Spec.After.blocks {forms : Option PluralForms} {l l' : List Item} {us : List PoUnit} (h : After forms l us l') :
    ∃ blocks : List (List PoLine × PoUnit), l = (blocks.flatMap Prod.fst).map .ok ++ l' ∧ us = blocks.map Prod.snd ∧
      ∀ b ∈ blocks, Entry forms b.1 b.2 ∧ HasSource b.2.message := by
  induction h with
  | refl => exact ⟨[], rfl, rfl, by simp⟩
  | @entry block u rest us l' h1 h2 h3 _ ih =>
    obtain ⟨bs, e1, e2, e3⟩ := ih
    refine ⟨(block, u) :: bs, ?_, by rw [e2]; rfl, ?_⟩
    · rw [List.flatMap_cons, List.map_append, List.append_assoc, ← e1]
    · intro b hb
      rcases List.mem_cons.mp hb with rfl | hb
      · exact ⟨h1, h2⟩
      · exact e3 b hb

end Verif
