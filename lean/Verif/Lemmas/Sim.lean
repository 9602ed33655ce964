import Verif.Lemmas.Items

/-! Transfer: reading from the crate's line source gives the same observations as reading from the list of its items. -/

namespace Verif
open Spec

/-- What is used of a source: `next` and a second `peek` return what `peek` has shown, and the bound is one. -/
class LawfulSrc (σ : Type) [Src σ] : Prop where
  next_peek : ∀ s : σ, (Src.next (Src.peek s).2).1 = (Src.peek s).1
  peek_peek : ∀ s : σ, (Src.peek (Src.peek s).2).1 = (Src.peek s).1
  bound_peek : ∀ s : σ, Src.bound (Src.peek s).2 ≤ Src.bound s
  bound_next : ∀ s : σ, (Src.next s).1 ≠ none → Src.bound (Src.next s).2 < Src.bound s
  bound_next_le : ∀ s : σ, Src.bound (Src.next s).2 ≤ Src.bound s

section
variable {σ L α β : Type}

theorem onLines_nextUnit (x : Eff σ α) (r : Reader σ L) : (onLines x r).2.nextUnit = r.nextUnit := rfl

theorem bind_nextUnit {x : Eff (Reader σ L) α} {f : α → Eff (Reader σ L) β} {r : Reader σ L} (hx : (x r).2.nextUnit = r.nextUnit)
    (hf : ∀ a r', x r = (.ok a, r') → (f a r').2.nextUnit = r'.nextUnit) : (Eff.bind x f r).2.nextUnit = r.nextUnit := by
  unfold Eff.bind
  rcases h : x r with ⟨a | e | _, r'⟩ <;> rw [h] at hx
  · exact (hf a r' h).trans hx
  · exact hx
  · exact hx

/-- After the comments there is no error in front. -/
theorem parseComments_peek [Src σ] [LawfulSrc σ] {u u' : PoUnit} {s s' : σ} (h : parseComments u s = (.ok u', s')) (e : Err) : (Src.peek s').1 ≠ some (.error e) := by
  unfold parseComments at h
  replace h : Eff.bind _ _ s = _ := h
  unfold Eff.bind at h
  split at h
  · rename_i a s1 _
    replace h : Eff.bind peekE _ s1 = _ := h
    unfold Eff.bind peekE at h
    have hp := LawfulSrc.peek_peek s1
    simp only at h
    intro hs
    rcases hq : (Src.peek s1).1 with _ | e' | q <;> rw [hq] at h hp
    · cases h
      rw [hp] at hs
      cases hs
    · replace h : Eff.bind nextE _ _ = _ := h
      unfold Eff.bind nextE at h
      simp only at h
      rcases hz : (Src.next (Src.peek s1).2).1 with _ | _ | _ <;> rw [hz] at h <;> cases h
    · cases h
      rw [hp] at hs
      cases hs
  · cases h
  · cases h

/-- `read_unit` does not touch the field `next_unit`: the branch of `read_line` that does is not reached. -/
theorem readUnit_nextUnit [Src σ] [LawfulSrc σ] (first : Bool) (r : Reader σ L) : (readUnit first r).2.nextUnit = r.nextUnit := by
  refine bind_nextUnit (onLines_nextUnit _ _) fun a r1 h1 => ?_
  have hp : ∀ e, (Src.peek r1.lines).1 ≠ some (.error e) := by
    intro e
    unfold onLines at h1
    rcases hx : parseComments .default r.lines with ⟨o, l⟩
    rw [hx] at h1
    cases h1
    exact parseComments_peek hx e
  refine bind_nextUnit ?_ fun b r2 _ => ?_
  · refine bind_nextUnit (onLines_nextUnit _ _) fun c r2 h2 => ?_
    cases h2
    rcases hc : (Src.peek r1.lines).1 with _ | e | p
    · rfl
    · exact absurd hc (hp e)
    · cases p with
      | message n p t v =>
        simp only
        split <;> rfl
      | _ => rfl
  · split
    · rfl
    · refine bind_nextUnit (onLines_nextUnit _ _) fun c r3 _ => ?_
      split
      · rfl
      · rename_i v _
        show ((match finishUnit first _ v with
          | .error e => Eff.err e
          | .ok u => Eff.pure (some u) : Eff (Reader σ L) (Option PoUnit)) r3).2.nextUnit = _
        rcases finishUnit first _ v with e | u <;> rfl

theorem nextUnitM_nextUnit [Src σ] [LawfulSrc σ] (first : Bool) (r : Reader σ L) : (nextUnitM first r).2.nextUnit = r.nextUnit := by
  have := readUnit_nextUnit first r
  unfold nextUnitM
  rcases h : readUnit first r with ⟨(_ | u) | e | _, r'⟩ <;> rw [h] at this <;> exact this

/-- So `next` returns the unit in the field. -/
theorem next_ok [Src σ] [LawfulSrc σ] {r : Reader σ L} {u : PoUnit} (h : r.nextUnit = some (.ok u)) :
    r.next = match nextUnitM false r with
      | (.ok res, r') => (.ok (some (.ok u)), { r' with nextUnit := res })
      | (.err e, r') => (.err e, r')
      | (.panic, r') => (.panic, r') := by
  have hn := nextUnitM_nextUnit false r
  unfold Reader.next
  rw [h]
  simp only
  rcases hx : nextUnitM false r with ⟨a | e | _, r'⟩ <;> rw [hx] at hn
  · simp only at hn ⊢
    rw [hn, h]

end

/-- Two sources that behave in the same way. -/
structure SrcRel {σ τ : Type} [Src σ] [Src τ] (R : σ → τ → Prop) : Prop where
  peek : ∀ s t, R s t → (Src.peek s).1 = (Src.peek t).1 ∧ R (Src.peek s).2 (Src.peek t).2
  next : ∀ s t, R s t → (Src.next s).1 = (Src.next t).1 ∧ R (Src.next s).2 (Src.next t).2

/-- Two computations that return the same and keep related states related. -/
def Sim {σ τ α : Type} (R : σ → τ → Prop) (x : Eff σ α) (y : Eff τ α) : Prop :=
  ∀ s t, R s t → (x s).1 = (y t).1 ∧ R (x s).2 (y t).2

namespace Sim
variable {σ τ α β : Type} {R : σ → τ → Prop}

theorem pure (a : α) : Sim R (Eff.pure a) (Eff.pure a) := fun _ _ h => ⟨rfl, h⟩
theorem err (e : Err) : Sim (α := α) R (Eff.err e) (Eff.err e) := fun _ _ h => ⟨rfl, h⟩
theorem panic : Sim (α := α) R Eff.panic Eff.panic := fun _ _ h => ⟨rfl, h⟩

theorem bind {x : Eff σ α} {y : Eff τ α} {f : α → Eff σ β} {g : α → Eff τ β} (hx : Sim R x y) (hf : ∀ a, Sim R (f a) (g a)) :
    Sim R (x >>= f) (y >>= g) := by
  intro s t h
  obtain ⟨h1, h2⟩ := hx s t h
  show (Eff.bind x f s).1 = (Eff.bind y g t).1 ∧ R (Eff.bind x f s).2 (Eff.bind y g t).2
  unfold Eff.bind
  rcases hxs : x s with ⟨o, s'⟩
  rcases hyt : y t with ⟨o', t'⟩
  rw [hxs, hyt] at h1 h2
  simp only at h1 h2
  subst h1
  cases o with
  | ok a => exact hf a _ _ h2
  | err e => exact ⟨rfl, h2⟩
  | panic => exact ⟨rfl, h2⟩

end Sim

section
variable {σ τ : Type} [Src σ] [Src τ] {R : σ → τ → Prop} (hR : SrcRel R)
include hR

theorem sim_peekE : Sim R peekE peekE := fun s l h => by
  obtain ⟨h1, h2⟩ := hR.peek s l h
  exact ⟨congrArg Out.ok h1, h2⟩

theorem sim_nextE : Sim R nextE nextE := fun s l h => by
  obtain ⟨h1, h2⟩ := hR.next s l h
  exact ⟨congrArg Out.ok h1, h2⟩

theorem sim_fetchNext : Sim R fetchNext fetchNext := by
  refine Sim.bind (sim_peekE hR) fun a => ?_
  split
  · exact Sim.pure _
  · refine Sim.bind (sim_nextE hR) fun b => ?_
    split
    · exact Sim.err _
    · exact Sim.pure _

end

section
variable {σ : Type} [Src σ] [LawfulSrc σ]

/-- The result of `fetchNext`. -/
theorem fetchNext_eq (s : σ) : fetchNext s =
    match (Src.peek s).1 with
    | some (.ok p) => (.ok (some p), (Src.peek s).2)
    | some (.error e) => (.err e, (Src.next (Src.peek s).2).2)
    | none => (.ok none, (Src.next (Src.peek s).2).2) := by
  have h := LawfulSrc.next_peek s
  unfold fetchNext
  show Eff.bind peekE _ s = _
  unfold Eff.bind peekE
  simp only
  rcases hp : (Src.peek s).1 with _ | e | p
  · rw [hp] at h
    simp only
    show Eff.bind nextE _ _ = _
    unfold Eff.bind nextE
    simp only [h]
    rfl
  · rw [hp] at h
    simp only
    show Eff.bind nextE _ _ = _
    unfold Eff.bind nextE
    simp only [h]
    rfl
  · rfl

theorem contLoop_eq (pfx : Str) (k : Nat) (acc : Str) (s : σ) : contLoop pfx (k + 1) acc s =
    match (Src.peek s).1 with
    | none => (.ok acc, (Src.next (Src.peek s).2).2)
    | some (.error e) => (.err e, (Src.next (Src.peek s).2).2)
    | some (.ok (.continuation _ p s')) =>
      if p ≠ pfx then (.ok acc, (Src.peek s).2) else contLoop pfx k (acc ++ s') (Src.next (Src.peek s).2).2
    | some (.ok _) => (.ok acc, (Src.peek s).2) := by
  have h := LawfulSrc.next_peek s
  rw [contLoop]
  show Eff.bind fetchNext _ s = _
  unfold Eff.bind
  rw [fetchNext_eq]
  rcases hp : (Src.peek s).1 with _ | e | p
  · rfl
  · rfl
  · rw [hp] at h
    cases p with
    | continuation n p t =>
      simp only
      by_cases hp : p ≠ pfx
      · simp only [if_pos hp]; rfl
      · simp only [if_neg hp]
        show Eff.bind nextE _ _ = _
        unfold Eff.bind nextE
        simp only [h]
    | _ => rfl

theorem commentLoop_eq (k : Nat) (u : PoUnit) (s : σ) : commentLoop (k + 1) u s =
    match (Src.peek s).1 with
    | some (.ok (.comment _ c t)) => commentLoop k (addComment u c t) (Src.next (Src.peek s).2).2
    | _ => (.ok u, (Src.peek s).2) := by
  have h := LawfulSrc.next_peek s
  rw [commentLoop]
  show Eff.bind peekE _ s = _
  unfold Eff.bind peekE
  simp only
  rcases hp : (Src.peek s).1 with _ | e | p
  · rfl
  · rfl
  · rw [hp] at h
    cases p with
    | comment n c t =>
      simp only
      show Eff.bind nextE _ _ = _
      unfold Eff.bind nextE
      simp only [h]
    | _ => rfl

theorem bound_step {s : σ} {p : PoLine} (h : (Src.peek s).1 = some (.ok p)) : Src.bound (Src.next (Src.peek s).2).2 < Src.bound s := by
  have h1 := LawfulSrc.next_peek s
  have h2 := LawfulSrc.bound_peek s
  have h3 := LawfulSrc.bound_next (Src.peek s).2 (by rw [h1, h]; simp)
  omega

/-- Reading continuation lines: any sufficient fuel gives the same. -/
theorem contLoop_fuel (pfx : Str) (k k' : Nat) (acc : Str) (s : σ) (h : Src.bound s < k) (h' : Src.bound s < k') :
    contLoop pfx k acc s = contLoop pfx k' acc s := by
  induction k generalizing k' acc s with
  | zero => omega
  | succ k ih =>
    cases k' with
    | zero => omega
    | succ k' =>
      rw [contLoop_eq, contLoop_eq]
      rcases hp : (Src.peek s).1 with _ | e | p
      · rfl
      · rfl
      · have := bound_step hp
        cases p with
        | continuation n p t =>
          simp only
          rw [ih k' _ _ (by omega) (by omega)]
        | _ => rfl

/-- Reading comment lines: any sufficient fuel gives the same. -/
theorem commentLoop_fuel (k k' : Nat) (u : PoUnit) (s : σ) (h : Src.bound s < k) (h' : Src.bound s < k') :
    commentLoop k u s = commentLoop k' u s := by
  induction k generalizing k' u s with
  | zero => omega
  | succ k ih =>
    cases k' with
    | zero => omega
    | succ k' =>
      rw [commentLoop_eq, commentLoop_eq]
      rcases hp : (Src.peek s).1 with _ | e | p
      · rfl
      · rfl
      · have := bound_step hp
        cases p with
        | comment n c t =>
          simp only
          rw [ih k' _ _ (by omega) (by omega)]
        | _ => rfl

end

instance : LawfulSrc (List Item) where
  next_peek _ := rfl
  peek_peek _ := rfl
  bound_peek _ := Nat.le_refl _
  bound_next l h := by
    cases l with
    | nil => exact absurd rfl h
    | cons x l => exact Nat.lt_succ_self _
  bound_next_le l := by
    cases l with
    | nil => exact Nat.le_refl _
    | cons x l => exact Nat.le_succ _

/-- The result of `fetchNext` on a list. -/
theorem fetchNext_list (l : List Item) : fetchNext l =
    match l with
    | .ok p :: tl => (.ok (some p), .ok p :: tl)
    | .error e :: tl => (.err e, tl)
    | [] => (.ok none, []) := by
  rcases l with _ | ⟨_ | p, tl⟩ <;> rfl

theorem contLoop_cons (pfx : Str) (k : Nat) (acc : Str) (l : List Item) : contLoop pfx (k + 1) acc l =
    match l with
    | [] => (.ok acc, [])
    | .error e :: tl => (.err e, tl)
    | .ok (.continuation n p s) :: tl =>
      if p ≠ pfx then (.ok acc, .ok (.continuation n p s) :: tl) else contLoop pfx k (acc ++ s) tl
    | .ok (.comment n c s) :: tl => (.ok acc, .ok (.comment n c s) :: tl)
    | .ok (.message n p t s) :: tl => (.ok acc, .ok (.message n p t s) :: tl)
    | .ok .blank :: tl => (.ok acc, .ok .blank :: tl) := by
  rw [contLoop]
  show Eff.bind fetchNext _ l = _
  unfold Eff.bind
  rw [fetchNext_list]
  rcases l with _ | ⟨e | p, tl⟩
  · rfl
  · rfl
  · cases p with
    | continuation n p s =>
      simp only
      by_cases hp : p ≠ pfx
      · simp only [if_pos hp]; rfl
      · simp only [if_neg hp]; rfl
    | _ => rfl

theorem commentLoop_cons (k : Nat) (u : PoUnit) (l : List Item) : commentLoop (k + 1) u l =
    match l with
    | .ok (.comment _ c s) :: tl => commentLoop k (addComment u c s) tl
    | l => (.ok u, l) := by
  rw [commentLoop]
  rcases l with _ | ⟨e | p, tl⟩
  · rfl
  · rfl
  · cases p <;> rfl

section
variable {σ τ : Type} [Src σ] [Src τ] [LawfulSrc σ] [LawfulSrc τ] {R : σ → τ → Prop} (hR : SrcRel R)
include hR

omit [LawfulSrc σ] [LawfulSrc τ] in
theorem sim_contLoop_same (pfx : Str) (k : Nat) (acc : Str) : Sim R (contLoop pfx k acc) (contLoop pfx k acc) := by
  induction k generalizing acc with
  | zero => exact Sim.panic
  | succ k ih =>
    refine Sim.bind (sim_fetchNext hR) fun a => ?_
    split
    · split
      · exact Sim.pure _
      · refine Sim.bind (sim_nextE hR) fun b => ?_
        split
        · exact ih _
        · exact Sim.panic
    · exact Sim.pure _

theorem sim_contLoop (pfx : Str) (acc : Str) :
    Sim R (fun st => contLoop pfx (Src.bound st + 1) acc st) (fun st => contLoop pfx (Src.bound st + 1) acc st) := by
  intro s t h
  have := sim_contLoop_same hR pfx (Src.bound s + Src.bound t + 1) acc s t h
  rw [contLoop_fuel pfx _ (Src.bound s + 1) acc s (by omega) (by omega), contLoop_fuel pfx _ (Src.bound t + 1) acc t (by omega) (by omega)] at this
  exact this

omit [LawfulSrc σ] [LawfulSrc τ] in
theorem sim_commentLoop_same (k : Nat) (u : PoUnit) : Sim R (commentLoop k u) (commentLoop k u) := by
  induction k generalizing u with
  | zero => exact Sim.panic
  | succ k ih =>
    refine Sim.bind (sim_peekE hR) fun a => ?_
    split
    · refine Sim.bind (sim_nextE hR) fun b => ?_
      split
      · exact ih _
      · exact Sim.panic
    · exact Sim.pure _

theorem sim_commentLoop (u : PoUnit) :
    Sim R (fun st => commentLoop (Src.bound st + 1) u st) (fun st => commentLoop (Src.bound st + 1) u st) := by
  intro s t h
  have := sim_commentLoop_same hR (Src.bound s + Src.bound t + 1) u s t h
  rw [commentLoop_fuel _ (Src.bound s + 1) u s (by omega) (by omega), commentLoop_fuel _ (Src.bound t + 1) u t (by omega) (by omega)] at this
  exact this

theorem sim_parseMsg (tag : Str) (o : Bool) : Sim R (parseMsg tag o) (parseMsg tag o) := by
  refine Sim.bind (sim_fetchNext hR) fun a => ?_
  split
  · split
    · refine Sim.bind (sim_nextE hR) fun b => ?_
      split
      · exact Sim.bind (sim_contLoop hR _ _) fun c => Sim.pure _
      · exact Sim.panic
    · exact Sim.pure _
  · exact Sim.pure _

omit [LawfulSrc σ] [LawfulSrc τ] in
theorem sim_expected (exp : Str) : Sim R (expected exp) (expected exp) := by
  refine Sim.bind (sim_peekE hR) fun a => ?_
  split
  · exact Sim.pure _
  · exact Sim.pure _
  · refine Sim.bind (sim_nextE hR) fun b => ?_
    split
    · exact Sim.err _
    · exact Sim.panic
  · exact Sim.err _
  · exact Sim.err _
  · exact Sim.err _

theorem sim_parseComments (u : PoUnit) : Sim R (parseComments u) (parseComments u) := by
  refine Sim.bind (sim_commentLoop hR _) fun a => ?_
  refine Sim.bind (sim_peekE hR) fun b => ?_
  split
  · refine Sim.bind (sim_nextE hR) fun b => ?_
    split
    · exact Sim.err _
    · exact Sim.panic
  · exact Sim.pure _

end

/-- Two sources from which fields are read in the same way. -/
structure DecRel {σ τ : Type} [Src σ] [Src τ] (R : σ → τ → Prop) : Prop where
  parseMsg : ∀ tag o, Sim R (parseMsg tag o) (parseMsg tag o)
  expected : ∀ e, Sim R (expected e) (expected e)

section
variable {σ τ : Type} [Src σ] [Src τ] {R : σ → τ → Prop} (hD : DecRel R)
include hD

theorem sim_valuesLoop (o : Bool) (k i : Nat) (vs : List Str) : Sim R (valuesLoop o k i vs) (valuesLoop o k i vs) := by
  induction k generalizing i vs with
  | zero => exact Sim.pure _
  | succ k ih =>
    refine Sim.bind (hD.parseMsg _ _) fun a => ?_
    split
    · exact ih _ _
    · exact ih _ _

theorem sim_newMessage (f : Option PluralForms) (o : Bool) (a b : Option Str) : Sim R (newMessage f o a b) (newMessage f o a b) := by
  unfold newMessage
  split
  · exact Sim.pure _
  · split
    · refine Sim.bind (sim_valuesLoop hD _ _ _ _) fun c => ?_
      split
      · exact Sim.bind (hD.expected _) fun _ => Sim.pure _
      · exact Sim.pure _
    · refine Sim.bind (hD.parseMsg _ _) fun c => ?_
      split
      · exact Sim.pure _
      · exact Sim.bind (hD.expected _) fun _ => Sim.pure _

theorem sim_parseMessageFields (f : Option PluralForms) (u : PoUnit) (first : Bool) :
    Sim R (parseMessageFields f u first) (parseMessageFields f u first) := by
  refine Sim.bind (hD.parseMsg _ _) fun a => ?_
  refine Sim.bind (hD.parseMsg _ _) fun b => ?_
  refine Sim.bind (by split; exact hD.parseMsg _ _; exact Sim.pure _) fun c => ?_
  refine Sim.bind (hD.parseMsg _ _) fun d => ?_
  refine Sim.bind (hD.parseMsg _ _) fun e => ?_
  split
  · exact Sim.bind (hD.expected _) fun _ => Sim.pure _
  · refine Sim.bind (hD.parseMsg _ _) fun g => ?_
    refine Sim.bind (sim_newMessage hD _ _ _ _) fun m => ?_
    split
    · exact Sim.pure _
    · exact Sim.pure _

end

/-- Readers that agree on everything but the line source, and have related line sources. -/
structure ReaderRel {σ τ L : Type} (R : σ → τ → Prop) (r : Reader σ L) (r' : Reader τ L) : Prop where
  lines : R r.lines r'.lines
  nextUnit : r.nextUnit = r'.nextUnit
  notes : r.headerNotes = r'.headerNotes
  comments : r.headerComments = r'.headerComments
  props : r.headerProperties = r'.headerProperties
  lang : r.targetLanguage = r'.targetLanguage
  forms : r.pluralForms = r'.pluralForms

section
variable {σ τ : Type} [Src σ] [Src τ] [LawfulSrc σ] [LawfulSrc τ] {R : σ → τ → Prop} (hR : SrcRel R) {L : Type}

omit [Src σ] [Src τ] [LawfulSrc σ] [LawfulSrc τ] in
theorem sim_onLines {α : Type} {x : Eff σ α} {y : Eff τ α} (h : Sim R x y) :
    Sim (ReaderRel (L := L) R) (onLines x) (onLines y) := by
  intro r r' hr
  obtain ⟨h1, h2⟩ := h _ _ hr.lines
  exact ⟨h1, ⟨h2, hr.2, hr.3, hr.4, hr.5, hr.6, hr.7⟩⟩

include hR

omit [LawfulSrc σ] [LawfulSrc τ] in
theorem sim_readLine : Sim (ReaderRel (L := L) R) readLine readLine := by
  refine Sim.bind (sim_onLines (sim_peekE hR)) fun a => ?_
  split
  · exact Sim.pure _
  · intro r r' hr
    have hr' : ReaderRel R { r with nextUnit := none } { r' with nextUnit := none } :=
      ⟨hr.1, rfl, hr.3, hr.4, hr.5, hr.6, hr.7⟩
    simp only [hr.nextUnit]
    split
    · exact ⟨rfl, hr'⟩
    · refine Sim.bind (R := ReaderRel R) (sim_onLines (sim_nextE hR)) (fun b => ?_) _ _ hr'
      split
      · exact Sim.err _
      · exact Sim.panic
  · split
    · exact Sim.pure _
    · exact Sim.pure _
  · exact Sim.pure _

theorem srcRel_dec : DecRel R := ⟨sim_parseMsg hR, sim_expected hR⟩

omit hR [LawfulSrc σ] [LawfulSrc τ] in
theorem sim_parseUnit (hD : DecRel R) (u : PoUnit) (first : Bool) : Sim (ReaderRel (L := L) R) (parseUnit u first) (parseUnit u first) := by
  intro r r' hr
  unfold parseUnit
  rw [hr.forms]
  exact sim_onLines (sim_parseMessageFields hD _ _ _) _ _ hr

theorem sim_readUnit (first : Bool) : Sim (ReaderRel (L := L) R) (readUnit first) (readUnit first) := by
  refine Sim.bind (sim_onLines (sim_parseComments hR _)) fun a => ?_
  refine Sim.bind (sim_readLine hR) fun b => ?_
  split
  · exact Sim.pure _
  · refine Sim.bind (sim_parseUnit (srcRel_dec hR) _ _) fun c => ?_
    split
    · exact Sim.pure _
    · split
      · exact Sim.err _
      · exact Sim.pure _

end

section
variable {σ τ : Type} [Src σ] [Src τ] {R : σ → τ → Prop} {L : Type}
  (hU : ∀ (L : Type) (first : Bool), Sim (ReaderRel (L := L) R) (readUnit first) (readUnit first))
include hU

theorem sim_nextUnitM (first : Bool) : Sim (ReaderRel (L := L) R) (nextUnitM first) (nextUnitM first) := by
  intro r r' hr
  obtain ⟨h1, h2⟩ := hU L first r r' hr
  unfold nextUnitM
  rcases hx : readUnit first r with ⟨o, s⟩
  rcases hy : readUnit first r' with ⟨o', s'⟩
  rw [hx, hy] at h1 h2
  simp only at h1 h2
  subst h1
  rcases o with (_ | u) | e | _ <;> exact ⟨rfl, h2⟩

theorem sim_next : Sim (ReaderRel (L := L) R) Reader.next Reader.next := by
  intro r r' hr
  unfold Reader.next
  rw [hr.nextUnit]
  split
  · exact ⟨rfl, hr⟩
  · exact ⟨rfl, ⟨hr.1, rfl, hr.3, hr.4, hr.5, hr.6, hr.7⟩⟩
  · obtain ⟨h1, h2⟩ := sim_nextUnitM hU false r r' hr
    rcases hx : nextUnitM false r with ⟨o, s⟩
    rcases hy : nextUnitM false r' with ⟨o', s'⟩
    rw [hx, hy] at h1 h2
    simp only at h1 h2
    subst h1
    rcases o with _ | e | _
    · exact ⟨congrArg Out.ok h2.nextUnit, ⟨h2.1, rfl, h2.3, h2.4, h2.5, h2.6, h2.7⟩⟩
    · exact ⟨rfl, h2⟩
    · exact ⟨rfl, h2⟩

omit hU [Src σ] [Src τ] in
theorem sim_parsePoHeader (env : Env) : Sim (ReaderRel R) (parsePoHeader (σ := σ) env) (parsePoHeader (σ := τ) env) := by
  intro r r' hr
  unfold parsePoHeader
  rw [hr.nextUnit]
  split
  · simp only [hr.props, hr.notes, hr.comments, hr.lang]
    split
    · exact ⟨rfl, ⟨hr.1, rfl, rfl, rfl, rfl, rfl, hr.7⟩⟩
    · split
      · exact ⟨rfl, ⟨hr.1, rfl, rfl, rfl, rfl, rfl, hr.7⟩⟩
      · split
        · exact ⟨rfl, ⟨hr.1, rfl, rfl, rfl, rfl, rfl, hr.7⟩⟩
        · exact ⟨rfl, ⟨hr.1, rfl, rfl, rfl, rfl, rfl, rfl⟩⟩
  · exact ⟨rfl, hr⟩

/-- Results of `parse` that agree up to the line source. -/
inductive OutRel {α β : Type} (S : α → β → Prop) : Out α → Out β → Prop
  | ok {a b} : S a b → OutRel S (.ok a) (.ok b)
  | err {e} : OutRel S (.err e) (.err e)
  | panic : OutRel S .panic .panic

theorem sim_new (env : Env) (s : σ) (l : τ) (h : R s l) :
    OutRel (ReaderRel R) (Reader.new env s) (Reader.new env l) := by
  unfold Reader.new
  have h0 : ReaderRel R (⟨s, none, [], [], [], env.langInvariant, none⟩ : Reader σ env.Lang)
    ⟨l, none, [], [], [], env.langInvariant, none⟩ := ⟨h, rfl, rfl, rfl, rfl, rfl, rfl⟩
  obtain ⟨h1, h2⟩ := sim_nextUnitM hU true _ _ h0
  simp only
  rcases hx : nextUnitM true (⟨s, none, [], [], [], env.langInvariant, none⟩ : Reader σ env.Lang) with ⟨o, r⟩
  rcases hy : nextUnitM true (⟨l, none, [], [], [], env.langInvariant, none⟩ : Reader τ env.Lang) with ⟨o', r'⟩
  rw [hx, hy] at h1 h2
  simp only at h1 h2
  subst h1
  rcases o with (_ | e | u) | e | _
  · exact .ok ⟨h2.1, rfl, h2.3, h2.4, h2.5, h2.6, h2.7⟩
  · exact .err
  · simp only
    have h3 : ReaderRel R { r with nextUnit := some (.ok u) } { r' with nextUnit := some (.ok u) } :=
      ⟨h2.1, rfl, h2.3, h2.4, h2.5, h2.6, h2.7⟩
    split
    · obtain ⟨h4, h5⟩ := sim_parsePoHeader env _ _ h3
      rcases hx : parsePoHeader env { r with nextUnit := some (.ok u) } with ⟨o, q⟩
      rcases hy : parsePoHeader env { r' with nextUnit := some (.ok u) } with ⟨o', q'⟩
      rw [hx, hy] at h4 h5
      simp only at h4 h5
      subst h4
      rcases o with _ | e | _
      · simp only
        obtain ⟨h6, h7⟩ := sim_nextUnitM hU false _ _ h5
        rcases hx : nextUnitM false q with ⟨o, p⟩
        rcases hy : nextUnitM false q' with ⟨o', p'⟩
        rw [hx, hy] at h6 h7
        simp only at h6 h7
        subst h6
        rcases o with _ | e | _
        · exact .ok ⟨h7.1, rfl, h7.3, h7.4, h7.5, h7.6, h7.7⟩
        · exact .err
        · exact .panic
      · exact .err
      · exact .panic
    · exact .ok h3
  · exact .err
  · exact .panic

omit hU [Src σ] [Src τ] in
theorem headerOf_rel {r : Reader σ L} {r' : Reader τ L} (h : ReaderRel R r r') : headerOf r = headerOf r' := by
  unfold headerOf
  rw [h.notes, h.comments, h.props, h.lang]

theorem trace_rel (k : Nat) {r : Reader σ L} {r' : Reader τ L} (h : ReaderRel R r r') : trace k r = trace k r' := by
  induction k generalizing r r' with
  | zero => rfl
  | succ k ih =>
    rw [trace, trace]
    obtain ⟨h1, h2⟩ := sim_next hU r r' h
    rcases hx : r.next with ⟨o, s⟩
    rcases hy : r'.next with ⟨o', s'⟩
    rw [hx, hy] at h1 h2
    simp only at h1 h2
    subst h1
    cases o with
    | ok x => simp only [ih h2, headerOf_rel h2]
    | err e => rfl
    | panic => rfl

theorem observe_new (env : Env) (k : Nat) (s : σ) (l : τ) (h : R s l) :
    observe k (Reader.new env s) = observe k (Reader.new env l) := by
  have := sim_new hU env s l h
  generalize Reader.new env s = x at *
  generalize Reader.new env l = y at *
  cases this with
  | ok h => simp only [observe, Out.bind, trace_rel hU k h, headerOf_rel h]
  | err => rfl
  | panic => rfl

end

/-- Successive results of `next` (after these it is always `none`), as a source: the reports of the end of input are seen. -/
instance : Src (List (Option Item)) where
  peek l := (l.head?.join, l)
  next l := (l.head?.join, l.tail)
  bound l := l.length

instance : LawfulSrc (List (Option Item)) where
  next_peek _ := rfl
  peek_peek _ := rfl
  bound_peek _ := Nat.le_refl _
  bound_next l h := by
    cases l with
    | nil => exact absurd rfl h
    | cons x l => exact Nat.lt_succ_self _
  bound_next_le l := by
    cases l with
    | nil => exact Nat.le_refl _
    | cons x l => exact Nat.le_succ _

theorem linesNext_le {st st' : BufSt} (h : linesNext st = (none, st')) : st'.size ≤ st.size := by
  unfold linesNext at h
  split at h
  · cases h
  · rename_i st'' hr
    cases h
    unfold readUntil at hr
    split at hr
    · rename_i l r hs
      cases hr
      exact absurd rfl (splitNl_ne_nil hs)
    · have := (readUntilAux_size _ _ _ hr).2 _ rfl
      simp only [BufSt.size] at *
      omega
  · split at h <;> cases h

theorem LineIter.next_size (it : LineIter) : ((it.next.2.inner.map BufSt.size).getD 0 ≤ (it.inner.map BufSt.size).getD 0) ∧
    (it.next.1 ≠ none → (it.next.2.inner.map BufSt.size).getD 0 < (it.inner.map BufSt.size).getD 0) := by
  induction it using LineIter.next.induct with
  | case1 it hi => rw [LineIter.next.eq_def]; split <;> simp_all
  | case2 it st hi st' h =>
    have hl := linesNext_le h
    have : it.next = (none, { it with inner := some st' }) := by
      rw [LineIter.next.eq_def]; split
      · simp_all
      · rename_i st2 hi2
        rw [hi] at hi2; cases hi2
        split <;> simp_all
    rw [this, hi]
    exact ⟨hl, fun h => absurd rfl h⟩
  | case3 it st hi e st' h =>
    have hl := linesNext_size h
    have : it.next = (some (.error (.io it.n e)), { it with inner := none }) := by
      rw [LineIter.next.eq_def]; split
      · simp_all
      · rename_i st2 hi2
        rw [hi] at hi2; cases hi2
        split <;> simp_all
    rw [this, hi]
    show 0 ≤ st.size ∧ (_ → 0 < st.size)
    exact ⟨Nat.zero_le _, fun _ => by omega⟩
  | case4 it st hi line st' h hp ih =>
    have hl := linesNext_size h
    have : it.next = LineIter.next ⟨it.n + 1, some st'⟩ := by
      rw [LineIter.next.eq_def]; split
      · simp_all
      · rename_i st2 hi2
        rw [hi] at hi2; cases hi2
        split
        · simp_all
        · simp_all
        · rename_i h2; rw [h] at h2; cases h2
          rw [hp]
    rw [this, hi]
    simp only [Option.map_some, Option.getD_some] at ih ⊢
    exact ⟨by omega, fun h => by have := ih.2 h; omega⟩
  | case5 it st hi line st' h p hnb hp =>
    have hl := linesNext_size h
    have : it.next = (some (.ok p), ⟨it.n + 1, some st'⟩) := by
      rw [LineIter.next.eq_def]; split
      · simp_all
      · rename_i st2 hi2
        rw [hi] at hi2; cases hi2
        split
        · simp_all
        · simp_all
        · rename_i h2; rw [h] at h2; cases h2
          rw [hp]
          cases p <;> simp_all
    rw [this, hi]
    exact ⟨Nat.le_of_lt hl, fun _ => hl⟩
  | case6 it st hi line st' h hp =>
    have hl := linesNext_size h
    have : it.next = (some (.error (.parse (it.n + 1) line [])), ⟨it.n + 1, none⟩) := by
      rw [LineIter.next.eq_def]; split
      · simp_all
      · rename_i st2 hi2
        rw [hi] at hi2; cases hi2
        split
        · simp_all
        · simp_all
        · rename_i h2; rw [h] at h2; cases h2
          rw [hp]
    rw [this, hi]
    show 0 ≤ st.size ∧ (_ → 0 < st.size)
    exact ⟨Nat.zero_le _, fun _ => by omega⟩

theorem items_length (n : Nat) (raw : List (Except IoErr Str)) : (Verif.items n raw).length ≤ raw.length := by
  induction raw generalizing n with
  | nil => simp [Verif.items]
  | cons x raw ih =>
    rcases x with e | s
    · simp [Verif.items]
    · rw [Verif.items]
      split
      · simp
      · have := ih (n + 1); simp; omega
      · have := ih (n + 1); simp; omega

instance : LawfulSrc Peekable where
  next_peek p := by
    show (Peekable.next (Peekable.peek p).2).1 = (Peekable.peek p).1
    obtain ⟨it, pk⟩ := p
    cases pk <;> rfl
  peek_peek p := by
    show (Peekable.peek (Peekable.peek p).2).1 = (Peekable.peek p).1
    obtain ⟨it, pk⟩ := p
    cases pk <;> rfl
  bound_peek p := by
    obtain ⟨it, pk⟩ := p
    cases pk with
    | some v => exact Nat.le_refl _
    | none =>
      show (it.next.2.inner.map BufSt.size).getD 0 + (match (some it.next.1 : Option (Option Item)) with | some (some _) => 1 | _ => 0) ≤ (it.inner.map BufSt.size).getD 0 + 0
      have h := it.next_size
      rcases hn : it.next.1 with _ | x
      · exact h.1
      · have := h.2 (by rw [hn]; simp)
        simp only
        omega
  bound_next p h := by
    obtain ⟨it, pk⟩ := p
    cases pk with
    | some v =>
      cases v with
      | none => exact absurd rfl h
      | some x => exact Nat.lt_succ_self _
    | none => exact it.next_size.2 h
  bound_next_le p := by
    obtain ⟨it, pk⟩ := p
    cases pk with
    | some v => exact Nat.le_add_right _ _
    | none => exact it.next_size.1

/-- `Peekable<LineIter>` and the results it will still deliver. -/
def Peekable.Rel (p : Peekable) (l : List (Option Item)) : Prop :=
  match p.peeked with
  | none => p.iter.polls = l
  | some x => l.head?.join = x ∧ l.tail = p.iter.polls

theorem peekable_srcRel : SrcRel Peekable.Rel where
  peek p l h := by
    show (p.peek).1 = l.head?.join ∧ Peekable.Rel (p.peek).2 l
    obtain ⟨it, pk⟩ := p
    obtain ⟨h1, h2⟩ := it.next_spec
    cases pk with
    | none =>
      have h : it.polls = l := h
      subst h
      exact ⟨h1, h1.symm, h2.symm⟩
    | some v => exact ⟨h.1.symm, h⟩
  next p l h := by
    show (p.next).1 = l.head?.join ∧ Peekable.Rel (p.next).2 l.tail
    obtain ⟨it, pk⟩ := p
    obtain ⟨h1, h2⟩ := it.next_spec
    cases pk with
    | none =>
      have h : it.polls = l := h
      subst h
      exact ⟨h1, h2⟩
    | some v => exact ⟨h.1.symm, h.2.symm⟩

/-- **Transfer.**  What a user observes of `parse` on a byte stream is what the list-based reader does on the items of the stream, with the reports of
the end of input in between. -/
theorem observe_resuming (env : Env) (k : Nat) (es : List Event) (later : List (List Event)) :
    observe k (parseResuming env es later) = observe k (Reader.new env (pollItems 1 (rawPolls (flatten es) later))) :=
  observe_new (fun _ => sim_readUnit peekable_srcRel) env k _ _ (LineIter.new_polls es later)

theorem map_srcRel : SrcRel fun (p : List (Option Item)) (l : List Item) => p = l.map some where
  peek p l h := by
    subst h
    refine ⟨?_, rfl⟩
    cases l <;> rfl
  next p l h := by
    subst h
    cases l <;> exact ⟨rfl, rfl⟩

/-- **Transfer.**  What a user observes of `parse` on a byte stream is what the list-based reader does on the items of the stream. -/
theorem observe_parse (env : Env) (k : Nat) (es : List Event) :
    observe k (parse env es) = observe k (Reader.new env (streamItems es)) := by
  refine (observe_resuming env k es []).trans ?_
  refine observe_new (fun _ => sim_readUnit map_srcRel) env k _ _ ?_
  rw [rawPolls, pollItems_some, streamItems_code]

end Verif
