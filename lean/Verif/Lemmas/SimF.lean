import Verif.Lemmas.Sim
import Verif.Lemmas.Header
import Verif.Model.HashOrder
import Verif.Spec.Renumber
import Verif.Spec.Catalogue

/-! Two line sources that differ in the line numbers, and header properties in another order. -/

namespace Verif
open Spec

/-- A line with the number changed. -/
def renumLine (f : Nat → Nat) : PoLine → PoLine
  | .blank => .blank
  | .comment n k s => .comment (f n) k s
  | .message n p t s => .message (f n) p t s
  | .continuation n p s => .continuation (f n) p s

/-- An item with the number changed. -/
def renumItem (f : Nat → Nat) : Item → Item
  | .ok x => .ok (renumLine f x)
  | .error e => .error (renumbered f e)

/-- Outcomes with related values, and errors with changed numbers. -/
inductive OutF {α β : Type} (f : Nat → Nat) (V : α → β → Prop) : Out α → Out β → Prop
  | ok {a b} : V a b → OutF f V (.ok a) (.ok b)
  | err {e} : OutF f V (.err e) (.err (renumbered f e))
  | panic : OutF f V .panic .panic

/-- Two computations whose results are related and that keep related states related. -/
def SimF {σ τ α β : Type} (f : Nat → Nat) (R : σ → τ → Prop) (V : α → β → Prop) (x : Eff σ α) (y : Eff τ β) : Prop :=
  ∀ s t, R s t → OutF f V (x s).1 (y t).1 ∧ R (x s).2 (y t).2

namespace SimF
variable {σ τ α β γ δ : Type} {f : Nat → Nat} {R : σ → τ → Prop} {V : α → β → Prop} {W : γ → δ → Prop}

theorem pure {a : α} {b : β} (h : V a b) : SimF f R V (Eff.pure a) (Eff.pure b) := fun _ _ hr => ⟨.ok h, hr⟩
theorem err {e e' : Err} (h : e' = renumbered f e) : SimF f R V (Eff.err e) (Eff.err e') := fun _ _ hr => by subst h; exact ⟨.err, hr⟩
theorem panic : SimF f R V Eff.panic Eff.panic := fun _ _ hr => ⟨.panic, hr⟩

theorem bind {x : Eff σ α} {y : Eff τ β} {g : α → Eff σ γ} {h : β → Eff τ δ} (hx : SimF f R V x y) (hg : ∀ a b, V a b → SimF f R W (g a) (h b)) :
    SimF f R W (x >>= g) (y >>= h) := by
  intro s t hr
  obtain ⟨h1, h2⟩ := hx s t hr
  show OutF f W (Eff.bind x g s).1 (Eff.bind y h t).1 ∧ R (Eff.bind x g s).2 (Eff.bind y h t).2
  unfold Eff.bind
  rcases hxs : x s with ⟨o, s'⟩
  rcases hyt : y t with ⟨o', t'⟩
  rw [hxs, hyt] at h1 h2
  simp only at h1 h2
  cases h1 with
  | ok hv => exact hg _ _ hv _ _ h2
  | err => exact ⟨.err, h2⟩
  | panic => exact ⟨.panic, h2⟩

end SimF

/-- Two sources that behave in the same way, apart from the numbers. -/
structure SrcF {σ τ : Type} [Src σ] [Src τ] (f : Nat → Nat) (R : σ → τ → Prop) : Prop where
  peek : ∀ s t, R s t → (Src.peek t).1 = (Src.peek s).1.map (renumItem f) ∧ R (Src.peek s).2 (Src.peek t).2
  next : ∀ s t, R s t → (Src.next t).1 = (Src.next s).1.map (renumItem f) ∧ R (Src.next s).2 (Src.next t).2

section
variable {σ τ : Type} [Src σ] [Src τ] {f : Nat → Nat} {R : σ → τ → Prop} (hR : SrcF f R)
include hR

theorem simF_peekE : SimF f R (fun a b => b = a.map (renumItem f)) peekE peekE := fun s l h => by
  obtain ⟨h1, h2⟩ := hR.peek s l h
  exact ⟨.ok h1, h2⟩

theorem simF_nextE : SimF f R (fun a b => b = a.map (renumItem f)) nextE nextE := fun s l h => by
  obtain ⟨h1, h2⟩ := hR.next s l h
  exact ⟨.ok h1, h2⟩

theorem simF_fetchNext : SimF f R (fun a b => b = a.map (renumLine f)) fetchNext fetchNext := by
  have last : SimF f R (fun a b => b = a.map (renumLine f)) (nextE >>= fun x => match x with | some (.error err) => Eff.err err | _ => Eff.pure none)
      (nextE >>= fun x => match x with | some (.error err) => Eff.err err | _ => Eff.pure none) := by
    refine SimF.bind (simF_nextE hR) fun c d hd => ?_
    subst hd
    rcases c with _ | e | l
    · exact .pure rfl
    · exact .err rfl
    · exact .pure rfl
  refine SimF.bind (simF_peekE hR) fun a b hb => ?_
  subst hb
  rcases a with _ | e | l
  · exact last
  · exact last
  · exact .pure rfl

theorem simF_contLoop_same (pfx : Str) (k : Nat) (acc : Str) : SimF f R Eq (contLoop pfx k acc) (contLoop pfx k acc) := by
  induction k generalizing acc with
  | zero => exact .panic
  | succ k ih =>
    refine SimF.bind (simF_fetchNext hR) fun a b hb => ?_
    subst hb
    rcases a with _ | _ | _ | _ | ⟨n, p, s⟩
    case some.continuation =>
      show SimF f R Eq (if p ≠ pfx then _ else _) (if p ≠ pfx then _ else _)
      split
      · exact .pure rfl
      · refine SimF.bind (simF_nextE hR) fun c d hd => ?_
        subst hd
        rcases c with _ | e | _ | _ | _ | ⟨_, _, s⟩
        case some.ok.continuation => exact ih _
        all_goals exact .panic
    all_goals exact .pure rfl

theorem simF_commentLoop_same (k : Nat) (u : PoUnit) : SimF f R Eq (commentLoop k u) (commentLoop k u) := by
  induction k generalizing u with
  | zero => exact .panic
  | succ k ih =>
    refine SimF.bind (simF_peekE hR) fun a b hb => ?_
    subst hb
    rcases a with _ | e | _ | _ | _ | _
    case some.ok.comment =>
      refine SimF.bind (simF_nextE hR) fun c d hd => ?_
      subst hd
      rcases c with _ | e | _ | _ | _ | _
      case some.ok.comment => exact ih _
      all_goals exact .panic
    all_goals exact .pure rfl

theorem simF_expected (exp : Str) : SimF f R Eq (expected exp) (expected exp) := by
  refine SimF.bind (simF_peekE hR) fun a b hb => ?_
  subst hb
  rcases a with _ | e | _ | _ | _ | _
  case none => exact .pure rfl
  case some.error =>
    refine SimF.bind (simF_nextE hR) fun c d hd => ?_
    subst hd
    rcases c with _ | e | l
    · exact .panic
    · exact .err rfl
    · exact .panic
  case some.ok.blank => exact .pure rfl
  all_goals exact .err rfl

end

section
variable {σ τ : Type} [Src σ] [Src τ] [LawfulSrc σ] [LawfulSrc τ] {f : Nat → Nat} {R : σ → τ → Prop} (hR : SrcF f R)
include hR

theorem simF_contLoop (pfx : Str) (acc : Str) :
    SimF f R Eq (fun st => contLoop pfx (Src.bound st + 1) acc st) (fun st => contLoop pfx (Src.bound st + 1) acc st) := by
  intro s t h
  have := simF_contLoop_same hR pfx (Src.bound s + Src.bound t + 1) acc s t h
  rw [contLoop_fuel pfx _ (Src.bound s + 1) acc s (by omega) (by omega), contLoop_fuel pfx _ (Src.bound t + 1) acc t (by omega) (by omega)] at this
  exact this

theorem simF_commentLoop (u : PoUnit) :
    SimF f R Eq (fun st => commentLoop (Src.bound st + 1) u st) (fun st => commentLoop (Src.bound st + 1) u st) := by
  intro s t h
  have := simF_commentLoop_same hR (Src.bound s + Src.bound t + 1) u s t h
  rw [commentLoop_fuel _ (Src.bound s + 1) u s (by omega) (by omega), commentLoop_fuel _ (Src.bound t + 1) u t (by omega) (by omega)] at this
  exact this

theorem simF_parseMsg (tag : Str) (o : Bool) : SimF f R Eq (parseMsg tag o) (parseMsg tag o) := by
  refine SimF.bind (simF_fetchNext hR) fun a b hb => ?_
  subst hb
  rcases a with _ | _ | _ | ⟨n, p, t, s⟩ | _
  case some.message =>
    show SimF f R Eq (if t = tag ∧ startsTilde p = o then _ else _) (if t = tag ∧ startsTilde p = o then _ else _)
    split
    · refine SimF.bind (simF_nextE hR) fun c d hd => ?_
      subst hd
      rcases c with _ | e | _ | _ | _ | _
      case some.ok.message =>
        refine SimF.bind (simF_contLoop hR _ _) fun c d hd => ?_
        subst hd
        exact .pure rfl
      all_goals exact .panic
    · exact .pure rfl
  all_goals exact .pure rfl

theorem simF_parseComments (u : PoUnit) : SimF f R Eq (parseComments u) (parseComments u) := by
  refine SimF.bind (simF_commentLoop hR _) fun a b hb => ?_
  subst hb
  refine SimF.bind (simF_peekE hR) fun b c hc => ?_
  subst hc
  rcases b with _ | e | l
  · exact .pure rfl
  · refine SimF.bind (simF_nextE hR) fun c d hd => ?_
    subst hd
    rcases c with _ | e | l
    · exact .panic
    · exact .err rfl
    · exact .panic
  · exact .pure rfl

theorem simF_valuesLoop (o : Bool) (k i : Nat) (vs : List Str) : SimF f R Eq (valuesLoop o k i vs) (valuesLoop o k i vs) := by
  induction k generalizing i vs with
  | zero => exact .pure rfl
  | succ k ih =>
    refine SimF.bind (simF_parseMsg hR _ _) fun a b hb => ?_
    subst hb
    cases a with
    | some v => exact ih _ _
    | none => exact ih _ _

theorem simF_newMessage (g : Option PluralForms) (o : Bool) (a b : Option Str) : SimF f R Eq (newMessage g o a b) (newMessage g o a b) := by
  have last : ∀ exp : Str, SimF f R Eq (expected exp >>= fun _ => Eff.pure (none : Option Message)) (expected exp >>= fun _ => Eff.pure none) :=
    fun exp => SimF.bind (simF_expected hR exp) fun _ _ _ => .pure rfl
  unfold newMessage
  cases a with
  | none => exact .pure rfl
  | some a =>
    cases b with
    | some b =>
      refine SimF.bind (simF_valuesLoop hR _ _ _ _) fun c d hd => ?_
      subst hd
      split
      · exact last _
      · exact .pure rfl
    | none =>
      refine SimF.bind (simF_parseMsg hR _ _) fun c d hd => ?_
      subst hd
      cases c with
      | some v => exact .pure rfl
      | none => exact last _

theorem simF_parseMessageFields (g : Option PluralForms) (u : PoUnit) (first : Bool) :
    SimF f R Eq (parseMessageFields g u first) (parseMessageFields g u first) := by
  refine SimF.bind (simF_parseMsg hR _ _) fun a a' h => ?_
  subst h
  refine SimF.bind (simF_parseMsg hR _ _) fun b b' h => ?_
  subst h
  refine SimF.bind (V := Eq) (by cases b; exact .pure rfl; exact simF_parseMsg hR _ _) fun c c' h => ?_
  subst h
  refine SimF.bind (simF_parseMsg hR _ _) fun d d' h => ?_
  subst h
  refine SimF.bind (simF_parseMsg hR _ _) fun e e' h => ?_
  subst h
  split
  · exact SimF.bind (simF_expected hR _) fun _ _ _ => .pure rfl
  · refine SimF.bind (simF_parseMsg hR _ _) fun m m' h => ?_
    subst h
    refine SimF.bind (simF_newMessage hR _ _ _ _) fun m m' h => ?_
    subst h
    cases m with
    | none => exact .pure rfl
    | some m => exact .pure rfl

end

/-- The result of `next()` with the number changed. -/
def renumUnit (f : Nat → Nat) : Except Err PoUnit → Except Err PoUnit
  | .ok u => .ok u
  | .error e => .error (renumbered f e)

/-- Readers with related line sources and the given properties, which agree on everything else apart from the numbers. -/
structure ReaderF {σ τ L : Type} (f : Nat → Nat) (R : σ → τ → Prop) (p p' : List (Str × Str)) (r : Reader σ L) (r' : Reader τ L) : Prop where
  lines : R r.lines r'.lines
  nextUnit : r'.nextUnit = r.nextUnit.map (renumUnit f)
  notes : r'.headerNotes = r.headerNotes
  comments : r'.headerComments = r.headerComments
  left : r.headerProperties = p
  right : r'.headerProperties = p'
  lang : r'.targetLanguage = r.targetLanguage
  forms : r'.pluralForms = r.pluralForms

section
variable {σ τ L : Type} [Src σ] [Src τ] [LawfulSrc σ] [LawfulSrc τ] {f : Nat → Nat} {R : σ → τ → Prop} {p p' : List (Str × Str)} (hR : SrcF f R)

omit [Src σ] [Src τ] [LawfulSrc σ] [LawfulSrc τ] in
theorem simF_onLines {α β : Type} {V : α → β → Prop} {x : Eff σ α} {y : Eff τ β} (h : SimF f R V x y) :
    SimF f (ReaderF (L := L) f R p p') V (onLines x) (onLines y) := by
  intro r r' hr
  obtain ⟨h1, h2⟩ := h _ _ hr.lines
  exact ⟨h1, ⟨h2, hr.2, hr.3, hr.4, hr.5, hr.6, hr.7, hr.8⟩⟩

include hR

omit [LawfulSrc σ] [LawfulSrc τ] in
theorem simF_readLine (h0 : f 0 = 0) : SimF f (ReaderF (L := L) f R p p') (fun a b => b = a.map fun x => (f x.1, x.2)) readLine readLine := by
  refine SimF.bind (simF_onLines (simF_peekE hR)) fun a b hb => ?_
  subst hb
  rcases a with _ | e | _ | _ | ⟨n, q, t, s⟩ | _
  · exact .pure rfl
  · intro r r' hr
    have hr' : ReaderF f R p p' { r with nextUnit := none } { r' with nextUnit := none } :=
      ⟨hr.1, rfl, hr.3, hr.4, hr.5, hr.6, hr.7, hr.8⟩
    have last := SimF.bind (f := f) (R := ReaderF (L := L) f R p p') (W := fun (a b : Option (Nat × Bool)) => b = a.map fun x => (f x.1, x.2))
      (g := fun x => match x with | some (.error err) => Eff.err err | _ => Eff.panic)
      (h := fun x => match x with | some (.error err) => Eff.err err | _ => Eff.panic) (simF_onLines (simF_nextE hR)) fun c d hd => (by
        subst hd
        rcases c with _ | e | l
        · exact .panic
        · exact .err rfl
        · exact .panic)
    have hn := hr.nextUnit
    rcases hq : r.nextUnit with _ | e | u
    · rw [hq] at hn
      simp only [Option.map_some, renumItem, hn, hq, Option.map_none]
      exact last _ _ hr'
    · rw [hq] at hn
      simp only [Option.map_some, renumItem, hn, hq, renumUnit]
      exact ⟨.err, hr'⟩
    · rw [hq] at hn
      simp only [Option.map_some, renumItem, hn, hq, renumUnit]
      exact last _ _ hr'
  · exact .pure (by simp [renumLine, PoLine.line, h0])
  · exact .pure rfl
  · show SimF f _ _ (if startsTilde q then _ else _) (if startsTilde q then _ else _)
    split
    · exact .pure rfl
    · exact .pure rfl
  · exact .pure rfl

theorem simF_readUnit (h0 : f 0 = 0) (first : Bool) : SimF f (ReaderF (L := L) f R p p') Eq (readUnit first) (readUnit first) := by
  refine SimF.bind (simF_onLines (simF_parseComments hR _)) fun a a' h => ?_
  subst h
  refine SimF.bind (simF_readLine hR h0) fun b b' h => ?_
  subst h
  cases b with
  | none => exact .pure rfl
  | some b =>
    have hp : SimF f (ReaderF (L := L) f R p p') Eq (parseUnit { a with obsolete := b.2 } first) (parseUnit { a with obsolete := b.2 } first) := by
      intro r r' hr
      unfold parseUnit
      rw [hr.forms]
      exact simF_onLines (simF_parseMessageFields hR _ _ _) _ _ hr
    refine SimF.bind hp fun c c' h => ?_
    subst h
    cases c with
    | none => exact .pure rfl
    | some u =>
      show SimF f _ _ (match finishUnit first b.1 u with | .error e => Eff.err e | .ok u => Eff.pure (some u))
        (match finishUnit first (f b.1) u with | .error e => Eff.err e | .ok u => Eff.pure (some u))
      unfold finishUnit
      by_cases h1 : (!first && u.message.isEmpty) = true
      · simp only [if_pos h1]
        exact .err rfl
      · simp only [if_neg h1]
        split
        · rename_i e he
          split at he <;> cases he
        · exact .pure rfl

theorem simF_nextUnitM (h0 : f 0 = 0) (first : Bool) :
    SimF f (ReaderF (L := L) f R p p') (fun a b => b = a.map (renumUnit f)) (nextUnitM first) (nextUnitM first) := by
  intro r r' hr
  obtain ⟨h1, h2⟩ := simF_readUnit hR h0 first r r' hr
  unfold nextUnitM
  rcases hx : readUnit first r with ⟨o, s⟩
  rcases hy : readUnit first r' with ⟨o', s'⟩
  rw [hx, hy] at h1 h2
  simp only at h1 h2
  cases h1 with
  | ok h =>
    subst h
    rename_i a
    cases a <;> exact ⟨.ok rfl, h2⟩
  | err => exact ⟨.ok rfl, h2⟩
  | panic => exact ⟨.panic, h2⟩

theorem simF_next (h0 : f 0 = 0) : SimF f (ReaderF (L := L) f R p p') (fun a b => b = a.map (renumUnit f)) Reader.next Reader.next := by
  intro r r' hr
  have hn := hr.nextUnit
  unfold Reader.next
  rcases hq : r.nextUnit with _ | e | u
  · rw [hq] at hn
    rw [hn]
    exact ⟨.ok rfl, hr⟩
  · rw [hq] at hn
    rw [hn]
    exact ⟨.ok rfl, ⟨hr.1, rfl, hr.3, hr.4, hr.5, hr.6, hr.7, hr.8⟩⟩
  · rw [hq] at hn
    rw [hn]
    simp only [Option.map_some, renumUnit]
    obtain ⟨h1, h2⟩ := simF_nextUnitM hR h0 false r r' hr
    rcases hx : nextUnitM false r with ⟨o, s⟩
    rcases hy : nextUnitM false r' with ⟨o', s'⟩
    rw [hx, hy] at h1 h2
    simp only at h1 h2
    cases h1 with
    | ok h =>
      subst h
      exact ⟨.ok h2.nextUnit, ⟨h2.1, rfl, h2.3, h2.4, h2.5, h2.6, h2.7, h2.8⟩⟩
    | err => exact ⟨.err, h2⟩
    | panic => exact ⟨.panic, h2⟩

end

/-! ### Maps in another order -/

theorem lookup_iff {l : List (Str × Str)} (h : (l.map Prod.fst).Nodup) (k v : Str) : l.lookup k = some v ↔ (k, v) ∈ l := by
  induction l with
  | nil => simp
  | cons q l ih =>
    obtain ⟨a, b⟩ := q
    rw [List.map_cons, List.nodup_cons] at h
    rw [List.lookup_cons]
    by_cases hk : k = a
    · subst hk
      simp only [beq_self_eq_true, Option.some.injEq, List.mem_cons, Prod.mk.injEq, true_and]
      constructor
      · rintro rfl; exact .inl rfl
      · rintro (rfl | hm)
        · rfl
        · exact absurd (List.mem_map.mpr ⟨_, hm, rfl⟩) h.1
    · have hb : (k == a) = false := by simpa using hk
      rw [hb]
      simp only [List.mem_cons, Prod.mk.injEq, hk, false_and, false_or]
      exact ih h.2

theorem lookup_perm {l l' : List (Str × Str)} (hp : l.Perm l') (h : (l.map Prod.fst).Nodup) (k : Str) : l'.lookup k = l.lookup k := by
  have h' : (l'.map Prod.fst).Nodup := (hp.map Prod.fst).nodup_iff.mp h
  rcases hx : l.lookup k with _ | v
  · rcases hy : l'.lookup k with _ | v
    · rfl
    · rw [lookup_iff h'] at hy
      have := (lookup_iff h k v).mpr (hp.mem_iff.mpr hy)
      rw [hx] at this
      cases this
  · rw [lookup_iff h] at hx
    exact (lookup_iff h' k v).mpr (hp.mem_iff.mp hx)

/-! ### The whole reader -/

section
variable {σ τ : Type} {f : Nat → Nat} {R : σ → τ → Prop}

/-- Properties that are empty, or those of a header text in another order. -/
def Shuffled (order : List (Str × Str) → List (Str × Str)) (p p' : List (Str × Str)) : Prop := p.Perm p' ∧ (p.map Prod.fst).Nodup ∧ p' = order p

/-- Outcomes of `parse()` that agree up to the line source, the numbers and the order of the properties. -/
inductive NewF {σ τ L : Type} (f : Nat → Nat) (R : σ → τ → Prop) (order : List (Str × Str) → List (Str × Str)) : Out (Reader σ L) → Out (Reader τ L) → Prop
  | ok {r r' p p'} : Shuffled order p p' → ReaderF f R p p' r r' → NewF f R order (.ok r) (.ok r')
  | err {e} : NewF f R order (.err e) (.err (renumbered f e))
  | panic : NewF f R order .panic .panic

theorem plural_errors (h0 : f 0 = 0) {env : Env} {forms : Str} {e : Err} (h : PluralForms.parse env forms = .error e) : renumbered f e = e := by
  unfold PluralForms.parse at h
  rcases hm : parseMap forms with x | vs
  · rw [hm] at h
    cases h
    unfold parseMap at hm
    split at hm
    · cases hm
    · cases hm
      simp only [renumbered, h0]
  · rw [hm] at h
    simp only at h
    split at h
    · cases h; rfl
    · split at h
      · cases h
      · split at h
        · cases h
        · cases h; rfl

theorem simF_header (h0 : f 0 = 0) {order : List (Str × Str) → List (Str × Str)} (ho : ∀ l : List (Str × Str), l.Perm (order l)) (env : Env) {r : Reader σ env.Lang} {r' : Reader τ env.Lang}
    (hr : ReaderF f R [] [] r r') :
    OutF f Eq (parsePoHeader env r).1 (parsePoHeaderIn order env r').1 ∧ ∃ p p', Shuffled order p p' ∧ ReaderF f R p p' (parsePoHeader env r).2 (parsePoHeaderIn order env r').2 := by
  unfold parsePoHeader parsePoHeaderIn
  have hn := hr.nextUnit
  have nil : Shuffled order [] [] := ⟨.refl _, by simp, ((ho []).symm.eq_nil).symm⟩
  rcases hq : r.nextUnit with _ | e | u
  · rw [hq] at hn
    rw [hn]
    exact ⟨.ok rfl, [], [], nil, hr⟩
  · rw [hq] at hn
    rw [hn]
    exact ⟨.ok rfl, [], [], nil, hr⟩
  · rw [hq] at hn
    rw [hn]
    simp only [Option.map_some, renumUnit, hr.left, hr.right, hr.notes, hr.comments, hr.lang]
    have hk := headerProps_keys u.message.getText
    have hp := ho (headerProps u.message.getText)
    rw [insertAll_nodup _ [] (by simpa using hk), insertAll_nodup _ [] (by simpa using (hp.map Prod.fst).nodup_iff.mp hk)]
    simp only [List.nil_append, langOf, lookup_perm hp hk]
    have sh : Shuffled order _ _ := ⟨hp, hk, rfl⟩
    rcases (headerProps u.message.getText).lookup (c!"Plural-Forms") with _ | forms
    · exact ⟨.ok rfl, _, _, sh, ⟨hr.1, rfl, rfl, rfl, rfl, rfl, rfl, hr.8⟩⟩
    · simp only
      by_cases hf : List.isEmpty forms = true
      · simp only [if_pos hf]
        exact ⟨.ok rfl, _, _, sh, ⟨hr.1, rfl, rfl, rfl, rfl, rfl, rfl, hr.8⟩⟩
      · simp only [if_neg hf]
        rcases he : PluralForms.parse env forms with e | g
        · refine ⟨?_, _, _, sh, ⟨hr.1, rfl, rfl, rfl, rfl, rfl, rfl, hr.8⟩⟩
          have := OutF.err (f := f) (V := (Eq : Unit → Unit → Prop)) (e := e)
          rw [plural_errors h0 he] at this
          exact this
        · exact ⟨.ok rfl, _, _, sh, ⟨hr.1, rfl, rfl, rfl, rfl, rfl, rfl, rfl⟩⟩

variable [Src σ] [Src τ] [LawfulSrc σ] [LawfulSrc τ] (hR : SrcF f R)
include hR

theorem simF_new (h0 : f 0 = 0) {order : List (Str × Str) → List (Str × Str)} (ho : ∀ l : List (Str × Str), l.Perm (order l)) (env : Env) (s : σ) (t : τ) (h : R s t) :
    NewF f R order (Reader.new env s) (Reader.newIn order env t) := by
  unfold Reader.new Reader.newIn
  have nil : Shuffled order [] [] := ⟨.refl _, by simp, ((ho []).symm.eq_nil).symm⟩
  have hr0 : ReaderF f R [] [] (⟨s, none, [], [], [], env.langInvariant, none⟩ : Reader σ env.Lang) ⟨t, none, [], [], [], env.langInvariant, none⟩ :=
    ⟨h, rfl, rfl, rfl, rfl, rfl, rfl, rfl⟩
  obtain ⟨h1, h2⟩ := simF_nextUnitM hR h0 true _ _ hr0
  simp only
  rcases hx : nextUnitM true (⟨s, none, [], [], [], env.langInvariant, none⟩ : Reader σ env.Lang) with ⟨o, r⟩
  rcases hy : nextUnitM true (⟨t, none, [], [], [], env.langInvariant, none⟩ : Reader τ env.Lang) with ⟨o', r'⟩
  rw [hx, hy] at h1 h2
  simp only at h1 h2
  cases h1 with
  | err => exact .err
  | panic => exact .panic
  | ok hv =>
    subst hv
    rename_i a
    rcases a with _ | e | u
    · exact .ok nil ⟨h2.1, rfl, h2.3, h2.4, h2.5, h2.6, h2.7, h2.8⟩
    · exact .err
    · simp only [Option.map_some, renumUnit]
      have h3 : ReaderF f R [] [] { r with nextUnit := some (.ok u) } { r' with nextUnit := some (.ok u) } :=
        ⟨h2.1, rfl, h2.3, h2.4, h2.5, h2.6, h2.7, h2.8⟩
      split
      · obtain ⟨h4, p, p', sh, h5⟩ := simF_header h0 ho env h3
        rcases hx : parsePoHeader env { r with nextUnit := some (.ok u) } with ⟨o, q⟩
        rcases hy : parsePoHeaderIn order env { r' with nextUnit := some (.ok u) } with ⟨o', q'⟩
        rw [hx, hy] at h4 h5
        simp only at h4 h5
        cases h4 with
        | err => exact .err
        | panic => exact .panic
        | ok _ =>
          simp only
          obtain ⟨h6, h7⟩ := simF_nextUnitM hR h0 false _ _ h5
          rcases hx : nextUnitM false q with ⟨o, z⟩
          rcases hy : nextUnitM false q' with ⟨o', z'⟩
          rw [hx, hy] at h6 h7
          simp only at h6 h7
          cases h6 with
          | err => exact .err
          | panic => exact .panic
          | ok hv =>
            subst hv
            exact .ok sh ⟨h7.1, rfl, h7.3, h7.4, h7.5, h7.6, h7.7, h7.8⟩
      · exact .ok nil h3

/-- The header with the other properties. -/
def reorderHeader {L : Type} (p' : List (Str × Str)) (h : Header L) : Header L := { h with properties := p' }

omit [Src σ] [Src τ] [LawfulSrc σ] [LawfulSrc τ] hR in
theorem headerOf_F {L : Type} {p p' : List (Str × Str)} {r : Reader σ L} {r' : Reader τ L} (h : ReaderF f R p p' r r') : headerOf r' = reorderHeader p' (headerOf r) := by
  unfold headerOf reorderHeader
  rw [h.notes, h.comments, h.right, h.lang]

theorem trace_F (h0 : f 0 = 0) {L : Type} {p p' : List (Str × Str)} (k : Nat) {r : Reader σ L} {r' : Reader τ L} (h : ReaderF f R p p' r r') :
    OutF f (fun a b => b = a.map fun x => (reorderHeader p' x.1, x.2.map (renumUnit f))) (trace k r) (trace k r') := by
  induction k generalizing r r' with
  | zero => exact .ok rfl
  | succ k ih =>
    rw [trace, trace]
    obtain ⟨h1, h2⟩ := simF_next hR h0 r r' h
    rcases hx : r.next with ⟨o, s⟩
    rcases hy : r'.next with ⟨o', s'⟩
    rw [hx, hy] at h1 h2
    simp only at h1 h2
    cases h1 with
    | err => exact .err
    | panic => exact .panic
    | ok hv =>
      subst hv
      simp only
      have := ih h2
      generalize trace k s = A at this ⊢
      generalize trace k s' = B at this ⊢
      cases this with
      | err => exact .err
      | panic => exact .panic
      | ok hv =>
        subst hv
        simp only [Out.bind, headerOf_F h2]
        exact .ok rfl

/-- **Transfer.** What a user sees with the other source: the same, apart from the numbers in errors and the order of the header properties. -/
theorem new_F (h0 : f 0 = 0) {order : List (Str × Str) → List (Str × Str)} (ho : ∀ l : List (Str × Str), l.Perm (order l)) (env : Env) (s : σ) (t : τ) (h : R s t) :
    (∀ e, Fails (Reader.new env s) e → Fails (Reader.newIn order env t) (renumbered f e)) ∧
    ∀ hdr us e, Yields (Reader.new env s) hdr (results us e) →
      ∃ hdr', SameHeader hdr hdr' ∧ hdr'.properties = order hdr.properties ∧ Yields (Reader.newIn order env t) hdr' (results us (e.map (renumbered f))) := by
  have hn := simF_new hR h0 ho env s t h
  refine ⟨fun e he => ?_, fun hdr us e hy => ?_⟩
  · unfold Fails at he ⊢
    rw [he] at hn
    generalize Reader.newIn order env t = B at hn ⊢
    cases hn
    rfl
  · generalize Reader.new env s = A at hn hy
    generalize Reader.newIn order env t = B at hn ⊢
    cases hn with
    | err => have := hy 0; cases this
    | panic => have := hy 0; cases this
    | @ok r r' p p' sh hr =>
      have hh : hdr = headerOf r := by
        have := hy 0
        simp only [observe, Out.bind, trace] at this
        cases this
        rfl
      have hp : hdr.properties = p := by rw [hh]; exact hr.left
      refine ⟨reorderHeader p' hdr, ⟨rfl, rfl, fun k => ?_, rfl⟩, ?_, fun k => ?_⟩
      · rw [hp]; exact (lookup_perm sh.1 sh.2.1 k).symm
      · rw [hp]; exact sh.2.2
      · have hk := hy k
        have ht := trace_F hR h0 k hr
        simp only [observe, Out.bind] at hk ⊢
        generalize trace k r = C at hk ht
        generalize trace k r' = D at ht ⊢
        cases ht with
        | err => cases hk
        | panic => cases hk
        | ok hv =>
          subst hv
          simp only [Out.ok.injEq, Prod.mk.injEq] at hk ⊢
          refine ⟨by rw [headerOf_F hr, ← hh], ?_⟩
          rw [hk.2, List.map_map]
          refine List.map_congr_left fun i _ => ?_
          simp only [Function.comp, Prod.mk.injEq, true_and]
          simp only [results, List.getElem?_append, List.length_map]
          split
          · rw [List.getElem?_map]
            cases us[i]? <;> rfl
          · cases e with
            | none => rfl
            | some e =>
              simp only [Option.toList, List.map_cons, List.map_nil, Option.map_some]
              rcases i - us.length with _ | _ <;> rfl

end

end Verif
