import Verif.Spec.Work
import Verif.Lemmas.Progress
import Verif.Props.Prefix

/-! Counting the calls of the line source. -/

namespace Verif
open Spec

instance {σ : Type} [Src σ] [LawfulSrc σ] : LawfulSrc (Counted σ) where
  next_peek s := LawfulSrc.next_peek s.src
  peek_peek s := LawfulSrc.peek_peek s.src
  bound_peek s := LawfulSrc.bound_peek s.src
  bound_next s h := LawfulSrc.bound_next s.src h
  bound_next_le s := LawfulSrc.bound_next_le s.src

/-- Counting does not change what is read. -/
theorem forget_srcRel {σ : Type} [Src σ] : SrcRel fun (c : Counted σ) (s : σ) => c.src = s where
  peek c s h := by subst h; exact ⟨rfl, rfl⟩
  next c s h := by subst h; exact ⟨rfl, rfl⟩

/-- The crate's source and the list of its items, with the same count. -/
def CountRel (c : Counted Peekable) (d : Counted (List Item)) : Prop := c.src.Rel (d.src.map some) ∧ c.calls = d.calls

theorem count_srcRel : SrcRel CountRel where
  peek c d h := by
    obtain ⟨h1, h2⟩ := h
    obtain ⟨h3, h4⟩ := peekable_srcRel.peek c.src _ h1
    refine ⟨?_, h4, congrArg (· + 1) h2⟩
    show (Src.peek c.src).1 = _
    rw [h3]
    show _ = (Src.peek d.src).1
    cases d.src <;> rfl
  next c d h := by
    obtain ⟨h1, h2⟩ := h
    obtain ⟨h3, h4⟩ := peekable_srcRel.next c.src _ h1
    have e : (Src.next (d.src.map some : List (Option Item))).2 = (Src.next d.src).2.map some := by cases d.src <;> rfl
    rw [e] at h4
    refine ⟨?_, h4, congrArg (· + 1) h2⟩
    show (Src.next c.src).1 = _
    rw [h3]
    show _ = (Src.next d.src).1
    cases d.src <;> rfl

/-! ### Upper bound -/

/-- Calls made and calls that the items left may still need. -/
def pot (s : Counted (List Item)) : Nat := s.calls + 3 * s.src.length

/-- A computation that makes at most `a` calls more than three for each item that it consumes. -/
def Cheap {α : Type} (a : Nat) (x : Eff (Counted (List Item)) α) : Prop := ∀ s, pot (x s).2 ≤ pot s + a

namespace Cheap
variable {α β : Type}

theorem pure (a : α) : Cheap 0 (Eff.pure a) := fun _ => Nat.le_refl _
theorem err (e : Err) : Cheap (α := α) 0 (Eff.err e) := fun _ => Nat.le_refl _
theorem panic : Cheap (α := α) 0 Eff.panic := fun _ => Nat.le_refl _

theorem mono {a b : Nat} {x : Eff (Counted (List Item)) α} (h : Cheap a x) (hab : a ≤ b) : Cheap b x := fun s => Nat.le_trans (h s) (by omega)

theorem bind {a b c : Nat} {x : Eff (Counted (List Item)) α} {f : α → Eff (Counted (List Item)) β} (hx : Cheap a x) (hf : ∀ v, Cheap b (f v))
    (h : a + b ≤ c := by omega) : Cheap c (x >>= f) := by
  intro s
  have h1 := hx s
  show pot (Eff.bind x f s).2 ≤ _
  unfold Eff.bind
  rcases hxs : x s with ⟨o, s'⟩
  rw [hxs] at h1
  cases o with
  | ok v => have := hf v s'; simp only at h1 ⊢; omega
  | err e => simp only at h1 ⊢; omega
  | panic => simp only at h1 ⊢; omega

end Cheap

theorem pot_next (s : Counted (List Item)) : pot (Src.next s).2 ≤ pot s + 1 ∧ ((Src.next s).1 ≠ none → pot (Src.next s).2 + 2 ≤ pot s) := by
  obtain ⟨l, c⟩ := s
  cases l with
  | nil => exact ⟨Nat.le_refl _, fun h => absurd rfl h⟩
  | cons x l =>
    show (c + 1) + 3 * l.length ≤ c + 3 * (x :: l).length + 1 ∧ (_ → (c + 1) + 3 * l.length + 2 ≤ c + 3 * (x :: l).length)
    simp only [List.length_cons]
    exact ⟨by omega, fun _ => by omega⟩

theorem pot_peek (s : Counted (List Item)) : pot (Src.peek s).2 = pot s + 1 := by
  show (s.calls + 1) + 3 * s.src.length = s.calls + 3 * s.src.length + 1
  omega

theorem cheap_peekE : Cheap 1 (peekE (σ := Counted (List Item))) := fun s => Nat.le_of_eq (pot_peek s)
theorem cheap_nextE : Cheap 1 (nextE (σ := Counted (List Item))) := fun s => (pot_next s).1

theorem cheap_fetchNext : Cheap 2 (fetchNext (σ := Counted (List Item))) := by
  refine Cheap.bind cheap_peekE (b := 1) fun a => ?_
  split
  · exact (Cheap.pure _).mono (by omega)
  · refine Cheap.bind cheap_nextE (b := 0) fun b => ?_
    split
    · exact Cheap.err _
    · exact Cheap.pure _

theorem pot_step {s : Counted (List Item)} {p : PoLine} (h : (Src.peek s).1 = some (.ok p)) : pot (Src.next (Src.peek s).2).2 + 1 ≤ pot s := by
  have h1 := LawfulSrc.next_peek s
  have h2 := (pot_next (Src.peek s).2).2 (by rw [h1, h]; simp)
  have h3 := pot_peek s
  omega

theorem cheap_contLoop (pfx : Str) (k : Nat) (acc : Str) : Cheap 2 (contLoop (σ := Counted (List Item)) pfx k acc) := by
  induction k generalizing acc with
  | zero => exact Cheap.panic.mono (by omega)
  | succ k ih =>
    intro s
    have hp := pot_peek s
    have hn := (pot_next (Src.peek s).2).1
    rw [contLoop_eq]
    rcases h : (Src.peek s).1 with _ | e | p
    · simp only; omega
    · simp only; omega
    · have hs := pot_step h
      cases p with
      | continuation n p t =>
        simp only
        split
        · simp only; omega
        · have := ih (acc ++ t) (Src.next (Src.peek s).2).2; omega
      | _ => simp only; omega

theorem cheap_commentLoop (k : Nat) (u : PoUnit) : Cheap 1 (commentLoop (σ := Counted (List Item)) k u) := by
  induction k generalizing u with
  | zero => exact Cheap.panic.mono (by omega)
  | succ k ih =>
    intro s
    have hp := pot_peek s
    rw [commentLoop_eq]
    rcases h : (Src.peek s).1 with _ | e | p
    · simp only; omega
    · simp only; omega
    · have hs := pot_step h
      cases p with
      | comment n c t =>
        simp only
        have := ih (addComment u c t) (Src.next (Src.peek s).2).2; omega
      | _ => simp only; omega

theorem cheap_parseMsg (tag : Str) (o : Bool) : Cheap 2 (parseMsg (σ := Counted (List Item)) tag o) := by
  intro s
  unfold parseMsg
  show pot (Eff.bind fetchNext _ s).2 ≤ _
  unfold Eff.bind
  rw [fetchNext_eq]
  have hp := pot_peek s
  have hn := (pot_next (Src.peek s).2).1
  rcases h : (Src.peek s).1 with _ | e | p
  · show pot (Src.next (Src.peek s).2).2 ≤ _; omega
  · simp only; omega
  · have hs := pot_step h
    have h1 := LawfulSrc.next_peek s
    cases p with
    | message n p t v =>
      simp only
      split
      · show pot (Eff.bind nextE _ (Src.peek s).2).2 ≤ _
        unfold Eff.bind nextE
        simp only [h1, h]
        show pot (Eff.bind _ _ _).2 ≤ _
        unfold Eff.bind
        simp only
        have hc := cheap_contLoop p (Src.bound (Src.next (Src.peek s).2).2 + 1) v (Src.next (Src.peek s).2).2
        rcases hx : contLoop p (Src.bound (Src.next (Src.peek s).2).2 + 1) v (Src.next (Src.peek s).2).2 with ⟨o, s'⟩
        rw [hx] at hc
        cases o <;> simp only [Eff.pure] at hc ⊢ <;> omega
      · show pot (Src.peek s).2 ≤ _; omega
    | _ => show pot (Src.peek s).2 ≤ _; omega

theorem cheap_expected (exp : Str) : Cheap 2 (expected (σ := Counted (List Item)) exp) := by
  refine Cheap.bind cheap_peekE (b := 1) fun a => ?_
  split
  · exact (Cheap.pure _).mono (by omega)
  · exact (Cheap.pure _).mono (by omega)
  · refine Cheap.bind cheap_nextE (b := 0) fun b => ?_
    split
    · exact Cheap.err _
    · exact Cheap.panic
  · exact (Cheap.err _).mono (by omega)
  · exact (Cheap.err _).mono (by omega)
  · exact (Cheap.err _).mono (by omega)

theorem cheap_valuesLoop (o : Bool) (k i : Nat) (vs : List Str) : Cheap (2 * k) (valuesLoop (σ := Counted (List Item)) o k i vs) := by
  induction k generalizing i vs with
  | zero => exact Cheap.pure _
  | succ k ih =>
    refine Cheap.bind (cheap_parseMsg _ _) (b := 2 * k) fun a => ?_
    split
    · exact ih _ _
    · exact ih _ _

theorem cheap_newMessage (f : Option PluralForms) (o : Bool) (a b : Option Str) : Cheap (2 * nplurals f + 4) (newMessage (σ := Counted (List Item)) f o a b) := by
  unfold newMessage
  split
  · exact (Cheap.pure _).mono (by omega)
  · split
    · refine Cheap.bind (cheap_valuesLoop _ _ _ _) (b := 2) (fun c => ?_) (by
        have : nplurals f = (f.map PluralForms.getCount).getD 2 := by cases f <;> rfl
        omega)
      split
      · exact Cheap.bind (cheap_expected _) (b := 0) fun _ => Cheap.pure _
      · exact (Cheap.pure _).mono (by omega)
    · refine Cheap.bind (cheap_parseMsg _ _) (b := 2) fun c => ?_
      split
      · exact (Cheap.pure _).mono (by omega)
      · exact Cheap.bind (cheap_expected _) (b := 0) fun _ => Cheap.pure _

theorem cheap_parseMessageFields (f : Option PluralForms) (u : PoUnit) (first : Bool) :
    Cheap (2 * nplurals f + 16) (parseMessageFields (σ := Counted (List Item)) f u first) := by
  refine Cheap.bind (cheap_parseMsg _ _) (b := 2 * nplurals f + 14) fun a => ?_
  refine Cheap.bind (cheap_parseMsg _ _) (b := 2 * nplurals f + 12) fun b => ?_
  refine Cheap.bind (a := 2) (by split; exact cheap_parseMsg _ _; exact (Cheap.pure _).mono (by omega)) (b := 2 * nplurals f + 10) fun c => ?_
  refine Cheap.bind (cheap_parseMsg _ _) (b := 2 * nplurals f + 8) fun d => ?_
  refine Cheap.bind (cheap_parseMsg _ _) (b := 2 * nplurals f + 6) fun e => ?_
  split
  · exact Cheap.bind (cheap_expected _) (b := 0) fun _ => Cheap.pure _
  · refine Cheap.bind (cheap_parseMsg _ _) (b := 2 * nplurals f + 4) fun g => ?_
    refine Cheap.bind (cheap_newMessage _ _ _ _) (b := 0) fun m => ?_
    split
    · exact Cheap.pure _
    · exact Cheap.pure _

theorem cheap_parseComments (u : PoUnit) : Cheap 3 (parseComments (σ := Counted (List Item)) u) := by
  refine Cheap.bind (a := 1) (fun s => cheap_commentLoop _ _ s) (b := 2) fun a => ?_
  refine Cheap.bind cheap_peekE (b := 1) fun a => ?_
  split
  · refine Cheap.bind cheap_nextE (b := 0) fun b => ?_
    split
    · exact Cheap.err _
    · exact Cheap.panic
  · exact (Cheap.pure _).mono (by omega)

/-! ### The reader -/

/-- The same for methods of the reader; they do not change the plural forms. -/
def CheapR {α L : Type} (a : Nat → Nat) (x : Eff (Reader (Counted (List Item)) L) α) : Prop :=
  ∀ r, pot (x r).2.lines ≤ pot r.lines + a (nplurals r.pluralForms) ∧ (x r).2.pluralForms = r.pluralForms ∧ headerOf (x r).2 = headerOf r

theorem CheapR.bind {α β L : Type} {a b c : Nat → Nat} {x : Eff (Reader (Counted (List Item)) L) α} {f : α → Eff (Reader (Counted (List Item)) L) β}
    (hx : CheapR a x) (hf : ∀ v, CheapR b (f v)) (h : ∀ n, a n + b n ≤ c n) : CheapR c (x >>= f) := by
  intro r
  obtain ⟨h1, h2, h3⟩ := hx r
  show pot (Eff.bind x f r).2.lines ≤ _ ∧ (Eff.bind x f r).2.pluralForms = _ ∧ headerOf (Eff.bind x f r).2 = _
  unfold Eff.bind
  rcases hxs : x r with ⟨o, r'⟩
  rw [hxs] at h1 h2 h3
  have := h (nplurals r.pluralForms)
  simp only at h1 h2 h3
  cases o with
  | ok v =>
    obtain ⟨g1, g2, g3⟩ := hf v r'
    rw [h2] at g1 g2
    rw [h3] at g3
    exact ⟨by simp only; omega, g2, g3⟩
  | err e => exact ⟨by simp only; omega, h2, h3⟩
  | panic => exact ⟨by simp only; omega, h2, h3⟩

theorem CheapR.pure {α L : Type} {a : Nat → Nat} (v : α) : CheapR (L := L) a (Eff.pure v) := fun _ => ⟨Nat.le_add_right _ _, rfl, rfl⟩
theorem CheapR.err {α L : Type} {a : Nat → Nat} (e : Err) : CheapR (α := α) (L := L) a (Eff.err e) := fun _ => ⟨Nat.le_add_right _ _, rfl, rfl⟩
theorem CheapR.panic {α L : Type} {a : Nat → Nat} : CheapR (α := α) (L := L) a Eff.panic := fun _ => ⟨Nat.le_add_right _ _, rfl, rfl⟩

theorem CheapR.onLines {α L : Type} {a : Nat} {x : Eff (Counted (List Item)) α} (h : Cheap a x) : CheapR (L := L) (fun _ => a) (onLines x) :=
  fun r => ⟨h r.lines, rfl, rfl⟩

theorem cheapR_readLine {L : Type} : CheapR (L := L) (fun _ => 2) readLine := by
  refine CheapR.bind (b := fun _ => 1) (CheapR.onLines cheap_peekE) (fun a => ?_) (fun _ => by omega)
  split
  · exact CheapR.pure _
  · intro r
    simp only
    have key : CheapR (L := L) (fun _ => 1) (do match ← Verif.onLines nextE with
          | some (.error err) => Eff.err err
          | _ => Eff.panic : Eff (Reader (Counted (List Item)) L) (Option (Nat × Bool))) := by
      refine CheapR.bind (b := fun _ => 0) (CheapR.onLines cheap_nextE) (fun a => ?_) (fun _ => by omega)
      split
      · exact CheapR.err _
      · exact CheapR.panic
    split
    · exact ⟨Nat.le_add_right _ _, rfl, rfl⟩
    · exact key { r with nextUnit := none }
  · split <;> exact CheapR.pure _
  · exact CheapR.pure _

theorem cheapR_readUnit {L : Type} (first : Bool) : CheapR (L := L) (fun n => 2 * n + 21) (readUnit first) := by
  refine CheapR.bind (b := fun n => 2 * n + 18) (CheapR.onLines (cheap_parseComments _)) (fun a => ?_) (fun _ => by omega)
  refine CheapR.bind (b := fun n => 2 * n + 16) cheapR_readLine (fun a => ?_) (fun _ => by omega)
  split
  · exact CheapR.pure _
  · refine CheapR.bind (a := fun n => 2 * n + 16) (b := fun n => 0) (fun r => ⟨cheap_parseMessageFields _ _ _ _, rfl, rfl⟩) (fun a => ?_) (fun _ => by omega)
    split
    · exact CheapR.pure _
    · split
      · exact CheapR.err _
      · exact CheapR.pure _

theorem cheapR_nextUnitM {L : Type} (first : Bool) : CheapR (L := L) (fun n => 2 * n + 21) (nextUnitM first) := by
  intro r
  have := cheapR_readUnit first r
  unfold nextUnitM
  rcases hx : readUnit first r with ⟨o, s⟩
  rw [hx] at this
  rcases o with (_ | u) | e | _ <;> exact this

/-- Reading one more entry, with counting, as on the list. -/
theorem nextUnitM_counted {L : Type} (first : Bool) (r : Reader (Counted (List Item)) L) :
    (nextUnitM first r).1 = .ok (entryRes (entry r.pluralForms first r.lines.src).1) ∧
    (nextUnitM first r).2.lines.src = (entry r.pluralForms first r.lines.src).2 := by
  have hU := fun (L : Type) (first : Bool) => sim_readUnit (L := L) (first := first) (forget_srcRel (σ := List Item))
  have := sim_nextUnitM hU first r
    ⟨r.lines.src, r.nextUnit, r.headerNotes, r.headerComments, r.headerProperties, r.targetLanguage, r.pluralForms⟩ ⟨rfl, rfl, rfl, rfl, rfl, rfl, rfl⟩
  rw [nextUnitM_list] at this
  exact ⟨this.1, this.2.lines⟩

/-- The calls made so far, and those that the items left may need, if entries with `n` plural texts are read. -/
def pot' (n : Nat) (s : Counted (List Item)) : Nat := s.calls + (2 * n + 24) * s.src.length

theorem pot'_eq (n : Nat) (s : Counted (List Item)) : pot' n s = pot s + (2 * n + 21) * s.src.length := by
  unfold pot' pot
  rw [show 2 * n + 24 = 3 + (2 * n + 21) by omega, Nat.add_mul]
  omega

/-- At most `b` calls so far, with what the items left may need; a reader that has stopped has once read in vain. -/
def Within {L : Type} (b : Nat) (r : Reader (Counted (List Item)) L) : Prop :=
  pot' (nplurals r.pluralForms) r.lines ≤ b + match r.nextUnit with | some (.ok _) => 0 | _ => 2 * nplurals r.pluralForms + 21

theorem within_read {L : Type} {b : Nat} {r r' : Reader (Counted (List Item)) L} {x : Option (Except Err PoUnit)} (hr : pot' (nplurals r.pluralForms) r.lines ≤ b)
    (h : nextUnitM false r = (.ok x, r')) : Within b { r' with nextUnit := x } ∧ r'.pluralForms = r.pluralForms ∧ headerOf r' = headerOf r := by
  obtain ⟨h1, h2, h3⟩ := cheapR_nextUnitM false r
  obtain ⟨h4, h5⟩ := nextUnitM_counted false r
  rw [h] at h1 h2 h3 h4 h5
  simp only [Out.ok.injEq] at h1 h2 h3 h4 h5
  refine ⟨?_, h2, h3⟩
  have hs := (good_entry r.pluralForms false r.lines.src).2.length_le
  rw [← h5] at hs
  unfold Within
  simp only
  rw [h2]
  rw [pot'_eq] at hr ⊢
  generalize nplurals r.pluralForms = n at *
  have hm := Nat.mul_le_mul_left (2 * n + 21) hs
  rcases he : entry r.pluralForms false r.lines.src with ⟨(_ | u) | e | _, l'⟩ <;> rw [he] at h4 h5 <;> subst h4 <;> simp only [entryRes]
  · omega
  · have := consumes_entry _ _ _ _ he
    replace h5 : r'.lines.src = l' := h5
    rw [← h5] at this
    have hm := Nat.mul_le_mul_left (2 * n + 21) this
    rw [Nat.mul_succ] at hm
    omega
  · omega
  · omega

theorem within_next {L : Type} {b : Nat} {r r' : Reader (Counted (List Item)) L} {x : Option (Except Err PoUnit)} (hr : Within b r) (h : r.next = (.ok x, r')) :
    Within b r' ∧ r'.pluralForms = r.pluralForms ∧ headerOf r' = headerOf r := by
  rcases hn : r.nextUnit with _ | e | u
  · unfold Reader.next at h
    rw [hn] at h
    cases h; exact ⟨hr, rfl, rfl⟩
  · unfold Reader.next at h
    rw [hn] at h
    cases h
    refine ⟨?_, rfl, rfl⟩
    unfold Within at hr ⊢
    rw [hn] at hr
    exact hr
  · rw [next_ok hn] at h
    have hr' : pot' (nplurals r.pluralForms) r.lines ≤ b := by
      unfold Within at hr
      rw [hn] at hr
      exact hr
    rcases hx : nextUnitM false r with ⟨y | e | _, s⟩ <;> rw [hx] at h
    · cases h
      exact within_read hr' hx
    · cases h
    · cases h

theorem within_calls {L : Type} {b : Nat} {r r' : Reader (Counted (List Item)) L} {xs : List (Option (Except Err PoUnit))} (h : Calls r xs r') (hr : Within b r) :
    Within b r' ∧ r'.pluralForms = r.pluralForms := by
  induction h with
  | nil => exact ⟨hr, rfl⟩
  | cons h1 h2 ih =>
    obtain ⟨g1, g2, _⟩ := within_next hr h1
    obtain ⟨g3, g4⟩ := ih g1
    exact ⟨g3, g4.trans g2⟩

/-- What the header method does. -/
theorem parsePoHeader_spec {σ : Type} (env : Env) {r q : Reader σ env.Lang} {u : PoUnit} {o : Unit} (hu : r.nextUnit = some (.ok u)) (hf : r.pluralForms = none)
    (hp : r.headerProperties = []) (h : parsePoHeader env r = (.ok o, q)) :
    q.lines = r.lines ∧ q.nextUnit = r.nextUnit ∧ FormsRule env ((headerOf q).properties.lookup (c!"Plural-Forms")) (.ok q.pluralForms) := by
  unfold parsePoHeader at h
  rw [hu, hp] at h
  simp only at h
  generalize hl : List.lookup (c!"Plural-Forms") (List.foldl (fun m kv => insertKV m kv.1 kv.2) [] (headerProps u.message.getText)) = p at h
  cases p with
  | none =>
    simp only [Prod.mk.injEq] at h
    obtain ⟨_, rfl⟩ := h
    refine ⟨rfl, hu.symm, ?_⟩
    simp only [headerOf, hl, hf]
    exact .absent
  | some s =>
    simp only at h
    split at h
    · rename_i hs
      simp only [Prod.mk.injEq] at h
      obtain ⟨_, rfl⟩ := h
      refine ⟨rfl, hu.symm, ?_⟩
      simp only [headerOf, hl, hf]
      rw [List.isEmpty_iff.mp hs]
      exact .empty
    · rename_i hs
      cases hpp : PluralForms.parse env s with
      | error e => rw [hpp] at h; cases h
      | ok g =>
        rw [hpp] at h
        simp only [Prod.mk.injEq] at h
        obtain ⟨_, rfl⟩ := h
        refine ⟨rfl, hu.symm, ?_⟩
        simp only [headerOf, hl]
        exact (formsRule_iff _ _ _).mpr (by simp [textForms, hs, hpp, Except.map])

theorem within_new (env : Env) {l : List Item} {r : Reader (Counted (List Item)) env.Lang} (h : Reader.new env (⟨l, 0⟩ : Counted (List Item)) = .ok r) :
    Within ((2 * nplurals r.pluralForms + 24) * l.length + 25) r ∧
      FormsRule env ((headerOf r).properties.lookup (c!"Plural-Forms")) (.ok r.pluralForms) := by
  unfold Reader.new at h
  simp only at h
  obtain ⟨h1, h2, h3⟩ := cheapR_nextUnitM true (⟨⟨l, 0⟩, none, [], [], [], env.langInvariant, none⟩ : Reader (Counted (List Item)) env.Lang)
  obtain ⟨_, h5⟩ := nextUnitM_counted true (⟨⟨l, 0⟩, none, [], [], [], env.langInvariant, none⟩ : Reader (Counted (List Item)) env.Lang)
  rcases hx : nextUnitM true (⟨⟨l, 0⟩, none, [], [], [], env.langInvariant, none⟩ : Reader (Counted (List Item)) env.Lang) with ⟨o, s⟩
  rw [hx] at h1 h2 h3 h5 h
  simp only at h1 h2 h3 h5
  have hs := (good_entry none true l).2.length_le
  rw [← h5] at hs
  have hb : ∀ n, pot' n s.lines ≤ (2 * n + 24) * l.length + 25 := by
    intro n
    rw [pot'_eq]
    have hm := Nat.mul_le_mul_left (2 * n + 21) hs
    rw [show 2 * n + 24 = 3 + (2 * n + 21) by omega, Nat.add_mul 3 (2 * n + 21)]
    generalize 2 * n + 21 = c at *
    have : pot (⟨l, 0⟩ : Counted (List Item)) = 0 + 3 * l.length := rfl
    have : 2 * nplurals none + 21 = 25 := rfl
    omega
  have hq : (headerOf s).properties = [] := by rw [h3]; rfl
  have hf0 : FormsRule env ((headerOf s).properties.lookup (c!"Plural-Forms")) (.ok s.pluralForms) := by
    rw [hq, h2]; exact .absent
  rcases o with (_ | e | u) | e | _
  · cases h
    exact ⟨Nat.le_trans (hb _) (Nat.le_add_right _ _), hf0⟩
  · cases h
  · simp only at h
    split at h
    · rcases hy : parsePoHeader env { s with nextUnit := some (.ok u) } with ⟨o | e | _, q⟩ <;> rw [hy] at h
      · obtain ⟨g1, g2, g3⟩ := parsePoHeader_spec env (r := { s with nextUnit := some (.ok u) }) (u := u) rfl h2 hq hy
        simp only at h
        rcases hz : nextUnitM false q with ⟨y | e | _, t⟩ <;> rw [hz] at h
        · cases h
          obtain ⟨k1, k2, k3⟩ := within_read (b := (2 * nplurals q.pluralForms + 24) * l.length + 25) (by rw [g1]; exact hb _) hz
          rw [← k2] at k1
          refine ⟨k1, ?_⟩
          show FormsRule env ((headerOf t).properties.lookup (c!"Plural-Forms")) (.ok t.pluralForms)
          rw [k3, k2]
          exact g3
        · cases h
        · cases h
      · cases h
      · cases h
    · cases h
      exact ⟨Nat.le_trans (hb _) (Nat.le_add_right _ _), hf0⟩
  · cases h
  · cases h

/-! ### Lower bound -/

section
set_option linter.unusedSectionVars false
variable {σ : Type} [Src σ]

/-- A computation that makes at least `n` calls, and `m` if it gives a value. -/
def Busy {α : Type} (m : α → Nat) (x : Eff (Counted σ) α) : Prop :=
  ∀ s, s.calls ≤ (x s).2.calls ∧ ∀ v, (x s).1 = .ok v → s.calls + m v ≤ (x s).2.calls

namespace Busy
variable {α β : Type}

theorem pure {m : α → Nat} (a : α) (h : m a = 0) : Busy (σ := σ) m (Eff.pure a) :=
  fun s => ⟨Nat.le_refl _, fun v hv => by cases hv; show s.calls + m a ≤ s.calls; omega⟩
theorem err {m : α → Nat} (e : Err) : Busy (σ := σ) m (Eff.err e) := fun _ => ⟨Nat.le_refl _, fun _ hv => by cases hv⟩
theorem panic {m : α → Nat} : Busy (σ := σ) m Eff.panic := fun _ => ⟨Nat.le_refl _, fun _ hv => by cases hv⟩

theorem bind {m : α → Nat} {k : β → Nat} {x : Eff (Counted σ) α} {f : α → Eff (Counted σ) β} (hx : Busy m x)
    (hf : ∀ a, Busy (fun b => k b - m a) (f a)) : Busy k (x >>= f) := by
  intro s
  obtain ⟨h1, h2⟩ := hx s
  show s.calls ≤ (Eff.bind x f s).2.calls ∧ ∀ v, (Eff.bind x f s).1 = .ok v → s.calls + k v ≤ (Eff.bind x f s).2.calls
  unfold Eff.bind
  rcases hxs : x s with ⟨o, s'⟩
  rw [hxs] at h1 h2
  cases o with
  | ok a =>
    obtain ⟨h3, h4⟩ := hf a s'
    have h2 := h2 a rfl
    simp only at h1 h2 ⊢
    refine ⟨by omega, fun v hv => ?_⟩
    have := h4 v hv
    simp only at this
    omega
  | err e => exact ⟨h1, fun _ hv => by cases hv⟩
  | panic => exact ⟨h1, fun _ hv => by cases hv⟩

theorem mono {m k : α → Nat} {x : Eff (Counted σ) α} (h : Busy m x) (hk : ∀ a, k a ≤ m a) : Busy k x := fun s =>
  ⟨(h s).1, fun v hv => by have := (h s).2 v hv; have := hk v; omega⟩

end Busy

theorem busy_peekE : Busy (σ := σ) (fun _ => 1) peekE := fun _ => ⟨Nat.le_succ _, fun _ _ => Nat.le_refl _⟩
theorem busy_nextE : Busy (σ := σ) (fun _ => 1) nextE := fun _ => ⟨Nat.le_succ _, fun _ _ => Nat.le_refl _⟩

theorem busy_fetchNext : Busy (σ := σ) (fun _ => 1) fetchNext := by
  refine Busy.bind busy_peekE fun a => ?_
  split
  · exact Busy.pure _ rfl
  · refine Busy.bind busy_nextE fun b => ?_
    split
    · exact Busy.err _
    · exact Busy.pure _ rfl

theorem busy_contLoop (pfx : Str) (k : Nat) (acc : Str) : Busy (σ := σ) (fun _ => 0) (contLoop pfx k acc) := by
  induction k generalizing acc with
  | zero => exact Busy.panic
  | succ k ih =>
    refine Busy.bind busy_fetchNext fun a => ?_
    split
    · split
      · exact Busy.pure _ rfl
      · refine Busy.bind busy_nextE fun b => ?_
        split
        · exact (ih _).mono (by simp)
        · exact Busy.panic
    · exact Busy.pure _ rfl

theorem busy_commentLoop (k : Nat) (u : PoUnit) : Busy (σ := σ) (fun _ => 0) (commentLoop k u) := by
  induction k generalizing u with
  | zero => exact Busy.panic
  | succ k ih =>
    refine Busy.bind busy_peekE fun a => ?_
    split
    · refine Busy.bind busy_nextE fun b => ?_
      split
      · exact (ih _).mono (by simp)
      · exact Busy.panic
    · exact Busy.pure _ rfl

theorem busy_parseMsg (tag : Str) (o : Bool) : Busy (σ := σ) (fun _ => 1) (parseMsg tag o) := by
  refine Busy.bind busy_fetchNext fun a => ?_
  split
  · split
    · refine Busy.bind busy_nextE fun b => ?_
      split
      · exact Busy.bind (m := fun _ => 0) (fun s => busy_contLoop _ _ _ s) fun c => Busy.pure _ rfl
      · exact Busy.panic
    · exact Busy.pure _ rfl
  · exact Busy.pure _ rfl

theorem busy_expected (exp : Str) : Busy (σ := σ) (fun _ => 0) (expected exp) := by
  refine Busy.bind busy_peekE fun a => ?_
  split
  · exact Busy.pure _ rfl
  · exact Busy.pure _ rfl
  · refine Busy.bind busy_nextE fun b => ?_
    split
    · exact Busy.err _
    · exact Busy.panic
  · exact Busy.err _
  · exact Busy.err _
  · exact Busy.err _

theorem busy_valuesLoop (o : Bool) (k i : Nat) (vs : List Str) : Busy (σ := σ) (fun _ => k) (valuesLoop o k i vs) := by
  induction k generalizing i vs with
  | zero => exact Busy.pure _ rfl
  | succ k ih =>
    refine Busy.bind (busy_parseMsg _ _) fun a => ?_
    split
    · exact ih _ _
    · exact ih _ _

/-- The number of plural texts looked for. -/
def msgLookups (m : Message) : Nat := match m with | .plural p => nplurals p.forms | .simple .. => 0

theorem busy_newMessage (f : Option PluralForms) (o : Bool) (a b : Option Str) :
    Busy (σ := σ) (fun m => (m.map msgLookups).getD 0) (newMessage f o a b) := by
  unfold newMessage
  split
  · exact Busy.pure _ rfl
  · split
    · refine Busy.bind (busy_valuesLoop _ _ _ _) fun c => ?_
      split
      · exact Busy.bind (busy_expected _) fun _ => Busy.pure _ (by simp)
      · refine Busy.pure _ ?_
        have : nplurals f = (f.map PluralForms.getCount).getD 2 := by cases f <;> rfl
        simp [msgLookups, this]
    · refine Busy.bind (busy_parseMsg _ _) fun c => ?_
      split
      · exact Busy.pure _ rfl
      · exact Busy.bind (busy_expected _) fun _ => Busy.pure _ (by simp)

theorem busy_parseMessageFields (f : Option PluralForms) (u : PoUnit) (first : Bool) :
    Busy (σ := σ) (fun v => (v.map fun u => msgLookups u.message).getD 0) (parseMessageFields f u first) := by
  have any : ∀ tag o, Busy (σ := σ) (fun _ => 0) (parseMsg tag o) := fun tag o => (busy_parseMsg tag o).mono (by simp)
  refine Busy.bind (any _ _) fun a => ?_
  refine Busy.bind (any _ _) fun b => ?_
  refine Busy.bind (m := fun _ => 0) (by split; exact any _ _; exact Busy.pure _ rfl) fun c => ?_
  refine Busy.bind (any _ _) fun d => ?_
  refine Busy.bind (any _ _) fun e => ?_
  split
  · exact Busy.bind (busy_expected _) fun _ => Busy.pure _ (by simp)
  · refine Busy.bind (any _ _) fun g => ?_
    refine Busy.bind (busy_newMessage _ _ _ _) fun m => ?_
    split
    · exact Busy.pure _ rfl
    · exact Busy.pure _ (by simp)

theorem busy_parseComments (u : PoUnit) : Busy (σ := σ) (fun _ => 0) (parseComments u) := by
  refine Busy.bind (m := fun _ => 0) (fun s => busy_commentLoop _ _ s) fun a => ?_
  refine Busy.bind busy_peekE fun a => ?_
  split
  · refine Busy.bind busy_nextE fun b => ?_
    split
    · exact Busy.err _
    · exact Busy.panic
  · exact Busy.pure _ rfl

/-- The same for methods of the reader. -/
def BusyR {α L : Type} (m : α → Nat) (x : Eff (Reader (Counted σ) L) α) : Prop :=
  ∀ r, r.lines.calls ≤ (x r).2.lines.calls ∧ ∀ v, (x r).1 = .ok v → r.lines.calls + m v ≤ (x r).2.lines.calls

theorem BusyR.bind {α β L : Type} {m : α → Nat} {k : β → Nat} {x : Eff (Reader (Counted σ) L) α} {f : α → Eff (Reader (Counted σ) L) β} (hx : BusyR m x)
    (hf : ∀ a, BusyR (fun b => k b - m a) (f a)) : BusyR k (x >>= f) := by
  intro s
  obtain ⟨h1, h2⟩ := hx s
  show s.lines.calls ≤ (Eff.bind x f s).2.lines.calls ∧ ∀ v, (Eff.bind x f s).1 = .ok v → s.lines.calls + k v ≤ (Eff.bind x f s).2.lines.calls
  unfold Eff.bind
  rcases hxs : x s with ⟨o, s'⟩
  rw [hxs] at h1 h2
  cases o with
  | ok a =>
    obtain ⟨h3, h4⟩ := hf a s'
    have h2 := h2 a rfl
    simp only at h1 h2 ⊢
    refine ⟨by omega, fun v hv => ?_⟩
    have := h4 v hv
    simp only at this
    omega
  | err e => exact ⟨h1, fun _ hv => by cases hv⟩
  | panic => exact ⟨h1, fun _ hv => by cases hv⟩

theorem BusyR.pure {α L : Type} {m : α → Nat} (a : α) (h : m a = 0) : BusyR (σ := σ) (L := L) m (Eff.pure a) :=
  fun s => ⟨Nat.le_refl _, fun v hv => by cases hv; show s.lines.calls + m a ≤ s.lines.calls; omega⟩
theorem BusyR.err {α L : Type} {m : α → Nat} (e : Err) : BusyR (σ := σ) (L := L) m (Eff.err e) := fun _ => ⟨Nat.le_refl _, fun _ hv => by cases hv⟩
theorem BusyR.panic {α L : Type} {m : α → Nat} : BusyR (σ := σ) (L := L) m Eff.panic := fun _ => ⟨Nat.le_refl _, fun _ hv => by cases hv⟩

theorem BusyR.onLines {α L : Type} {m : α → Nat} {x : Eff (Counted σ) α} (h : Busy m x) : BusyR (L := L) m (onLines x) := fun r => h r.lines

theorem busyR_readLine {L : Type} : BusyR (σ := σ) (L := L) (fun _ => 0) readLine := by
  refine BusyR.bind (BusyR.onLines busy_peekE) fun a => ?_
  split
  · exact BusyR.pure _ rfl
  · intro r
    simp only
    have key : BusyR (σ := σ) (L := L) (fun _ => 0) (do match ← Verif.onLines nextE with
          | some (.error err) => Eff.err err
          | _ => Eff.panic : Eff (Reader (Counted σ) L) (Option (Nat × Bool))) := by
      refine BusyR.bind (BusyR.onLines busy_nextE) fun a => ?_
      split
      · exact BusyR.err _
      · exact BusyR.panic
    split
    · exact ⟨Nat.le_refl _, fun _ hv => by cases hv⟩
    · have := key { r with nextUnit := none }
      exact ⟨this.1, fun v hv => by have := this.2 v hv; simp only at this ⊢; omega⟩
  · split <;> exact BusyR.pure _ rfl
  · exact BusyR.pure _ rfl

theorem busyR_readUnit {L : Type} (first : Bool) :
    BusyR (σ := σ) (L := L) (fun v => (v.map fun u => msgLookups u.message).getD 0) (readUnit first) := by
  refine BusyR.bind (BusyR.onLines (busy_parseComments _)) fun a => ?_
  refine BusyR.bind busyR_readLine fun a => ?_
  split
  · exact BusyR.pure _ rfl
  · refine BusyR.bind (m := fun v => (v.map fun u => msgLookups u.message).getD 0) (fun r => busy_parseMessageFields _ _ _ _) fun a => ?_
    split
    · exact BusyR.pure _ rfl
    · rename_i u
      split
      · exact BusyR.err _
      · rename_i v hv
        refine BusyR.pure _ ?_
        have : v.message = u.message := by
          unfold finishUnit at hv
          split at hv
          · cases hv
          · split at hv <;> cases hv <;> rfl
        simp [this]

theorem lookups_ok (u : PoUnit) : lookups (some (.ok u)) = msgLookups u.message := by
  unfold lookups msgLookups
  rfl

theorem busyR_nextUnitM {L : Type} (first : Bool) : BusyR (σ := σ) (L := L) lookups (nextUnitM first) := by
  intro r
  have := busyR_readUnit first r
  unfold nextUnitM
  rcases hx : readUnit first r with ⟨o, s⟩
  rw [hx] at this
  rcases o with (_ | u) | e | _
  · exact ⟨this.1, fun v hv => by cases hv; exact this.1⟩
  · exact ⟨this.1, fun v hv => by cases hv; rw [lookups_ok]; exact this.2 _ rfl⟩
  · exact ⟨this.1, fun v hv => by cases hv; exact this.1⟩
  · exact ⟨this.1, fun v hv => by cases hv⟩

theorem busy_next [LawfulSrc σ] {L : Type} {r r' : Reader (Counted σ) L} {x : Option (Except Err PoUnit)} (h : r.next = (.ok x, r')) :
    r.lines.calls + lookups x + lookups r'.nextUnit ≤ r'.lines.calls + lookups r.nextUnit := by
  rcases hn : r.nextUnit with _ | e | u
  · unfold Reader.next at h
    rw [hn] at h
    cases h; rw [hn]; exact Nat.le_refl _
  · unfold Reader.next at h
    rw [hn] at h
    cases h; exact Nat.le_refl _
  · rw [next_ok hn] at h
    obtain ⟨_, h2⟩ := busyR_nextUnitM false r
    rcases hx : nextUnitM false r with ⟨y | e | _, s⟩ <;> rw [hx] at h h2
    · cases h
      have := h2 y rfl
      simp only at this ⊢
      omega
    · cases h
    · cases h

theorem busy_calls [LawfulSrc σ] {L : Type} {r r' : Reader (Counted σ) L} {xs : List (Option (Except Err PoUnit))} (h : Calls r xs r') :
    r.lines.calls + (xs.map lookups).sum + lookups r'.nextUnit ≤ r'.lines.calls + lookups r.nextUnit := by
  induction h with
  | nil => simp
  | cons h1 h2 ih =>
    have := busy_next h1
    simp only [List.map_cons, List.sum_cons]
    omega

theorem busy_new (env : Env) {s : Counted σ} {r : Reader (Counted σ) env.Lang} (h : Reader.new env s = .ok r) : lookups r.nextUnit ≤ r.lines.calls := by
  unfold Reader.new at h
  simp only at h
  obtain ⟨_, h2⟩ := busyR_nextUnitM true (⟨s, none, [], [], [], env.langInvariant, none⟩ : Reader (Counted σ) env.Lang)
  rcases hx : nextUnitM true (⟨s, none, [], [], [], env.langInvariant, none⟩ : Reader (Counted σ) env.Lang) with ⟨o, q⟩
  rw [hx] at h h2
  rcases o with (_ | e | u) | e | _
  · cases h; exact Nat.zero_le _
  · cases h
  · have h2 := h2 _ rfl
    simp only at h h2
    split at h
    · rcases hy : parsePoHeader env { q with nextUnit := some (.ok u) } with ⟨o | e | _, q'⟩ <;> rw [hy] at h
      · simp only at h
        obtain ⟨_, h3⟩ := busyR_nextUnitM false q'
        rcases hz : nextUnitM false q' with ⟨y | e | _, t⟩ <;> rw [hz] at h h3
        · cases h
          have := h3 _ rfl
          simp only at this ⊢
          omega
        · cases h
        · cases h
      · cases h
      · cases h
    · cases h
      simp only
      omega
  · cases h
  · cases h

end

end Verif
