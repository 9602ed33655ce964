import Verif.Spec.CommentRuns
import Verif.Lemmas.Obsolete

/-! Inputs that differ in runs of comment lines. -/

namespace Verif
open Spec

/-- Items that differ in runs of comment lines and line numbers. -/
inductive RunItems (R : List (Char × Str) → List (Char × Str) → Prop) : List Item → List Item → Prop
  | nil : RunItems R [] []
  | error {e e' tl tl'} : SameErr e e' → RunItems R (.error e :: tl) (.error e' :: tl')
  | message {n n' p t s l l'} : RunItems R l l' → RunItems R (.ok (.message n p t s) :: l) (.ok (.message n' p t s) :: l')
  | continuation {n n' p s l l'} : RunItems R l l' → RunItems R (.ok (.continuation n p s) :: l) (.ok (.continuation n' p s) :: l')
  | run {c c' : Nat × Char × Str} {cs cs' l l'} : R ((c :: cs).map Prod.snd) ((c' :: cs').map Prod.snd) → RunItems R l l' →
      RunItems R (.ok (commentLine c) :: ((cs.map commentLine).map .ok ++ l)) (.ok (commentLine c') :: ((cs'.map commentLine).map .ok ++ l'))

/-- A relation of runs that is kept when runs are put together. -/
structure RunRel (R : List (Char × Str) → List (Char × Str) → Prop) : Prop where
  nil : R [] []
  append : ∀ {a a' b b'}, R a a' → R b b' → R (a ++ b) (a' ++ b')

theorem takeComments_run (cs : List (Nat × Char × Str)) (l : List Item) :
    takeComments ((cs.map commentLine).map .ok ++ l) = (cs.map Prod.snd ++ (takeComments l).1, (takeComments l).2) := by
  induction cs with
  | nil => rfl
  | cons c cs ih =>
    show takeComments (.ok (.comment c.1 c.2.1 c.2.2) :: ((cs.map commentLine).map .ok ++ l)) = _
    simp only [takeComments]
    rw [ih]
    rfl

section
variable {R : List (Char × Str) → List (Char × Str) → Prop} (hR : RunRel R)
include hR

theorem runItems_comments {l l' : List Item} (h : RunItems R l l') : R (takeComments l).1 (takeComments l').1 ∧
    RunItems R (takeComments l).2 (takeComments l').2 := by
  induction h with
  | nil => exact ⟨hR.nil, .nil⟩
  | error h => exact ⟨hR.nil, .error h⟩
  | message h _ => exact ⟨hR.nil, .message h⟩
  | continuation h _ => exact ⟨hR.nil, .continuation h⟩
  | @run c c' cs cs' l l' hr h ih =>
    have h1 := takeComments_run (c :: cs) l
    have h2 := takeComments_run (c' :: cs') l'
    simp only [List.map_cons, List.cons_append] at h1 h2 hr
    rw [h1, h2]
    exact ⟨hR.append hr ih.1, ih.2⟩

omit hR

theorem runItems_cont {p : Str} {l l' : List Item} (h : RunItems R l l') :
    (takeCont p l).1 = (takeCont p l').1 ∧ RunItems R (takeCont p l).2 (takeCont p l').2 := by
  induction h with
  | nil => exact ⟨rfl, .nil⟩
  | error h => exact ⟨rfl, .error h⟩
  | message h _ => exact ⟨rfl, .message h⟩
  | run hr h _ => exact ⟨rfl, .run hr h⟩
  | @continuation n n' q s l l' h ih =>
    simp only [takeCont]
    by_cases hq : q = p
    · rw [if_pos hq, if_pos hq]
      exact ⟨by rw [ih.1], ih.2⟩
    · rw [if_neg hq, if_neg hq]
      exact ⟨rfl, .continuation h⟩

theorem runItems_after {α : Type} (v : α) {r r' : List Item} (h : RunItems R r r') :
    Corr (RunItems R) SameButComment Eq (afterField v r) (afterField v r') := by
  cases h with
  | error he => exact ⟨.err (.same he), by simp [afterField]⟩
  | nil => exact ⟨.ok rfl, fun _ _ => .nil⟩
  | message h => exact ⟨.ok rfl, fun _ _ => .message h⟩
  | continuation h => exact ⟨.ok rfl, fun _ _ => .continuation h⟩
  | run hr h => exact ⟨.ok rfl, fun _ _ => .run hr h⟩

theorem runItems_msg (tag : Str) (o : Bool) : CorrE (RunItems R) SameButComment Eq (parseMsg tag o) (parseMsg tag o) := by
  intro l l' h
  rw [parseMsg_list, parseMsg_list]
  cases h with
  | nil => exact ⟨.ok rfl, fun _ _ => .nil⟩
  | error he => exact ⟨.err (.same he), by simp⟩
  | continuation h => exact ⟨.ok rfl, fun _ _ => .continuation h⟩
  | run hr h => exact ⟨.ok rfl, fun _ _ => .run hr h⟩
  | @message n n' p t s l l' h =>
    simp only
    split
    · obtain ⟨h1, h2⟩ := runItems_cont (p := p) h
      rw [h1]
      exact runItems_after _ h2
    · exact ⟨.ok rfl, fun _ _ => .message h⟩

theorem runItems_expected (exp : Str) : CorrE (RunItems R) SameButComment Eq (expected exp) (expected exp) := by
  intro l l' h
  rw [expected_list, expected_list]
  cases h with
  | nil => exact ⟨.ok rfl, fun _ _ => .nil⟩
  | error he => exact ⟨.err (.same he), by simp⟩
  | continuation h => exact ⟨.err (.same rfl), by simp⟩
  | run hr h => exact ⟨.err .comment, by simp [commentLine]⟩
  | message h => exact ⟨.err (.same rfl), by simp⟩

/-- Reading side by side what differs in runs of comment lines. -/
def runChange (hR : RunRel R) (K : PoUnit → PoUnit → Prop) (hK : ∀ cs cs', R cs cs' → K (collect cs) (collect cs'))
    (set : ∀ {u u' a b c m o o'}, K u u' → K { u with obsolete := o, prevContext := a, prevMessage := b, context := c, message := m }
      { u' with obsolete := o', prevContext := a, prevMessage := b, context := c, message := m })
    (fin : ∀ {u u' : PoUnit}, K u u' → u.message = u'.message →
      K (if u.state = .empty ∧ u.message.isBlank = false then { u with state := .final } else u)
        (if u'.state = .empty ∧ u'.message.isBlank = false then { u' with state := .final } else u')) : Change where
  S₀ := RunItems R
  S := RunItems R
  E := SameButComment
  K := K
  ob := Eq
  weak := id
  comments := fun h => ⟨(runItems_comments hR h).2, hK _ _ (runItems_comments hR h).1⟩
  head := by
    intro l l' h
    cases h with
    | nil => exact .inl ⟨rfl, rfl⟩
    | error h => exact .inr (.inl ⟨_, _, _, _, rfl, rfl, .same h⟩)
    | message h => exact .inr (.inr ⟨_, _, _, _, rfl, rfl, fun _ => .same rfl, .inl ⟨_, _, _, _, _, _, _, _, rfl, rfl, rfl⟩⟩)
    | continuation h => exact .inr (.inr ⟨_, _, _, _, rfl, rfl, fun _ => .same rfl, .inr ⟨by simp, by simp⟩⟩)
    | run hr h => exact .inr (.inr ⟨_, _, _, _, rfl, rfl, fun _ => .same rfl, .inr ⟨by simp [commentLine], by simp [commentLine]⟩⟩)
  msg := by
    rintro o _ rfl tag
    exact runItems_msg tag o
  exp := runItems_expected
  set := set
  fin := fin

end

theorem commentLines_items {ss : List (Str × Char × Str)} (h : CommentLines ss) {rs : List (Except IoErr Str)} {n : Nat} {l : List Item}
    (hn : ∀ s, .ok s ∈ ss.map (fun x => Except.ok x.1) ++ rs → '\n' ∉ s) (hl : LineItems n (ss.map (fun x => .ok x.1) ++ rs) l) :
    ∃ cs : List (Nat × Char × Str), cs.map Prod.snd = ss.map Prod.snd ∧ ∃ m tl, l = (cs.map commentLine).map .ok ++ tl ∧ LineItems m rs tl := by
  induction ss generalizing n l with
  | nil => exact ⟨[], rfl, n, l, rfl, hl⟩
  | cons x ss ih =>
    have hx : Classified x.1 n (some (.comment n x.2.1 x.2.2)) := classified_renumber (h x (by simp)) n
    have hnx : '\n' ∉ x.1 := hn _ (by simp)
    cases hl with
    | unrecognised h' => have := classified_unique hnx h' hx; cases this
    | blank h' => have := classified_unique hnx h' hx; cases this
    | line h' _ hr =>
      have := classified_unique hnx h' hx
      cases this
      obtain ⟨cs, h1, m, tl, rfl, h2⟩ := ih (fun y hy => h y (by simp [hy])) (fun s hs => hn s (List.mem_cons_of_mem _ hs)) hr
      exact ⟨(n, x.2) :: cs, by simp [h1], m, tl, rfl, h2⟩

theorem rewritten_items {R : List (Char × Str) → List (Char × Str) → Prop} {rs rs' : List (Except IoErr Str)} (h : Rewritten R rs rs')
    (hn : ∀ s, .ok s ∈ rs → '\n' ∉ s) (hn' : ∀ s, .ok s ∈ rs' → '\n' ∉ s) {n n' : Nat} {l l' : List Item} (hl : LineItems n rs l)
    (hl' : LineItems n' rs' l') : RunItems R l l' := by
  induction h generalizing n n' l l' with
  | nil => cases hl; cases hl'; exact .nil
  | failed => cases hl; cases hl'; exact .error rfl
  | blankLeft hw _ ih => exact ih (fun s hs => hn s (by simp [hs])) hn' (blank_items hw (hn _ (List.mem_cons_self ..)) hl) hl'
  | blankRight hw _ ih => exact ih hn (fun s hs => hn' s (by simp [hs])) hl (blank_items hw (hn' _ (List.mem_cons_self ..)) hl')
  | run h1 h2 hc hc' hr _ ih =>
    obtain ⟨cs, e1, m, tl, rfl, h3⟩ := commentLines_items hc hn hl
    obtain ⟨cs', e2, m', tl', rfl, h4⟩ := commentLines_items hc' hn' hl'
    rw [← e1, ← e2] at hr
    have ih := ih (fun s hs => hn s (List.mem_append.mpr (.inr hs))) (fun s hs => hn' s (List.mem_append.mpr (.inr hs))) h3 h4
    cases cs with
    | nil => exact absurd (List.map_eq_nil_iff.mp e1.symm) h1
    | cons c cs =>
      cases cs' with
      | nil => exact absurd (List.map_eq_nil_iff.mp e2.symm) h2
      | cons c' cs' => exact .run hr ih
  | @line s rs rs' hs _ ih =>
    have hs1 := hn s (by simp)
    have ih := fun {n n' l l'} => @ih (fun s hs => hn s (by simp [hs])) (fun s hs => hn' s (by simp [hs])) n n' l l'
    cases hl with
    | unrecognised h =>
      have h2 : Classified s n' none := classified_renumber h n'
      cases hl' with
      | unrecognised h' => exact .error rfl
      | blank h' => have := classified_unique hs1 h' h2; cases this
      | line h' => have := classified_unique hs1 h' h2; cases this
    | blank h hr =>
      have h2 : Classified s n' (some .blank) := classified_renumber h n'
      cases hl' with
      | unrecognised h' => have := classified_unique hs1 h' h2; cases this
      | blank h' hr' => exact ih hr hr'
      | line h' hne => have := classified_unique hs1 h' h2; cases this; exact absurd rfl hne
    | @line _ _ _ ln l h hne hr =>
      have h2 := classified_renumber h n'
      cases hl' with
      | unrecognised h' => have := classified_unique hs1 h' h2; cases this
      | blank h' => have := classified_unique hs1 h' h2; cases ln <;> first | exact absurd rfl hne | cases this
      | line h' _ hr' =>
        have := classified_unique hs1 h' h2
        cases ln with
        | blank => exact absurd rfl hne
        | comment k c t => exact absurd ⟨c, t, classified_renumber h 0⟩ hs
        | continuation k p t => cases this; exact .continuation (ih hr hr')
        | message k p kw t => cases this; exact .message (ih hr hr')

/-! ### Agreement in some data -/

theorem distinct_aux (l acc : List Str) : l.foldl (fun acc f => if f ∈ acc then acc else acc ++ [f]) acc =
    acc ++ (distinct l).filter (fun f => f ∉ acc) := by
  induction l generalizing acc with
  | nil => simp [distinct]
  | cons x l ih =>
    rw [List.foldl_cons, ih]
    have hd : distinct (x :: l) = [x] ++ (distinct l).filter (fun f => f ∉ [x]) := by
      unfold distinct
      rw [List.foldl_cons]
      simp only [List.not_mem_nil, if_false, List.nil_append]
      exact ih [x]
    rw [hd]
    by_cases hx : x ∈ acc
    · rw [if_pos hx]
      congr 1
      simp only [List.filter_append, List.filter_filter, List.mem_singleton]
      rw [show List.filter (fun f => decide (f ∉ acc)) [x] = [] by simp [hx]]
      rw [List.nil_append]
      apply List.filter_congr
      intro f _
      by_cases hf : f ∈ acc
      · simp [hf]
      · have : f ≠ x := fun h => hf (h ▸ hx)
        simp [hf, this]
    · rw [if_neg hx]
      simp only [List.filter_append, List.filter_filter, List.mem_singleton, List.mem_append]
      rw [show List.filter (fun f => decide (f ∉ acc)) [x] = [x] by simp [hx]]
      rw [List.append_assoc]
      congr 2
      apply List.filter_congr
      intro f _
      by_cases hf : f ∈ acc <;> simp [hf]

theorem distinct_append (a b : List Str) : distinct (a ++ b) = distinct a ++ (distinct b).filter (fun f => f ∉ distinct a) := by
  rw [distinct, List.foldl_append]
  exact distinct_aux b (distinct a)

theorem agree_rel (f l n c : Bool) : RunRel (Agree f l n c) where
  nil := ⟨fun _ => rfl, fun _ => rfl, fun _ => rfl, fun _ => rfl⟩
  append := by
    intro a a' b b' h h'
    refine ⟨fun hf => ?_, fun hf => ?_, fun hf => ?_, fun hf => ?_⟩
    · rw [List.flatMap_append, List.flatMap_append, distinct_append, distinct_append, h.flags hf, h'.flags hf]
    · rw [List.flatMap_append, List.flatMap_append, h.locations hf, h'.locations hf]
    · rw [List.filterMap_append, List.filterMap_append, h.notes hf, h'.notes hf]
    · rw [List.filterMap_append, List.filterMap_append, h.comments hf, h'.comments hf]

/-- Agreement of units in the data from comments. -/
structure AgreeData (flags locations notes comments : Bool) (u u' : PoUnit) : Prop where
  flags : flags = true → u.flags = u'.flags ∧ u.state = u'.state
  locations : locations = true → u.locations = u'.locations
  notes : notes = true → u.notes = u'.notes
  comments : comments = true → u.comments = u'.comments

theorem agree_collect {f l n c : Bool} (cs cs' : List (Char × Str)) (h : Agree f l n c cs cs') : AgreeData f l n c (collect cs) (collect cs') := by
  have d := collect_data cs
  have d' := collect_data cs'
  refine ⟨fun hf => ?_, fun hf => ?_, fun hf => ?_, fun hf => ?_⟩
  · have : (collect cs).flags = (collect cs').flags := by rw [d.flags, d'.flags, h.flags hf]
    exact ⟨this, by rw [collect_state, collect_state, this]⟩
  · rw [d.locations, d'.locations, h.locations hf]
  · rw [d.notes, d'.notes, h.notes hf]
  · rw [d.comments, d'.comments, h.comments hf]

/-- Reading side by side runs of comment lines that agree in some data. -/
def agreeChange (f l n c : Bool) : Change := runChange (agree_rel f l n c) (AgreeData f l n c) agree_collect
  (fun h => ⟨h.flags, h.locations, h.notes, h.comments⟩) (by
    intro u u' h hm
    refine ⟨fun hf => ?_, fun hf => ?_, fun hf => ?_, fun hf => ?_⟩
    · obtain ⟨h1, h2⟩ := h.flags hf
      rw [h2, hm]
      split
      · exact ⟨h1, rfl⟩
      · exact ⟨h1, h2⟩
    · split <;> split <;> exact h.locations hf
    · split <;> split <;> exact h.notes hf
    · split <;> split <;> exact h.comments hf)

theorem shuffled_filter {cs cs' : List (Char × Str)} (h : Shuffled cs cs') : Agree true true true true cs cs' := by
  have key : ∀ {β : Type} (k : Fin 4) (g : Char × Str → List β), (∀ c, commentClass c.1 ≠ k → g c = []) → cs.flatMap g = cs'.flatMap g := by
    intro β k g hg
    have : ∀ l : List (Char × Str), l.flatMap g = (l.filter (fun c => commentClass c.1 = k)).flatMap g := by
      intro l
      induction l with
      | nil => rfl
      | cons c l ih =>
        by_cases hc : commentClass c.1 = k
        · rw [List.filter_cons_of_pos (by simpa using hc), List.flatMap_cons, List.flatMap_cons, ih]
        · rw [List.filter_cons_of_neg (by simpa using hc), List.flatMap_cons, hg c hc, List.nil_append, ih]
    rw [this cs, this cs', h k]
  have key2 : ∀ {β : Type} (k : Fin 4) (g : Char × Str → Option β), (∀ c, commentClass c.1 ≠ k → g c = none) → cs.filterMap g = cs'.filterMap g := by
    intro β k g hg
    have : ∀ l : List (Char × Str), l.filterMap g = (l.filter (fun c => commentClass c.1 = k)).filterMap g := by
      intro l
      induction l with
      | nil => rfl
      | cons c l ih =>
        by_cases hc : commentClass c.1 = k
        · rw [List.filter_cons_of_pos (by simpa using hc), List.filterMap_cons, List.filterMap_cons, ih]
        · rw [List.filter_cons_of_neg (by simpa using hc), List.filterMap_cons, hg c hc, ih]
    rw [this cs, this cs', h k]
  refine ⟨fun _ => ?_, fun _ => ?_, fun _ => ?_, fun _ => ?_⟩
  · rw [key 0 flagItems]
    intro c hc
    unfold flagItems
    rw [if_neg]
    intro h
    exact hc (by simp [commentClass, h])
  · refine key 1 locationItems ?_
    intro c hc
    unfold locationItems
    rw [if_neg]
    intro h
    exact hc (by simp [commentClass, h])
  · refine key2 2 noteItem ?_
    intro c hc
    unfold noteItem
    rw [if_neg, if_neg]
    · intro h
      exact hc (by simp [commentClass, h])
    · intro h
      exact hc (by simp [commentClass, h])
  · refine key2 3 otherItem ?_
    intro c hc
    unfold otherItem
    rw [if_pos]
    unfold commentClass at hc
    by_cases h1 : c.1 = ','
    · exact .inl h1
    · by_cases h2 : c.1 = ':'
      · exact .inr (.inl h2)
      · by_cases h3 : c.1 = '.' ∨ c.1 = ' '
        · exact .inr (.inr h3)
        · rw [if_neg h1, if_neg h2, if_neg h3] at hc
          exact absurd rfl hc

end Verif
