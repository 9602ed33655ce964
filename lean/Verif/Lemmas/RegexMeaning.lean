import Verif.Spec.Regex
import Verif.Model.Parser

/-! The regex engine of the model finds the most preferred way of matching at the first position where there is one. -/

namespace Verif
open Spec

theorem treeEnd_suffix {r : Re} {s t : St} {x : Tree} (h : Matches r s x t) : t.rest <:+ s.rest := by
  induction h with
  | cls => exact ⟨[_], rfl⟩
  | seq _ _ ih1 ih2 | more _ _ ih1 ih2 => exact ih2.trans ih1
  | left _ ih | right _ ih | cap _ _ ih => exact ih
  | _ => exact ⟨[], rfl⟩

/-- The iterations of a star, with trees. -/
def starTrees (g : Bool) (f : St → List (Tree × St)) : Nat → St → List (Tree × St)
  | 0, s => [(.stop, s)]
  | n + 1, s =>
    let more := ((f s).filter fun p => p.2.rest.length < s.rest.length).flatMap fun p => (starTrees g f n p.2).map fun q => (.more p.1 q.1, q.2)
    if g then more ++ [(.stop, s)] else (.stop, s) :: more

/-- The ways of matching, with trees. -/
def treesOf : Re → St → List (Tree × St)
  | .cls p, s =>
    match s.rest with
    | [] => []
    | c :: cs => if p.test c then [(.leaf, { s with atStart := false, rest := cs })] else []
  | .eps, s => [(.leaf, s)]
  | .seq a b, s => (treesOf a s).flatMap fun p => (treesOf b p.2).map fun q => (.pair p.1 q.1, q.2)
  | .alt a b, s => (treesOf a s).map (fun p => (.left p.1, p.2)) ++ (treesOf b s).map fun p => (.right p.1, p.2)
  | .star g r, s => starTrees g (treesOf r) s.rest.length s
  | .cap i r, s => (treesOf r s).map fun p => (.group p.1, { p.2 with caps := (i, s.rest.take (s.rest.length - p.2.rest.length)) :: p.2.caps })
  | .bol, s => if s.atStart then [(.leaf, s)] else []
  | .eol, s => if s.rest.isEmpty then [(.leaf, s)] else []

theorem starTrees_run {g : Bool} {f : St → List (Tree × St)} {f' : St → List St} (h : ∀ s, (f s).map Prod.snd = f' s) (n : Nat) (s : St) :
    (starTrees g f n s).map Prod.snd = starRun g f' n s := by
  induction n generalizing s with
  | zero => rfl
  | succ n ih =>
    have : (((f s).filter fun p => p.2.rest.length < s.rest.length).flatMap fun p => (starTrees g f n p.2).map fun q => ((.more p.1 q.1, q.2) : Tree × St)).map Prod.snd =
        ((f' s).filter fun t => t.rest.length < s.rest.length).flatMap (starRun g f' n) := by
      rw [← h s, List.map_flatMap, List.filter_map, List.flatMap_map]
      congr 1
      funext p
      rw [List.map_map]
      exact ih p.2
    simp only [starTrees, starRun]
    cases g
    · simp only [Bool.false_eq_true, if_false, List.map_cons]
      rw [this]
    · simp only [if_true, List.map_append]
      rw [this]
      rfl

theorem trees_run (r : Re) (s : St) : (treesOf r s).map Prod.snd = r.run s := by
  induction r generalizing s with
  | cls p =>
    obtain ⟨b, rest, caps⟩ := s
    cases rest with
    | nil => rfl
    | cons c cs => simp only [treesOf, Re.run]; split <;> rfl
  | eps => rfl
  | seq a b iha ihb =>
    simp only [treesOf, Re.run]
    rw [List.map_flatMap, ← iha, List.flatMap_map]
    congr 1
    funext p
    rw [List.map_map]
    exact ihb p.2
  | alt a b iha ihb =>
    simp only [treesOf, Re.run, List.map_append, List.map_map]
    rw [← iha, ← ihb]
    rfl
  | star g r ih => exact starTrees_run ih _ s
  | cap i r ih =>
    simp only [treesOf, Re.run]
    rw [← ih, List.map_map, List.map_map]
    rfl
  | bol => simp only [treesOf, Re.run]; split <;> rfl
  | eol => simp only [treesOf, Re.run]; split <;> rfl

theorem mem_starTrees {g : Bool} {r : Re} (ih : ∀ s x t, (x, t) ∈ treesOf r s ↔ Matches r s x t)
    (hp : ∀ s x t, Matches r s x t → t.rest.length < s.rest.length) (n : Nat) :
    ∀ s x t, s.rest.length ≤ n → ((x, t) ∈ starTrees g (treesOf r) n s ↔ Matches (.star g r) s x t) := by
  induction n with
  | zero =>
    intro s x t hn
    simp only [starTrees, List.mem_singleton, Prod.mk.injEq]
    constructor
    · rintro ⟨rfl, rfl⟩; exact .stop
    · intro h
      cases h with
      | stop => exact ⟨rfl, rfl⟩
      | more h1 h2 => have := hp _ _ _ h1; omega
  | succ n ihn =>
    intro s x t hn
    have hm : (x, t) ∈ (((treesOf r s).filter fun p => p.2.rest.length < s.rest.length).flatMap fun p =>
        (starTrees g (treesOf r) n p.2).map fun q => ((.more p.1 q.1, q.2) : Tree × St)) ↔
          ∃ a b u, x = .more a b ∧ Matches r s a u ∧ Matches (.star g r) u b t := by
      simp only [List.mem_flatMap, List.mem_filter, List.mem_map, Prod.exists, Prod.mk.injEq, decide_eq_true_eq]
      constructor
      · rintro ⟨a, u, ⟨h1, h2⟩, b, t', h3, rfl, rfl⟩
        exact ⟨a, b, u, rfl, (ih _ _ _).mp h1, (ihn _ _ _ (by omega)).mp h3⟩
      · rintro ⟨a, b, u, rfl, h1, h2⟩
        have := hp _ _ _ h1
        exact ⟨a, u, ⟨(ih _ _ _).mpr h1, this⟩, b, t, (ihn _ _ _ (by omega)).mpr h2, rfl, rfl⟩
    have hs : (x, t) ∈ starTrees g (treesOf r) (n + 1) s ↔
        (∃ a b u, x = .more a b ∧ Matches r s a u ∧ Matches (.star g r) u b t) ∨ (x, t) = (.stop, s) := by
      rw [← hm]
      simp only [starTrees]
      cases g
      · simp only [Bool.false_eq_true, if_false, List.mem_cons]; exact or_comm
      · simp only [if_true, List.mem_append, List.mem_singleton]
    rw [hs]
    constructor
    · rintro (⟨a, b, u, rfl, h1, h2⟩ | h)
      · exact .more h1 h2
      · cases h; exact .stop
    · intro h
      cases h with
      | stop => exact .inr rfl
      | more h1 h2 => exact .inl ⟨_, _, _, rfl, h1, h2⟩

theorem mem_trees {r : Re} (hp : Proper r) : ∀ s x t, (x, t) ∈ treesOf r s ↔ Matches r s x t := by
  induction r with
  | cls p =>
    rintro ⟨b, rest, caps⟩ x t
    cases rest with
    | nil => exact ⟨by simp [treesOf], fun h => by cases h⟩
    | cons c cs =>
      simp only [treesOf]
      split
      · rename_i h
        simp only [List.mem_singleton, Prod.mk.injEq]
        constructor
        · rintro ⟨rfl, rfl⟩; exact .cls h
        · intro h'; cases h'; exact ⟨rfl, rfl⟩
      · rename_i h
        exact ⟨by simp, fun h' => by cases h' with | cls h' => exact absurd h' h⟩
  | eps =>
    intro s x t
    simp only [treesOf, List.mem_singleton, Prod.mk.injEq]
    constructor
    · rintro ⟨rfl, rfl⟩; exact .eps
    · intro h; cases h; exact ⟨rfl, rfl⟩
  | seq a b iha ihb =>
    intro s x t
    simp only [treesOf, List.mem_flatMap, List.mem_map, Prod.exists, Prod.mk.injEq]
    constructor
    · rintro ⟨y, u, h1, z, t', h2, rfl, rfl⟩
      exact .seq ((iha hp.1 _ _ _).mp h1) ((ihb hp.2 _ _ _).mp h2)
    · intro h
      cases h with
      | seq h1 h2 => exact ⟨_, _, (iha hp.1 _ _ _).mpr h1, _, _, (ihb hp.2 _ _ _).mpr h2, rfl, rfl⟩
  | alt a b iha ihb =>
    intro s x t
    simp only [treesOf, List.mem_append, List.mem_map, Prod.exists, Prod.mk.injEq]
    constructor
    · rintro (⟨y, u, h1, rfl, rfl⟩ | ⟨y, u, h1, rfl, rfl⟩)
      · exact .left ((iha hp.1 _ _ _).mp h1)
      · exact .right ((ihb hp.2 _ _ _).mp h1)
    · intro h
      cases h with
      | left h => exact .inl ⟨_, _, (iha hp.1 _ _ _).mpr h, rfl, rfl⟩
      | right h => exact .inr ⟨_, _, (ihb hp.2 _ _ _).mpr h, rfl, rfl⟩
  | star g r ih => exact fun s x t => mem_starTrees (ih hp.1) hp.2 _ s x t (Nat.le_refl _)
  | cap i r ih =>
    intro s x t
    simp only [treesOf, List.mem_map, Prod.exists, Prod.mk.injEq]
    constructor
    · rintro ⟨y, u, h1, rfl, rfl⟩
      have h := (ih hp _ _ _).mp h1
      refine .cap h ?_
      obtain ⟨w, hw⟩ := treeEnd_suffix h
      rw [← hw]
      simp
    · intro h
      cases h with
      | @cap i r s x t w h hw =>
        refine ⟨_, _, (ih hp _ _ _).mpr h, rfl, ?_⟩
        rw [hw]
        simp
  | bol =>
    rintro ⟨b, rest, caps⟩ x t
    simp only [treesOf]
    split
    · rename_i h
      subst h
      simp only [List.mem_singleton, Prod.mk.injEq]
      constructor
      · rintro ⟨rfl, rfl⟩; exact .bol
      · intro h; cases h; exact ⟨rfl, rfl⟩
    · rename_i h
      exact ⟨by simp, fun h' => by cases h'; exact absurd rfl h⟩
  | eol =>
    rintro ⟨b, rest, caps⟩ x t
    simp only [treesOf]
    split
    · rename_i h
      simp only [List.isEmpty_iff] at h
      subst h
      simp only [List.mem_singleton, Prod.mk.injEq]
      constructor
      · rintro ⟨rfl, rfl⟩; exact .eol
      · intro h; cases h; exact ⟨rfl, rfl⟩
    · rename_i h
      exact ⟨by simp, fun h' => by cases h'; exact absurd rfl h⟩

/-- The order of preference of the ways of matching. -/
def Ordered (r : Re) (l : List (Tree × St)) : Prop := l.Pairwise fun p q => Prefers r p.1 q.1

theorem ordered_starTrees {g : Bool} {r : Re} {f : St → List (Tree × St)} (h : ∀ s, Ordered r (f s)) (n : Nat) (s : St) :
    Ordered (.star g r) (starTrees g f n s) := by
  induction n generalizing s with
  | zero => exact List.pairwise_singleton _ _
  | succ n ih =>
    have hm : Ordered (.star g r) (((f s).filter fun p => p.2.rest.length < s.rest.length).flatMap fun p =>
        (starTrees g f n p.2).map fun q => ((.more p.1 q.1, q.2) : Tree × St)) := by
      unfold Ordered
      rw [List.pairwise_flatMap]
      constructor
      · intro p _
        rw [List.pairwise_map]
        exact (ih p.2).imp fun h => .moreSnd h
      · refine ((h s).filter _).imp ?_
        intro p q hpq a ha b hb
        obtain ⟨a', _, rfl⟩ := List.mem_map.mp ha
        obtain ⟨b', _, rfl⟩ := List.mem_map.mp hb
        exact .moreFst hpq
    have hx : ∀ p ∈ (((f s).filter fun p => p.2.rest.length < s.rest.length).flatMap fun p =>
        (starTrees g f n p.2).map fun q => ((.more p.1 q.1, q.2) : Tree × St)), ∃ a b, p.1 = .more a b := by
      intro p hp
      obtain ⟨a, _, ha⟩ := List.mem_flatMap.mp hp
      obtain ⟨b, _, rfl⟩ := List.mem_map.mp ha
      exact ⟨_, _, rfl⟩
    simp only [starTrees]
    cases g
    · simp only [Bool.false_eq_true, if_false]
      refine List.pairwise_cons.mpr ⟨?_, hm⟩
      intro p hp
      obtain ⟨a, b, hp⟩ := hx p hp
      rw [hp]
      exact .lazy
    · simp only [if_true]
      refine List.pairwise_append.mpr ⟨hm, List.pairwise_singleton _ _, ?_⟩
      intro p hp q hq
      obtain ⟨a, b, hp⟩ := hx p hp
      rw [List.mem_singleton.mp hq, hp]
      exact .greedy

theorem ordered_trees (r : Re) (s : St) : Ordered r (treesOf r s) := by
  induction r generalizing s with
  | cls p =>
    simp only [treesOf]
    split
    · exact .nil
    · split
      · exact List.pairwise_singleton _ _
      · exact .nil
  | eps => exact List.pairwise_singleton _ _
  | seq a b iha ihb =>
    simp only [treesOf, Ordered]
    rw [List.pairwise_flatMap]
    constructor
    · intro p _
      rw [List.pairwise_map]
      exact (ihb p.2).imp fun h => .seqSnd h
    · refine (iha s).imp ?_
      intro p q hpq a ha b hb
      obtain ⟨a', _, rfl⟩ := List.mem_map.mp ha
      obtain ⟨b', _, rfl⟩ := List.mem_map.mp hb
      exact .seqFst hpq
  | alt a b iha ihb =>
    simp only [treesOf, Ordered]
    rw [List.pairwise_append, List.pairwise_map, List.pairwise_map]
    refine ⟨(iha s).imp fun h => .left h, (ihb s).imp fun h => .right h, ?_⟩
    intro p hp q hq
    obtain ⟨p', _, rfl⟩ := List.mem_map.mp hp
    obtain ⟨q', _, rfl⟩ := List.mem_map.mp hq
    exact .leftRight
  | star g r ih => exact ordered_starTrees ih _ s
  | cap i r ih =>
    simp only [treesOf, Ordered]
    rw [List.pairwise_map]
    exact (ih s).imp fun h => .cap h
  | bol => simp only [treesOf]; split <;> first | exact List.pairwise_singleton _ _ | exact .nil
  | eol => simp only [treesOf]; split <;> first | exact List.pairwise_singleton _ _ | exact .nil

theorem prefers_irrefl {r : Re} {x : Tree} (h : Prefers r x x) : False := by
  generalize hy : x = y at h
  have h' : Prefers r x y := by subst hy; exact h
  clear h
  revert hy
  induction h' with
  | seqFst _ ih => intro he; injection he with h1 _; exact ih h1
  | seqSnd _ ih => intro he; injection he with _ h1; exact ih h1
  | left _ ih | right _ ih | cap _ ih => intro he; injection he with h1; exact ih h1
  | moreFst _ ih => intro he; injection he with h1 _; exact ih h1
  | moreSnd _ ih => intro he; injection he with _ h1; exact ih h1
  | leftRight | greedy | lazy => intro he; cases he

/-- Of two ways of matching at most one is preferred to the other. -/
theorem prefers_asymm {r : Re} {x y : Tree} (h : Prefers r x y) (h' : Prefers r y x) : False := by
  induction h with
  | seqFst h ih =>
    cases h' with
    | seqFst h' => exact ih h'
    | seqSnd _ => exact prefers_irrefl h
  | seqSnd h ih =>
    cases h' with
    | seqFst h' => exact prefers_irrefl h'
    | seqSnd h' => exact ih h'
  | left _ ih => cases h' with | left h' => exact ih h'
  | right _ ih => cases h' with | right h' => exact ih h'
  | leftRight => cases h'
  | greedy => cases h'
  | lazy => cases h'
  | moreFst h ih =>
    cases h' with
    | moreFst h' => exact ih h'
    | moreSnd _ => exact prefers_irrefl h
  | moreSnd h ih =>
    cases h' with
    | moreFst h' => exact prefers_irrefl h'
    | moreSnd h' => exact ih h'
  | cap _ ih => cases h' with | cap h' => exact ih h'

/-- A tree determines where it leads. -/
theorem treeEnd_unique {r : Re} {s t t' : St} {x : Tree} (h : Matches r s x t) (h' : Matches r s x t') : t = t' := by
  induction h generalizing t' with
  | cls => cases h'; rfl
  | eps => cases h'; rfl
  | seq _ _ ih1 ih2 => cases h' with | seq h1 h2 => cases ih1 h1; exact ih2 h2
  | left _ ih => cases h' with | left h => exact ih h
  | right _ ih => cases h' with | right h => exact ih h
  | stop => cases h'; rfl
  | more _ _ ih1 ih2 => cases h' with | more h1 h2 => cases ih1 h1; exact ih2 h2
  | cap _ hw ih =>
    cases h' with
    | cap h hw' =>
      cases ih h
      rw [hw, List.append_left_inj] at hw'
      rw [hw']
  | bol => cases h'; rfl
  | eol => cases h'; rfl

theorem bestAt_unique {r : Re} {s t t' : St} (h : BestAt r s t) (h' : BestAt r s t') : t = t' := by
  obtain ⟨x, h1, h2⟩ := h
  obtain ⟨y, h3, h4⟩ := h'
  rcases h2 _ _ h3 with rfl | h5
  · exact treeEnd_unique h1 h3
  · rcases h4 _ _ h1 with rfl | h6
    · exact treeEnd_unique h1 h3
    · exact (prefers_asymm h5 h6).elim

/-- The first way of matching that the engine tries is the most preferred one. -/
theorem engine_cons {r : Re} (hp : Proper r) {s t : St} {l : List St} (h : r.run s = t :: l) : BestAt r s t := by
  rw [← trees_run] at h
  have ho := ordered_trees r s
  have hm := mem_trees hp s
  generalize treesOf r s = ts at *
  cases ts with
  | nil => cases h
  | cons p ts =>
    obtain ⟨x, t'⟩ := p
    simp only [List.map_cons, List.cons.injEq] at h
    obtain ⟨rfl, _⟩ := h
    refine ⟨x, (hm _ _).mp (by simp), ?_⟩
    intro y u hy
    rcases List.mem_cons.mp ((hm _ _).mpr hy) with h | h
    · cases h; exact .inl rfl
    · exact .inr ((List.pairwise_cons.mp ho).1 _ h)

/-- The engine finds no way of matching only if there is none. -/
theorem engine_nil {r : Re} (hp : Proper r) {s : St} (h : r.run s = []) (x : Tree) (t : St) : ¬ Matches r s x t := by
  intro hd
  have := (mem_trees hp _ _ _).mpr hd
  rw [← trees_run, List.map_eq_nil_iff] at h
  rw [h] at this
  cases this

theorem posAt_succ (c : Char) (cs : Str) (start : Bool) (k : Nat) : posAt (c :: cs) start (k + 1) = posAt cs false k := by
  simp [posAt]

theorem find_spec {r : Re} (hp : Proper r) (start : Bool) (s : Str) :
    (∀ pre t, r.find start s = some (pre, t) → FirstMatch r start s pre t) ∧
      (r.find start s = none → ∀ k ≤ s.length, ∀ y u, ¬ Matches r (posAt s start k) y u) := by
  induction s generalizing start with
  | nil =>
    rw [Re.find]
    cases hr : r.run ⟨start, [], []⟩ with
    | cons t l =>
      refine ⟨?_, fun h => by cases h⟩
      intro pre t' h
      cases h
      have := engine_cons hp hr
      exact ⟨List.nil_prefix, by simpa [posAt] using this, by simp⟩
    | nil =>
      refine ⟨fun _ _ h => (by cases h), ?_⟩
      intro _ k hk
      have : k = 0 := by simpa using hk
      subst this
      simpa [posAt] using engine_nil hp hr
  | cons c cs ih =>
    rw [Re.find]
    cases hr : r.run ⟨start, c :: cs, []⟩ with
    | cons t l =>
      refine ⟨?_, fun h => by cases h⟩
      intro pre t' h
      cases h
      have := engine_cons hp hr
      exact ⟨List.nil_prefix, by simpa [posAt] using this, by simp⟩
    | nil =>
      have h0 : ∀ y u, ¬ Matches r (posAt (c :: cs) start 0) y u := by simpa [posAt] using engine_nil hp hr
      simp only
      constructor
      · intro pre t h
        cases hf : r.find false cs with
        | none => rw [hf] at h; cases h
        | some p =>
          rw [hf] at h
          cases h
          obtain ⟨h1, h2, h3⟩ := (ih false).1 _ _ hf
          refine ⟨List.cons_prefix_cons.mpr ⟨rfl, h1⟩, by rw [List.length_cons, posAt_succ]; exact h2, ?_⟩
          intro k hk
          cases k with
          | zero => exact h0
          | succ k => rw [posAt_succ]; exact h3 k (by simpa using hk)
      · intro h k hk
        have hf : r.find false cs = none := by simpa using h
        cases k with
        | zero => exact h0
        | succ k => rw [posAt_succ]; exact (ih false).2 hf k (by simpa using hk)

/-- **Search.**  The engine finds the leftmost-first match. -/
theorem find_iff {r : Re} (hp : Proper r) (start : Bool) (s pre : Str) (t : St) : r.find start s = some (pre, t) ↔ FirstMatch r start s pre t := by
  refine ⟨(find_spec hp start s).1 pre t, ?_⟩
  rintro ⟨h1, h2, h3⟩
  have hle := h1.length_le
  cases hf : r.find start s with
  | none =>
    obtain ⟨x, hx, _⟩ := h2
    exact ((find_spec hp start s).2 hf _ hle _ _ hx).elim
  | some q =>
    obtain ⟨pre', t'⟩ := q
    obtain ⟨k1, k2, k3⟩ := (find_spec hp start s).1 _ _ hf
    have hl : pre.length = pre'.length := by
      rcases Nat.lt_trichotomy pre.length pre'.length with h | h | h
      · obtain ⟨x, hx, _⟩ := h2
        exact (k3 _ h _ _ hx).elim
      · exact h
      · obtain ⟨x, hx, _⟩ := k2
        exact (h3 _ h _ _ hx).elim
    have : pre = pre' := by rw [List.prefix_iff_eq_take.mp h1, List.prefix_iff_eq_take.mp k1, hl]
    subst this
    rw [bestAt_unique h2 k2]

/-- No match is found only if there is none. -/
theorem find_none {r : Re} (hp : Proper r) (start : Bool) (s : Str) :
    r.find start s = none ↔ ∀ k ≤ s.length, ∀ y u, ¬ Matches r (posAt s start k) y u := by
  refine ⟨(find_spec hp start s).2, ?_⟩
  intro h
  cases hf : r.find start s with
  | none => rfl
  | some q =>
    obtain ⟨pre, t⟩ := q
    obtain ⟨k1, ⟨x, hx, _⟩, _⟩ := (find_spec hp start s).1 _ _ hf
    exact (h _ k1.length_le _ _ hx).elim

/-! ### The patterns of the crate -/

/-- The pattern reads at least one character, as far as can be seen from its shape. -/
def reads : Re → Bool
  | .cls _ => true
  | .seq a b => reads a || reads b
  | .alt a b => reads a && reads b
  | .cap _ r => reads r
  | _ => false

theorem reads_sound {r : Re} (h : reads r = true) {s t : St} {x : Tree} (hd : Matches r s x t) : t.rest.length < s.rest.length := by
  have hle : ∀ {r s x t}, Matches r s x t → t.rest.length ≤ s.rest.length := fun h => (treeEnd_suffix h).length_le
  induction hd with
  | cls => simp
  | seq h1 h2 ih1 ih2 =>
    simp only [reads, Bool.or_eq_true] at h
    rcases h with h | h
    · exact Nat.lt_of_le_of_lt (hle h2) (ih1 h)
    · exact Nat.lt_of_lt_of_le (ih2 h) (hle h1)
  | left _ ih => simp only [reads, Bool.and_eq_true] at h; exact ih h.1
  | right _ ih => simp only [reads, Bool.and_eq_true] at h; exact ih h.2
  | cap _ _ ih => exact ih h
  | _ => cases h

/-- Every starred part reads at least one character. -/
def properTest : Re → Bool
  | .seq a b | .alt a b => properTest a && properTest b
  | .star _ r => properTest r && reads r
  | .cap _ r => properTest r
  | _ => true

theorem proper_of_test {r : Re} (h : properTest r = true) : Proper r := by
  induction r with
  | seq a b iha ihb | alt a b iha ihb =>
    simp only [properTest, Bool.and_eq_true] at h
    exact ⟨iha h.1, ihb h.2⟩
  | star g r ih =>
    simp only [properTest, Bool.and_eq_true] at h
    exact ⟨ih h.1, fun s x t hd => reads_sound h.2 hd⟩
  | cap i r ih => exact ih h
  | _ => trivial

/-- In none of the patterns of the crate does a starred part match the empty text. -/
theorem patterns_proper : ∀ r ∈ [unescapeRe, mapRe, mapCheckRe, messageRe, commentRe], Proper r := by
  intro r hr
  have : ∀ r ∈ [unescapeRe, mapRe, mapCheckRe, messageRe, commentRe], properTest r = true := by decide
  exact proper_of_test (this r hr)

/-- Every match of a pattern that is used to find all matches is not empty. -/
theorem iter_patterns_read {r : Re} (hr : r ∈ [unescapeRe, mapRe]) {s t : St} {x : Tree} (h : Matches r s x t) : t.rest.length < s.rest.length := by
  have : ∀ r ∈ [unescapeRe, mapRe], reads r = true := by decide
  exact reads_sound (this r hr) h

/-- **Iteration.**  The engine finds all successive matches: the bound on their number is never reached. -/
theorem iter_all {r : Re} (hp : Proper r) (hr : ∀ s x t, Matches r s x t → t.rest.length < s.rest.length) :
    ∀ (n : Nat) (start : Bool) (s : Str), s.length < n → AllMatches r start s (r.iterAux n start s).1 (r.iterAux n start s).2 := by
  intro n
  induction n with
  | zero => intro _ s h; omega
  | succ n ih =>
    intro start s hn
    rw [Re.iterAux]
    cases hf : r.find start s with
    | none => exact .done ((find_none hp start s).mp hf)
    | some q =>
      obtain ⟨pre, t⟩ := q
      have hm := (find_iff hp start s pre t).mp hf
      obtain ⟨x, hx, _⟩ := hm.2.1
      have hlt := hr _ _ _ hx
      refine .next hm (ih false t.rest ?_)
      simp only [posAt, List.length_drop] at hlt
      omega

end Verif
