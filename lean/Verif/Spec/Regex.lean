import Verif.Model.Regex

/-!
Regular expressions, declaratively: the ways of matching a pattern at a position as derivation trees without any search, and the order of preference between them
(greedy matching in the sense of Frisch and Cardelli).  A leftmost-first search has to find the most preferred way at the first position where there is one.
-/

namespace Verif.Spec

/-- A way of matching. -/
inductive Tree where
  | leaf
  | pair (a b : Tree)
  | left (a : Tree)
  | right (b : Tree)
  | stop
  | more (a b : Tree)
  | group (a : Tree)

/-- The tree is a way of matching the pattern from position `s` to position `t`. -/
inductive Matches : Re → St → Tree → St → Prop
  | cls {p st c cs caps} : p.test c = true → Matches (.cls p) ⟨st, c :: cs, caps⟩ .leaf ⟨false, cs, caps⟩
  | eps {s} : Matches .eps s .leaf s
  | seq {a b s x t y u} : Matches a s x t → Matches b t y u → Matches (.seq a b) s (.pair x y) u
  | left {a b s x t} : Matches a s x t → Matches (.alt a b) s (.left x) t
  | right {a b s x t} : Matches b s x t → Matches (.alt a b) s (.right x) t
  | stop {g r s} : Matches (.star g r) s .stop s
  | more {g r s x t y u} : Matches r s x t → Matches (.star g r) t y u → Matches (.star g r) s (.more x y) u
  /-- the group contains the text that was read -/
  | cap {i r s x t w} : Matches r s x t → s.rest = w ++ t.rest → Matches (.cap i r) s (.group x) ⟨t.atStart, t.rest, (i, w) :: t.caps⟩
  | bol {rest caps} : Matches .bol ⟨true, rest, caps⟩ .leaf ⟨true, rest, caps⟩
  | eol {st caps} : Matches .eol ⟨st, [], caps⟩ .leaf ⟨st, [], caps⟩

/-- The first way of matching the pattern is preferred to the second: the first choice in which they differ is decided for the left alternative, for going on
with a greedy star, for stopping a lazy star. -/
inductive Prefers : Re → Tree → Tree → Prop
  | seqFst {a b x x' y y'} : Prefers a x x' → Prefers (.seq a b) (.pair x y) (.pair x' y')
  | seqSnd {a b x y y'} : Prefers b y y' → Prefers (.seq a b) (.pair x y) (.pair x y')
  | left {a b x x'} : Prefers a x x' → Prefers (.alt a b) (.left x) (.left x')
  | right {a b x x'} : Prefers b x x' → Prefers (.alt a b) (.right x) (.right x')
  | leftRight {a b x y} : Prefers (.alt a b) (.left x) (.right y)
  | greedy {r x y} : Prefers (.star true r) (.more x y) .stop
  | lazy {r x y} : Prefers (.star false r) .stop (.more x y)
  | moreFst {g r x x' y y'} : Prefers r x x' → Prefers (.star g r) (.more x y) (.more x' y')
  | moreSnd {g r x y y'} : Prefers (.star g r) y y' → Prefers (.star g r) (.more x y) (.more x y')
  | cap {i r x x'} : Prefers r x x' → Prefers (.cap i r) (.group x) (.group x')

/-- No starred part of the pattern matches the empty text. -/
def Proper : Re → Prop
  | .seq a b | .alt a b => Proper a ∧ Proper b
  | .star _ r => Proper r ∧ ∀ s x t, Matches r s x t → t.rest.length < s.rest.length
  | .cap _ r => Proper r
  | _ => True

/-- The most preferred way of matching the pattern at position `s` leads to `t`. -/
def BestAt (r : Re) (s t : St) : Prop := ∃ x, Matches r s x t ∧ ∀ y u, Matches r s y u → y = x ∨ Prefers r x y

/-- The position after the first `k` characters, without groups. -/
def posAt (s : Str) (start : Bool) (k : Nat) : St := ⟨start && k == 0, s.drop k, []⟩

/-- A leftmost-first search in the text `s` skips `pre` and then matches up to `t`. -/
def FirstMatch (r : Re) (start : Bool) (s pre : Str) (t : St) : Prop :=
  pre <+: s ∧ BestAt r (posAt s start pre.length) t ∧ ∀ k < pre.length, ∀ y u, ¬ Matches r (posAt s start k) y u

/-- Successive matches: each one is the first match in what is left by the one before, and there is none in the rest. -/
inductive AllMatches (r : Re) : Bool → Str → List (Str × St) → Str → Prop
  | done {start s} : (∀ k ≤ s.length, ∀ y u, ¬ Matches r (posAt s start k) y u) → AllMatches r start s [] s
  | next {start s pre t ms tail} : FirstMatch r start s pre t → AllMatches r false t.rest ms tail → AllMatches r start s ((pre, t) :: ms) tail

end Verif.Spec
