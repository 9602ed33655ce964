import Verif.Lemmas.Write

/-! Everything that is read can be written. -/

namespace Verif
open Spec

/-! ### Comment lines -/

/-- A quoted text after marker and white space. -/
def Body (b : Str) (kw : Option Str) (raw : Str) : Prop :=
  (∀ k, kw = some k → IsKeyword k) ∧ ∃ w₃ w₄, (kw = none → w₃ = []) ∧ White w₃ ∧ White w₄ ∧ b = kw.getD [] ++ (w₃ ++ '"' :: (raw ++ '"' :: w₄))

theorem body_head {b : Str} {kw : Option Str} {raw : Str} (h : Body b kw raw) : ∃ c r, b = c :: r ∧ isWhite c = false ∧ c ≠ '#' := by
  obtain ⟨hk, w3, w4, h0, _, _, rfl⟩ := h
  cases kw with
  | none => rw [h0 rfl]; exact ⟨'"', raw ++ '"' :: w4, rfl, by decide, by decide⟩
  | some k =>
    obtain ⟨k', rfl⟩ := keyword_head (hk k rfl)
    exact ⟨'m', _, rfl, by decide, by decide⟩

theorem dropWhile_white {w b : Str} (h : White w) : (w ++ b).dropWhile isWhite = b.dropWhile isWhite := by
  induction w with
  | nil => rfl
  | cons c w ih => rw [List.cons_append, List.dropWhile_cons, if_pos (h c (List.mem_cons_self ..)), ih fun x hx => h x (List.mem_cons_of_mem _ hx)]

theorem body_drop {w b : Str} {kw : Option Str} {raw : Str} (hw : White w) (h : Body b kw raw) : (w ++ b).dropWhile isWhite = b := by
  rw [dropWhile_white hw]
  obtain ⟨c, r, rfl, hc, _⟩ := body_head h
  rw [List.dropWhile_cons, if_neg (by simp [hc])]

theorem white_append {a b : Str} (ha : White a) (hb : White b) : White (a ++ b) := by
  intro c hc
  rcases List.mem_append.mp hc with hc | hc
  · exact ha c hc
  · exact hb c hc

/-- Quoted lines that start with `#`. -/
theorem quoted_hash {x : Str} {m kw : Option Str} {raw : Str} :
    QuotedLine ('#' :: x) m kw raw ↔ ∃ mm y, m = some mm ∧ IsMarker mm ∧ x = mm ++ y ∧ Body (y.dropWhile isWhite) kw raw := by
  constructor
  · rintro ⟨hm, hk, w1, w2, w3, w4, hw1, hw2, hw3, hw4, h⟩
    have hb : ∃ w b, White w ∧ Body b kw raw ∧ w2 ++ (kw.getD [] ++ (w3 ++ '"' :: (raw ++ '"' :: w4))) = w ++ b := by
      cases kw with
      | none => exact ⟨w2 ++ w3, '"' :: (raw ++ '"' :: w4), white_append hw2 hw3, ⟨hk, [], w4, fun _ => rfl, by simp [White], hw4, rfl⟩, by simp⟩
      | some k => exact ⟨w2, _, hw2, ⟨hk, w3, w4, by simp, hw3, hw4, rfl⟩, rfl⟩
    obtain ⟨w, b, hw, hb, e⟩ := hb
    rw [e] at h
    cases w1 with
    | cons c w1 =>
      injection h with h _
      have := hw1 c (List.mem_cons_self ..)
      rw [← h] at this
      exact absurd this (by decide)
    | nil =>
      cases m with
      | none =>
        rw [markerText, List.nil_append, List.nil_append] at h
        cases w with
        | cons c w =>
          injection h with h _
          have := hw c (List.mem_cons_self ..)
          rw [← h] at this
          exact absurd this (by decide)
        | nil =>
          obtain ⟨c, r, rfl, _, hc⟩ := body_head hb
          injection h with h _
          exact absurd h.symm hc
      | some mm =>
        rw [markerText, List.nil_append, List.cons_append] at h
        injection h with _ h
        exact ⟨mm, w ++ b, rfl, hm mm rfl, h, by rw [body_drop hw hb]; exact hb⟩
  · rintro ⟨mm, y, rfl, hm, rfl, hk, w3, w4, h0, hw3, hw4, he⟩
    refine ⟨fun _ h => by cases h; exact hm, hk, [], y.takeWhile isWhite, w3, w4, by simp [White], ?_, hw3, hw4, ?_⟩
    · intro c hc
      have := List.all_takeWhile (p := isWhite) (l := y)
      rw [List.all_eq_true] at this
      exact this c hc
    · rw [← he, List.takeWhile_append_dropWhile]
      rfl

/-- Whether a line `#k…` is quoted does not depend on the white space after the character `k`, as long as there is some, or `k` is itself white space. -/
theorem quoted_respace {k : Char} {ws' ws c : Str} (hw' : White ws') (hw : White ws) (h0 : ws' ≠ [] ∨ isWhite k = true)
    {m kw : Option Str} {raw : Str} (h : QuotedLine ('#' :: k :: (ws' ++ c)) m kw raw) : ∃ m kw raw, QuotedLine ('#' :: k :: (ws ++ c)) m kw raw := by
  obtain ⟨mm, y, rfl, hm, hx, hb⟩ := quoted_hash.mp h
  rcases hm with rfl | rfl | rfl | rfl
  · rw [List.nil_append] at hx
    subst hx
    by_cases hk : isWhite k = true
    · refine ⟨some [], kw, raw, quoted_hash.mpr ⟨[], _, rfl, .inl rfl, rfl, ?_⟩⟩
      rw [List.dropWhile_cons, if_pos hk, dropWhile_white hw'] at hb
      rw [List.dropWhile_cons, if_pos hk, dropWhile_white hw]
      exact hb
    · rw [List.dropWhile_cons, if_neg hk] at hb
      obtain ⟨a, ws', rfl⟩ : ∃ a w, ws' = a :: w := by
        rcases h0 with h0 | h0
        · exact List.exists_cons_of_ne_nil h0
        · exact absurd h0 hk
      obtain ⟨hkw, w3, w4, h3, hw3, hw4, he⟩ := hb
      have ha := hw' a (List.mem_cons_self ..)
      cases kw with
      | some kw =>
        have hkw := hkw kw rfl
        have hs : ∃ k', kw = 'm' :: 's' :: k' := by
          rcases hkw with rfl | rfl | rfl | rfl | ⟨ds, _, rfl⟩ <;> exact ⟨_, rfl⟩
        obtain ⟨k', rfl⟩ := hs
        simp only [Option.getD_some, List.cons_append] at he
        injection he with _ he
        injection he with he _
        rw [he] at ha
        exact absurd ha (by decide)
      | none =>
        rw [h3 rfl] at he
        simp only [Option.getD_none, List.nil_append] at he
        injection he with hk he
        subst hk
        -- the closing quote lies in `c`
        have hc : ∃ raw'', c = raw'' ++ '"' :: w4 := by
          rcases List.append_eq_append_iff.mp he with ⟨as, h1, h2⟩ | ⟨bs, h1, h2⟩
          · exact ⟨as, h2⟩
          · cases bs with
            | nil => exact ⟨[], h2.symm⟩
            | cons q bs =>
              injection h2 with h2 _
              have := hw' q (by rw [h1]; simp)
              rw [← h2] at this
              exact absurd this (by decide)
        obtain ⟨raw'', rfl⟩ := hc
        refine ⟨some [], none, ws ++ raw'', quoted_hash.mpr ⟨[], _, rfl, .inl rfl, rfl, ?_⟩⟩
        rw [List.dropWhile_cons, if_neg hk]
        exact ⟨by simp, [], w4, fun _ => rfl, by simp [White], hw4, by simp⟩
  · injection hx with e hx
    subst e hx
    rw [dropWhile_white hw'] at hb
    exact ⟨_, _, _, quoted_hash.mpr ⟨['~'], ws ++ c, rfl, .inr (.inl rfl), rfl, by rw [dropWhile_white hw]; exact hb⟩⟩
  · injection hx with e hx
    subst e hx
    rw [dropWhile_white hw'] at hb
    exact ⟨_, _, _, quoted_hash.mpr ⟨['|'], ws ++ c, rfl, .inr (.inr (.inl rfl)), rfl, by rw [dropWhile_white hw]; exact hb⟩⟩
  · exfalso
    injection hx with e hx
    subst e
    rcases h0 with h0 | h0
    · obtain ⟨a, ws', rfl⟩ := List.exists_cons_of_ne_nil h0
      injection hx with hx _
      have := hw' a (List.mem_cons_self ..)
      rw [hx] at this
      revert this; decide
    · revert h0; decide

/-- Kind and content of a comment that can be written. -/
structure GoodComment (c : Char × Str) : Prop where
  text : CommentText c.2
  kind : c.1 ≠ '\n'
  spaced : ∀ m k raw, ¬ QuotedLine ('#' :: c.1 :: ' ' :: c.2) m k raw
  plain : c.1 = ' ' → ∀ m k raw, ¬ QuotedLine ('#' :: ' ' :: c.2) m k raw

theorem quoted_has_quote {s : Str} {m k : Option Str} {raw : Str} (h : QuotedLine s m k raw) : '"' ∈ s := by
  obtain ⟨_, _, w1, w2, w3, w4, _, _, _, _, rfl⟩ := h
  simp

theorem comment_good {s : Str} {n n' : Nat} {k : Char} {c : Str} (hs : '\n' ∉ s) (h : Classified s n (some (.comment n' k c))) : GoodComment (k, c) := by
  generalize hx : (some (PoLine.comment n' k c)) = x at h
  cases h with
  | blank => cases hx
  | keyword => cases hx
  | continuation => cases hx
  | unrecognised => cases hx
  | @comment w r hw hl hq =>
    cases hx
    subst hl
    cases r with
    | nil =>
      have : ∀ s : Str, '"' ∉ s → ∀ m k raw, ¬ QuotedLine s m k raw := fun s h m k raw hq => h (quoted_has_quote hq)
      exact ⟨⟨by simp, by simp⟩, by decide, this _ (by decide), fun _ => this _ (by decide)⟩
    | cons k r =>
      have hr : r = r.takeWhile isWhite ++ r.dropWhile isWhite := List.takeWhile_append_dropWhile.symm
      have hwr : White (r.takeWhile isWhite) := by
        intro c hc
        have := List.all_takeWhile (p := isWhite) (l := r)
        rw [List.all_eq_true] at this
        exact this c hc
      have hq' : ∀ m kw raw, ¬ QuotedLine ('#' :: k :: (r.takeWhile isWhite ++ r.dropWhile isWhite)) m kw raw := by
        intro m kw raw h
        rw [← hr] at h
        exact hq m kw raw (quotedLine_pad hw h)
      have h1 := hs
      rw [hr] at h1
      simp only [List.head?_cons, Option.getD_some, List.drop_succ_cons, List.drop_zero]
      generalize hws : r.takeWhile isWhite = ws at *
      have hh := dropWhile_head r
      generalize r.dropWhile isWhite = c at *
      refine ⟨⟨?_, hh⟩, ?_, ?_, ?_⟩
      · intro hm; exact h1 (by simp [hm])
      · rintro rfl; exact h1 (by simp)
      · intro m kw raw h
        obtain ⟨_, _, _, h⟩ := quoted_respace (ws' := [' ']) (ws := ws) (by decide) hwr (.inl (by simp)) h
        exact hq' _ _ _ h
      · rintro rfl m kw raw h
        obtain ⟨_, _, _, h⟩ := quoted_respace (k := ' ') (ws' := []) (ws := ws) (by decide) hwr (.inr (by decide)) h
        exact hq' _ _ _ h

/-! ### The data of comments -/

theorem trim_sub {s : Str} {c : Char} (h : c ∈ trim s) : c ∈ s := by
  obtain ⟨a, b, _, _, hs⟩ := trim_split s
  rw [hs]; simp [h]

theorem mem_splitP {p : Char → Bool} {s w : Str} (h : w ∈ splitP p s) : ∀ c ∈ w, p c = false ∧ c ∈ s := by
  induction s generalizing w with
  | nil =>
    rw [splitP, List.mem_singleton] at h
    subst h
    simp
  | cons x s ih =>
    rw [splitP] at h
    split at h
    · rcases List.mem_cons.mp h with rfl | h
      · simp
      · exact fun c hc => ⟨(ih h c hc).1, List.mem_cons_of_mem _ (ih h c hc).2⟩
    · rename_i hx
      split at h
      · rename_i he; exact absurd he (splitP_ne_nil _ _)
      · rename_i w' ws he
        have hx' : p x = false := by simpa using hx
        rcases List.mem_cons.mp h with rfl | h
        · intro c hc
          rcases List.mem_cons.mp hc with rfl | hc
          · exact ⟨hx', List.mem_cons_self ..⟩
          · have := ih (w := w') (by rw [he]; simp) c hc
            exact ⟨this.1, List.mem_cons_of_mem _ this.2⟩
        · intro c hc
          have := ih (w := w) (by rw [he]; exact List.mem_cons_of_mem _ h) c hc
          exact ⟨this.1, List.mem_cons_of_mem _ this.2⟩

theorem distinct_ok (l : List Str) : (distinct l).Nodup ∧ ∀ f ∈ distinct l, f ∈ l := by
  have key : ∀ (l acc : List Str), acc.Nodup → (l.foldl (fun acc f => if f ∈ acc then acc else acc ++ [f]) acc).Nodup ∧
      ∀ f ∈ l.foldl (fun acc f => if f ∈ acc then acc else acc ++ [f]) acc, f ∈ acc ∨ f ∈ l := by
    intro l
    induction l with
    | nil => intro acc h; exact ⟨h, fun f hf => .inl hf⟩
    | cons a l ih =>
      intro acc h
      rw [List.foldl_cons]
      by_cases ha : a ∈ acc
      · rw [if_pos ha]
        obtain ⟨h1, h2⟩ := ih acc h
        exact ⟨h1, fun f hf => (h2 f hf).imp id (List.mem_cons_of_mem _)⟩
      · rw [if_neg ha]
        obtain ⟨h1, h2⟩ := ih (acc ++ [a]) (by
          rw [List.nodup_append]
          refine ⟨h, by simp, ?_⟩
          rintro x hx y hy rfl
          rw [List.mem_singleton] at hy
          subst hy
          exact ha hx)
        refine ⟨h1, fun f hf => ?_⟩
        rcases h2 f hf with h2 | h2
        · rcases List.mem_append.mp h2 with h2 | h2
          · exact .inl h2
          · rw [List.mem_singleton] at h2; subst h2; exact .inr (List.mem_cons_self ..)
        · exact .inr (List.mem_cons_of_mem _ h2)
  obtain ⟨h1, h2⟩ := key l [] (by simp)
  exact ⟨h1, fun f hf => (h2 f hf).elim (fun h => nomatch h) id⟩

theorem note_good {c : Char × Str} (h : GoodComment c) {x : Note} (hx : noteItem c = some x) : WritableNote x := by
  unfold noteItem at hx
  split at hx
  · cases hx; exact ⟨h.text, by simp⟩
  · split at hx
    · rename_i hk
      cases hx
      exact ⟨h.text, fun _ => h.plain hk⟩
    · cases hx

theorem other_good {c : Char × Str} (h : GoodComment c) {x : Comment} (hx : otherItem c = some x) : WritableComment x := by
  unfold otherItem at hx
  split at hx
  · cases hx
  · rename_i hk
    cases hx
    simp only [not_or] at hk
    exact ⟨h.text, h.kind, hk.1, hk.2.1, hk.2.2.1, hk.2.2.2, h.spaced⟩

theorem flag_good {c : Char × Str} (h : GoodComment c) {f : Str} (hf : f ∈ flagItems c) : WritableFlag f := by
  rw [flagItems_eq] at hf
  split at hf
  · obtain ⟨w, hw, rfl⟩ := List.mem_map.mp hf
    have hm := mem_splitP hw
    refine ⟨trim_trimmed w, fun hc => ?_, fun hc => ?_⟩
    · have := (hm _ (trim_sub hc)).1
      revert this; decide
    · exact h.text.1 (hm _ (trim_sub hc)).2
  · cases hf

theorem location_good {c : Char × Str} {l : Str} (hl : l ∈ locationItems c) : WritableLocation l := by
  rw [locationItems_eq] at hl
  split at hl
  · rw [List.mem_filter] at hl
    exact ⟨by simpa using hl.2, fun c hc => (mem_splitP hl.1 c hc).1⟩
  · cases hl

/-! ### Units -/

theorem valueFields_length {o : Bool} {hi lo : Nat} {b : List PoLine} {vs : List Str} (h : ValueFields o hi lo b vs) : vs.length ≤ hi - lo := by
  induction h with
  | nil => simp
  | @cons lo i b v bs vs h1 h2 _ _ ih => rw [List.length_cons]; omega

/-- The comment lines of a block can be written. -/
def GoodBlock (block : List PoLine) : Prop := ∀ n k c, .comment n k c ∈ block → GoodComment (k, c)

theorem entry_readable {forms : Option PluralForms} {block : List PoLine} {u : PoUnit} (hb : GoodBlock block) (h : Entry forms block u) : ReadableUnit forms u := by
  obtain ⟨cs, b1, b2, b3, b4, b5, b6, b7, pid, ppl, id, idPl, rfl, _, _, _, _, _, _, _, f7, hpm, hd, hs⟩ := h
  have hg : ∀ c ∈ cs.map Prod.snd, GoodComment c := by
    intro c hc
    obtain ⟨x, hx, rfl⟩ := List.mem_map.mp hc
    exact hb x.1 x.2.1 x.2.2 (List.mem_append.mpr (.inl (List.mem_map.mpr ⟨x, hx, rfl⟩)))
  refine ⟨?_, ?_, ?_, ?_, ?_, ?_, ?_, hs⟩
  · intro x hx
    rw [hd.notes] at hx
    obtain ⟨c, hc, hx⟩ := List.mem_filterMap.mp hx
    exact note_good (hg c hc) hx
  · intro x hx
    rw [hd.comments] at hx
    obtain ⟨c, hc, hx⟩ := List.mem_filterMap.mp hx
    exact other_good (hg c hc) hx
  · intro x hx
    rw [hd.locations] at hx
    obtain ⟨c, _, hx⟩ := List.mem_flatMap.mp hx
    exact location_good hx
  · intro x hx
    rw [hd.flags] at hx
    obtain ⟨c, hc, hx⟩ := List.mem_flatMap.mp ((distinct_ok _).2 x hx)
    exact flag_good (hg c hc) hx
  · rw [hd.flags]; exact (distinct_ok _).1
  · generalize u.message = m at f7
    cases f7 with
    | simple =>
      show _ ≠ _
      split <;> simp_all
    | plural hv hne => exact ⟨hne, by have := valueFields_length hv; simpa using this, rfl⟩
  · rw [hpm]
    cases pid with
    | none => rfl
    | some pid =>
      cases ppl with
      | none => rfl
      | some ppl => exact ⟨rfl, rfl⟩

theorem entry_writable {forms : Option PluralForms} {block : List PoLine} {u : PoUnit} (hb : GoodBlock block) (h : Entry forms block u) (hs : HasSource u.message) :
    WritableUnit forms u := by
  have r := entry_readable hb h
  refine ⟨r.notes, r.comments, r.locations, r.flags, r.distinct, ?_, r.previous, r.state⟩
  have := r.message
  revert hs this
  cases u.message with
  | simple id t => exact fun h1 h2 => ⟨h1, h2⟩
  | plural p => exact fun _ h => h

/-- The comment lines among the items can be written. -/
def GoodItems (l : List Item) : Prop := ∀ n k c, Except.ok (.comment n k c) ∈ l → GoodComment (k, c)

theorem GoodItems.left {b : List PoLine} {r : List Item} (h : GoodItems (b.map .ok ++ r)) : GoodBlock b :=
  fun n k c hc => h n k c (List.mem_append.mpr (.inl (List.mem_map.mpr ⟨_, hc, rfl⟩)))

theorem GoodItems.right {l r : List Item} (h : GoodItems (l ++ r)) : GoodItems r := fun n k c hc => h n k c (List.mem_append.mpr (.inr hc))

theorem run_writable {forms : Option PluralForms} {l : List Item} {us : List PoUnit} {e : Option Err} (hg : GoodItems l) (h : Run forms l us e) :
    ∀ u ∈ us, WritableUnit forms u := by
  induction h with
  | stop _ => intro u hu; cases hu
  | @entry block u rest us e h1 h2 _ _ ih =>
    intro x hx
    rcases List.mem_cons.mp hx with rfl | hx
    · exact entry_writable hg.left h1 h2
    · exact ih hg.right x hx

/-! ### The header -/

theorem dropSp_head {vs : List Str} (h : ∀ v ∈ vs, Trimmed v) (c : Char) (hc : ((List.intercalate [' '] vs).dropWhile (· == ' ')).head? = some c) : isWhite c = false := by
  have one : ∀ (a b : Str), Trimmed a → (a ++ b).dropWhile (· == ' ') = if a = [] then b.dropWhile (· == ' ') else a ++ b := by
    intro a b ha
    cases a with
    | nil => rfl
    | cons x a =>
      have hx := ha.1 x rfl
      rw [if_neg (by simp), List.cons_append, List.dropWhile_cons, if_neg]
      simp only [beq_iff_eq]
      rintro rfl
      revert hx; decide
  induction vs with
  | nil => simp [List.intercalate] at hc
  | cons a vs ih =>
    have ha := h a (List.mem_cons_self ..)
    cases vs with
    | nil =>
      rw [intercalate_one] at hc
      have := one a [] ha
      rw [List.append_nil] at this
      rw [this] at hc
      split at hc
      · simp at hc
      · exact ha.1 c hc
    | cons b vs =>
      rw [intercalate_cons2, one a _ ha] at hc
      split at hc
      · rw [List.singleton_append, List.dropWhile_cons, if_pos (by decide)] at hc
        exact ih (fun v hv => h v (List.mem_cons_of_mem _ hv)) hc
      · rename_i hne
        rw [List.head?_append] at hc
        cases hh : a.head? with
        | none => exact absurd (List.head?_eq_none_iff.mp hh) hne
        | some x =>
          rw [hh] at hc
          simp at hc
          subst hc
          exact ha.1 x hh

theorem intercalate_snoc (l : List Str) (hl : l ≠ []) (a : Str) : List.intercalate [' '] (l ++ [a]) = List.intercalate [' '] l ++ (' ' :: a) := by
  induction l with
  | nil => exact absurd rfl hl
  | cons x l ih =>
    cases l with
    | nil => simp [List.intercalate]
    | cons y l =>
      rw [List.cons_append, List.cons_append, intercalate_cons2, ← List.cons_append, ih (by simp), intercalate_cons2]
      simp

theorem intercalate_reverse (l : List Str) : (List.intercalate [' '] l).reverse = List.intercalate [' '] (l.map List.reverse).reverse := by
  induction l with
  | nil => rfl
  | cons x l ih =>
    cases l with
    | nil => simp [List.intercalate]
    | cons y l =>
      rw [intercalate_cons2, List.map_cons, List.reverse_cons, intercalate_snoc _ (by simp), ← ih]
      simp

theorem trimmed_reverse {v : Str} (h : Trimmed v) : Trimmed v.reverse := by
  refine ⟨?_, ?_⟩
  · intro c hc; rw [List.head?_reverse] at hc; exact h.2 c hc
  · intro c hc; rw [List.getLast?_reverse] at hc; exact h.1 c hc

theorem middle_trimmed {vs : List Str} (h : ∀ v ∈ vs, Trimmed v) : Trimmed (middle (List.intercalate [' '] vs)) := by
  have hr : ∀ v ∈ (vs.map List.reverse).reverse, Trimmed v := by
    intro v hv
    rw [List.mem_reverse, List.mem_map] at hv
    obtain ⟨x, hx, rfl⟩ := hv
    exact trimmed_reverse (h x hx)
  have h1 := dropSp_head h
  have h2 := dropSp_head hr
  rw [← intercalate_reverse] at h2
  generalize List.intercalate [' '] vs = v at h1 h2
  have hp := value_parts v
  have hd : v.dropWhile (· == ' ') = middle v ++ List.replicate ((v.dropWhile (· == ' ')).reverse.takeWhile (· == ' ')).length ' ' := by
    have h3 := (List.takeWhile_append_dropWhile (p := (· == ' ')) (l := v))
    have h4 := value_parts v
    rw [← takeWhile_sp] at h4
    exact List.append_cancel_left (h3.trans h4)
  constructor
  · intro c hc
    apply h1 c
    rw [hd, List.head?_append, hc]
    rfl
  · intro c hc
    apply h2 c
    -- the last character of the middle is not a space
    have hm : middle v = ((v.dropWhile (· == ' ')).reverse.dropWhile (· == ' ')).reverse := rfl
    have hne : c ≠ ' ' := by
      rw [hm, List.getLast?_reverse] at hc
      intro he
      subst he
      have : ∀ s : Str, (s.dropWhile (· == ' ')).head? ≠ some ' ' := by
        intro s
        induction s with
        | nil => simp
        | cons x s ih =>
          rw [List.dropWhile_cons]
          split
          · exact ih
          · rename_i hx
            intro he
            cases he
            simp at hx
      exact this _ hc
    obtain ⟨pre, hpre⟩ : ∃ pre, middle v = pre ++ [c] := by
      have hne' : middle v ≠ [] := by intro he; rw [he] at hc; cases hc
      refine ⟨(middle v).dropLast, ?_⟩
      have := List.dropLast_concat_getLast hne'
      rw [List.getLast?_eq_some_getLast hne'] at hc
      cases hc
      exact this.symm
    rw [hpre] at hp
    rw [hp]
    simp only [List.reverse_append, List.reverse_replicate, List.append_assoc, List.reverse_cons, List.reverse_nil, List.nil_append, List.cons_append]
    have : ∀ (j : Nat) (r : Str), (List.replicate j ' ' ++ c :: r).dropWhile (· == ' ') = c :: r := by
      intro j r
      induction j with
      | zero => rw [List.replicate_zero, List.nil_append, List.dropWhile_cons, if_neg (by simpa using hne)]
      | succ j ih => rw [List.replicate_succ, List.cons_append, List.dropWhile_cons, if_pos (by decide), ih]
    rw [this]
    rfl

theorem lookup_of_mem {l : List (Str × Str)} (hn : (l.map Prod.fst).Nodup) {k v : Str} (h : (k, v) ∈ l) : l.lookup k = some v := by
  induction l with
  | nil => cases h
  | cons p l ih =>
    obtain ⟨a, b⟩ := p
    rw [List.map_cons, List.nodup_cons] at hn
    rcases List.mem_cons.mp h with h | h
    · cases h; exact lookup_self ..
    · have : k ≠ a := by
        intro he
        exact hn.1 (List.mem_map.mpr ⟨_, h, he⟩)
      rw [lookup_ne this]
      exact ih hn.2 h

theorem values_exist (k : Str) (ls : List Str) : ∃ vs, Values k ls vs := by
  induction ls with
  | nil => exact ⟨[], .nil⟩
  | cons l ls ih =>
    obtain ⟨vs, h⟩ := ih
    by_cases hk : ∃ v, KeyValue l k v
    · obtain ⟨v, hk⟩ := hk
      exact ⟨v :: vs, .hit hk h⟩
    · exact ⟨vs, .miss (fun v hv => hk ⟨v, hv⟩) h⟩

theorem values_mem {k : Str} {ls vs : List Str} (h : Values k ls vs) : ∀ v ∈ vs, ∃ l ∈ ls, KeyValue l k v := by
  induction h with
  | nil => intro v hv; cases hv
  | hit hk _ ih =>
    intro v hv
    rcases List.mem_cons.mp hv with rfl | hv
    · exact ⟨_, List.mem_cons_self .., hk⟩
    · obtain ⟨l, hl, h⟩ := ih v hv
      exact ⟨l, List.mem_cons_of_mem _ hl, h⟩
  | miss _ _ ih =>
    intro v hv
    obtain ⟨l, hl, h⟩ := ih v hv
    exact ⟨l, List.mem_cons_of_mem _ hl, h⟩

theorem header_writable {env : Env} {ns : List Note} {cs : List Comment} {t : Str} {hdr : Header env.Lang} (h : HeaderRule env ns cs t hdr)
    (hn : ∀ x ∈ ns, WritableNote x) (hc : ∀ x ∈ cs, WritableComment x) : WritableHeader env hdr := by
  refine ⟨by rw [h.notes]; exact hn, by rw [h.comments]; exact hc, ?_, h.keys, h.language⟩
  rintro ⟨k, v⟩ hp
  have hl := isLines_of_split t
  obtain ⟨vs, hv⟩ := values_exist k (splitP (· == '\n') t)
  have he := h.properties _ hl k vs hv
  rw [lookup_of_mem h.keys hp] at he
  split at he
  · cases he
  · rename_i hne
    cases he
    have hall := values_mem hv
    have hkey : ∃ l ∈ splitP (· == '\n') t, ∃ v, KeyValue l k v := by
      cases vs with
      | nil => exact absurd rfl hne
      | cons v vs =>
        obtain ⟨l, hl, hk⟩ := hall v (List.mem_cons_self ..)
        exact ⟨l, hl, v, hk⟩
    obtain ⟨l, hl', v, a, b, hab, ha, hk, _⟩ := hkey
    rw [stripped_iff] at hk
    have hln := hl.2.1 l hl'
    rw [hab] at hln
    refine ⟨by rw [hk]; exact trim_trimmed a, ?_, ?_, middle_trimmed ?_, ?_⟩
    · rw [hk]; exact fun hm => ha (trim_sub hm)
    · rw [hk]; exact fun hm => hln (List.mem_append.mpr (.inl (trim_sub hm)))
    · intro v hv
      obtain ⟨_, _, _, b, _, _, _, hb⟩ := hall v hv
      exact hb.1
    · intro hm
      rcases mem_intercalate hm with hm | ⟨v, hv, hm⟩
      · revert hm; decide
      · obtain ⟨l, hl', a, b, hab, _, _, hb⟩ := hall v hv
        rw [stripped_iff] at hb
        subst hb
        have hln := hl.2.1 l hl'
        rw [hab] at hln
        exact hln (List.mem_append.mpr (.inr (List.mem_cons_of_mem _ (trim_sub hm))))

theorem notesOf_good {block : List PoLine} (hb : GoodBlock block) : (∀ x ∈ notesOf block, WritableNote x) ∧ ∀ x ∈ commentsOf block, WritableComment x := by
  have hg : ∀ c ∈ block.filterMap commentOf, GoodComment c := by
    intro c hc
    obtain ⟨ln, hl, hx⟩ := List.mem_filterMap.mp hc
    cases ln with
    | comment n k s => cases hx; exact hb n k s hl
    | _ => cases hx
  constructor
  · intro x hx
    obtain ⟨c, hc, hx⟩ := List.mem_filterMap.mp hx
    exact note_good (hg c hc) hx
  · intro x hx
    obtain ⟨c, hc, hx⟩ := List.mem_filterMap.mp hx
    exact other_good (hg c hc) hx

/-- What is read can be written. -/
theorem reads_writable {env : Env} {l : List Item} {hdr : Header env.Lang} {forms : Option PluralForms} {us : List PoUnit} {e : Option Err}
    (hg : GoodItems l) (h : Reads env l hdr forms us e) : ∃ c : Cat env.Lang, WritableCat env c forms ∧ c.units = us ∧ c.header.getD (plainHeader env) = hdr := by
  cases h with
  | nothing _ => exact ⟨⟨none, []⟩, ⟨rfl, fun _ h => nomatch h⟩, rfl, rfl⟩
  | @plain u rest us e f r =>
    obtain ⟨block, rfl, h1, h2, _⟩ := first_unit f
    refine ⟨⟨none, u :: us⟩, ⟨rfl, ?_⟩, rfl, rfl⟩
    intro x hx
    rcases List.mem_cons.mp hx with rfl | hx
    · exact entry_writable hg.left h1 h2
    · exact run_writable hg.right r x hx
  | @headed ns cs t rest hdr forms us e f hr hf r =>
    have hw : WritableHeader env hdr ∧ GoodItems rest := by
      generalize hx : FirstOut.header ns cs t rest = o at f
      cases f with
      | header h1 _ _ =>
        cases hx
        have := entry_readable hg.left h1
        exact ⟨header_writable hr this.notes this.comments, hg.right⟩
      | noId _ _ _ =>
        cases hx
        obtain ⟨h1, h2⟩ := notesOf_good hg.left
        exact ⟨header_writable hr h1 h2, hg.right⟩
      | _ => cases hx
    exact ⟨⟨some hdr, us⟩, ⟨⟨hw.1, hf⟩, run_writable hw.2 r⟩, rfl, rfl⟩

theorem lineItems_good {n : Nat} {rs : List (Except IoErr Str)} {l : List Item} (hc : ∀ s, .ok s ∈ rs → '\n' ∉ s) (h : LineItems n rs l) : GoodItems l := by
  induction h with
  | nil => intro _ _ _ h; cases h
  | failed => intro _ _ _ h; simp at h
  | unrecognised _ => intro _ _ _ h; simp at h
  | blank _ _ ih => exact ih fun s hs => hc s (List.mem_cons_of_mem _ hs)
  | line h1 _ _ ih =>
    intro m k c h
    rcases List.mem_cons.mp h with h | h
    · cases h
      exact comment_good (hc _ (List.mem_cons_self ..)) h1
    · exact ih (fun s hs => hc s (List.mem_cons_of_mem _ hs)) m k c h

end Verif
