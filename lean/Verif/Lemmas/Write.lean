import Verif.Spec.Write
import Verif.Props.Layout
import Verif.Props.Lines
import Verif.Props.Values

/-! Reading back what `Spec.Write` writes. -/

namespace Verif
open Spec

/-- The lines `ls`, numbered from `n`, are read as `block`. -/
inductive BlockOf : Nat → List Str → List PoLine → Prop
  | nil {n} : BlockOf n [] []
  | cons {n s ls ln b} : parseLine s n = some ln → ln ≠ .blank → BlockOf (n + 1) ls b → BlockOf n (s :: ls) (ln :: b)

theorem BlockOf.append {n : Nat} {ls ls' : List Str} {b b' : List PoLine} (h : BlockOf n ls b) (h' : BlockOf (n + ls.length) ls' b') :
    BlockOf n (ls ++ ls') (b ++ b') := by
  induction h with
  | nil => exact h'
  | cons h1 h2 _ ih =>
    refine .cons h1 h2 (ih ?_)
    rw [List.length_cons] at h'
    rwa [Nat.add_assoc, Nat.add_comm 1]

theorem BlockOf.one {n : Nat} {s : Str} {ln : PoLine} (h : parseLine s n = some ln) (hb : ln ≠ .blank) : BlockOf n [s] [ln] := .cons h hb .nil

theorem BlockOf.items {n : Nat} {ls : List Str} {b : List PoLine} (h : BlockOf n ls b) (rs : List (Except IoErr Str)) :
    items n (ls.map .ok ++ rs) = b.map .ok ++ items (n + ls.length) rs := by
  induction h with
  | nil => rfl
  | @cons n s ls ln b h1 h2 _ ih =>
    rw [List.map_cons, List.cons_append, Verif.items, h1, List.length_cons, show n + (ls.length + 1) = n + 1 + ls.length by omega]
    cases ln with
    | blank => exact absurd rfl h2
    | _ => simp only [ih]; rfl

/-! ### Fields -/

theorem esc_nl (s : Str) : '\n' ∉ esc s := by
  induction s with
  | nil => simp [esc]
  | cons c s ih =>
    simp only [esc, List.mem_append, not_or]
    refine ⟨?_, ih⟩
    split
    · decide
    · split
      · decide
      · split
        · decide
        · split
          · decide
          · split
            · decide
            · rename_i h1 _ _
              simp only [List.mem_singleton]
              exact fun h => h1 h.symm

theorem kwLine_nl {k : Str} (hk : IsKeyword k) (v : Str) : '\n' ∉ kwLine k v := by
  have := esc_nl v
  have hk' : '\n' ∉ k := fun h => by have := (keyword_chars hk _ h).2; revert this; decide
  simp [kwLine, this, hk']

theorem markOf_marker (o pr : Bool) : ∀ m, markOf o pr = some m → IsMarker m ∧ '\n' ∉ m := by
  intro m h
  cases o <;> cases pr <;> simp [markOf] at h <;> subst h <;> simp [IsMarker]

theorem fieldLine_nl {o pr : Bool} {k : Str} (hk : IsKeyword k) (v : Str) : '\n' ∉ fieldLine o pr k v := by
  unfold fieldLine
  split
  · exact kwLine_nl hk v
  · rename_i m hm
    have := (markOf_marker o pr m hm).2
    simp [this, kwLine_nl hk v]

theorem fieldLine_quoted {o pr : Bool} {k : Str} (hk : IsKeyword k) (v : Str) : QuotedLine (fieldLine o pr k v) (markOf o pr) (some k) (esc v) := by
  refine ⟨fun m hm => (markOf_marker o pr m hm).1, fun _ h => by cases h; exact hk, ?_⟩
  unfold fieldLine
  split
  · rename_i hm
    exact ⟨[], [], [' '], [], by decide, by decide, by decide, by decide, by rw [hm]; simp [kwLine, markerText]⟩
  · rename_i m hm
    exact ⟨[], [' '], [' '], [], by decide, by decide, by decide, by decide, by rw [hm]; simp [kwLine, markerText]⟩

theorem fieldLine_last (o pr : Bool) (k v : Str) : (fieldLine o pr k v).getLast? = some '"' := by
  unfold fieldLine
  split <;> simp [kwLine, List.getLast?_append, List.getLast?_cons]

theorem fieldLine_clean {o pr : Bool} {k : Str} (hk : IsKeyword k) (v : Str) : CleanLine (fieldLine o pr k v) :=
  ⟨fieldLine_nl hk v, by rw [fieldLine_last]; decide⟩

/-- The keyword as the reader sees it. -/
def seenKeyword (pr : Bool) (k : Str) : Str := if pr then '|' :: k else k

theorem field_block {o pr : Bool} {k : Str} (hk : IsKeyword k) (v : Str) (n : Nat) :
    ∃ b, BlockOf n [fieldLine o pr k v] b ∧ Field (seenKeyword pr k) o b v := by
  have h := (C06_line_classification _ n (fieldLine_nl (o := o) (pr := pr) hk v) _).mpr (.keyword (fieldLine_quoted hk v))
  rw [unesc_esc_eq] at h
  refine ⟨_, .one h (by simp), (markOf o pr).getD [], ⟨n, v, [], ?_, by simp⟩, ?_⟩
  · cases o <;> cases pr <;> simp [markOf, taggedKeyword, seenKeyword]
  · cases o <;> cases pr <;> simp [markOf, Tilde]

theorem opt_block {o pr : Bool} {k : Str} (hk : IsKeyword k) (v : Option Str) (n : Nat) :
    ∃ b, BlockOf n (optLine o pr k v) b ∧ OptField (seenKeyword pr k) o b v := by
  cases v with
  | none => exact ⟨[], .nil, .none⟩
  | some v =>
    obtain ⟨b, h1, h2⟩ := field_block (o := o) (pr := pr) hk v n
    exact ⟨b, h1, .some h2⟩

theorem ascii_digits (n : Nat) : ∀ c ∈ Nat.toDigits 10 n, '0' ≤ c ∧ c ≤ '9' := by
  intro c hc
  have := Nat.isDigit_of_mem_toDigits (b := 10) (by omega) (by omega) hc
  simp only [Char.isDigit, Bool.and_eq_true, decide_eq_true_eq] at this
  exact this

theorem isNd_ascii {c : Char} (h : '0' ≤ c ∧ c ≤ '9') : isNd c = true := by
  have h1 : 48 ≤ c.toNat := h.1
  have h2 : c.toNat ≤ 57 := h.2
  unfold isNd ndRanges
  rw [List.any_cons, Bool.or_eq_true]
  left
  simp [h1, h2]

theorem toDigits_head (n : Nat) : (Nat.toDigits 10 n).head? = some '0' → n = 0 := by
  induction n using Nat.strongRecOn with
  | ind n ih =>
    intro h
    by_cases hn : n < 10
    · have key : ∀ m, m < 10 → (Nat.toDigits 10 m).head? = some '0' → m = 0 := by decide
      exact key n hn h
    · exfalso
      rw [Nat.toDigits_of_base_le (by omega) (by omega), List.head?_append] at h
      cases hh : (Nat.toDigits 10 (n / 10)).head? with
      | none => exact Nat.toDigits_ne_nil (List.head?_eq_none_iff.mp hh)
      | some c =>
        rw [hh] at h
        simp at h
        subst h
        have := ih (n / 10) (by omega) hh
        omega

theorem valueKeyword_keyword (i : Nat) : IsKeyword (valueKeyword i) := by
  refine .inr (.inr (.inr (.inr ⟨Nat.toDigits 10 i, ?_, by simp [valueKeyword]⟩)))
  cases hd : Nat.toDigits 10 i with
  | nil => exact absurd hd Nat.toDigits_ne_nil
  | cons d ds =>
    by_cases h0 : d = '0'
    · left
      have := toDigits_head i (by rw [hd, h0]; rfl)
      subst this
      exact hd.symm.trans (by rfl)
    · right
      have hall := ascii_digits i
      rw [hd] at hall
      have h1 := hall d (List.mem_cons_self ..)
      refine ⟨d, ds, rfl, ⟨?_, h1.2⟩, fun c hc => isNd_ascii (hall c (List.mem_cons_of_mem _ hc))⟩
      have h2 : 48 ≤ d.toNat := h1.1
      show 49 ≤ d.toNat
      rcases Nat.lt_or_ge d.toNat 49 with h3 | h3
      · exfalso
        apply h0
        have : d.toNat = '0'.toNat := by show d.toNat = 48; omega
        exact Char.toNat_inj.mp this
      · exact h3

theorem values_block {o : Bool} {hi : Nat} (vs : List Str) (i n : Nat) (h : i + vs.length ≤ hi) :
    ∃ b, BlockOf n (valueLines o i vs) b ∧ ValueFields o hi i b vs := by
  induction vs generalizing i n with
  | nil => exact ⟨[], .nil, .nil⟩
  | cons v vs ih =>
    rw [List.length_cons] at h
    obtain ⟨b, h1, h2⟩ := field_block (o := o) (pr := false) (valueKeyword_keyword i) v n
    obtain ⟨b', h3, h4⟩ := ih (i + 1) (n + 1) (by omega)
    exact ⟨b ++ b', h1.append h3, .cons (Nat.le_refl i) (by omega) h2 h4⟩

/-! ### Comments -/

/-- The lines are comment lines with these kinds and contents. -/
inductive CommentsOf : List Str → List (Char × Str) → Prop
  | nil : CommentsOf [] []
  | cons {s ls c cs} : (∀ n, parseLine s n = some (.comment n c.1 c.2)) → CommentsOf ls cs → CommentsOf (s :: ls) (c :: cs)

theorem CommentsOf.append {ls ls' : List Str} {cs cs' : List (Char × Str)} (h : CommentsOf ls cs) (h' : CommentsOf ls' cs') :
    CommentsOf (ls ++ ls') (cs ++ cs') := by
  induction h with
  | nil => exact h'
  | cons h1 _ ih => exact .cons h1 ih

theorem CommentsOf.map {α : Type} {f : α → Str} {g : α → Char × Str} {xs : List α}
    (h : ∀ x ∈ xs, ∀ n, parseLine (f x) n = some (.comment n (g x).1 (g x).2)) : CommentsOf (xs.map f) (xs.map g) := by
  induction xs with
  | nil => exact .nil
  | cons x xs ih => exact .cons (h x (List.mem_cons_self ..)) (ih fun y hy => h y (List.mem_cons_of_mem _ hy))

theorem CommentsOf.block {ls : List Str} {cs : List (Char × Str)} (h : CommentsOf ls cs) (n : Nat) :
    ∃ ns : List (Nat × Char × Str), ns.map Prod.snd = cs ∧ BlockOf n ls (ns.map commentLine) := by
  induction h generalizing n with
  | nil => exact ⟨[], rfl, .nil⟩
  | @cons s ls c cs h1 _ ih =>
    obtain ⟨ns, h2, h3⟩ := ih (n + 1)
    exact ⟨(n, c) :: ns, by rw [List.map_cons, h2], .cons (h1 n) (by simp [commentLine]) h3⟩

/-- A line with a kind that is no marker and no white space cannot be a quoted line. -/
theorem not_quoted_kind {k : Char} {r : Str} (hw : isWhite k = false) (h1 : k ≠ '~') (h2 : k ≠ '|') (h3 : k ≠ 'm') (h4 : k ≠ '"') (m kw : Option Str) (raw : Str) :
    ¬ QuotedLine ('#' :: k :: r) m kw raw := by
  rintro ⟨hm, hk, w1, w2, w3, w4, hw1, hw2, hw3, hw4, h⟩
  cases w1 with
  | cons c w1 =>
    rw [List.cons_append] at h
    injection h with e _
    have := hw1 c (List.mem_cons_self ..)
    rw [← e] at this
    revert this; decide
  | nil =>
    rw [List.nil_append] at h
    -- after the marker: white space, keyword, quote
    have hrest : ∀ {y : Str}, k :: r = w2 ++ (kw.getD [] ++ (w3 ++ '"' :: y)) → False := by
      intro y h
      cases w2 with
      | cons c w2 =>
        injection h with e _
        rw [e, hw2 c (List.mem_cons_self ..)] at hw
        cases hw
      | nil =>
        rw [List.nil_append] at h
        cases kw with
        | some kw =>
          obtain ⟨k', rfl⟩ := keyword_head (hk kw rfl)
          simp only [Option.getD_some, List.cons_append] at h
          injection h with e _
          exact h3 e
        | none =>
          simp only [Option.getD_none, List.nil_append] at h
          cases w3 with
          | cons c w3 =>
            injection h with e _
            rw [e, hw3 c (List.mem_cons_self ..)] at hw
            cases hw
          | nil =>
            injection h with e _
            exact h4 e
    cases m with
    | none =>
      rw [markerText, List.nil_append] at h
      -- then `#` itself would have to be white space, `m` or a quote
      cases w2 with
      | cons c w2 =>
        injection h with e _
        have := hw2 c (List.mem_cons_self ..)
        rw [← e] at this
        revert this; decide
      | nil =>
        rw [List.nil_append] at h
        cases kw with
        | some kw =>
          obtain ⟨k', rfl⟩ := keyword_head (hk kw rfl)
          simp only [Option.getD_some, List.cons_append] at h
          injection h with e _
          revert e; decide
        | none =>
          simp only [Option.getD_none, List.nil_append] at h
          cases w3 with
          | cons c w3 =>
            injection h with e _
            have := hw3 c (List.mem_cons_self ..)
            rw [← e] at this
            revert this; decide
          | nil =>
            injection h with e _
            revert e; decide
    | some m =>
      rw [markerText, List.cons_append] at h
      injection h with _ h
      rcases hm m rfl with rfl | rfl | rfl | rfl
      · exact hrest h
      · injection h with e _; exact h1 e
      · injection h with e _; exact h2 e
      · injection h with e _; exact h1 e

theorem parseLine_hash {k : Char} {r : Str} (hn : '\n' ∉ '#' :: k :: r) (hq : ∀ m kw raw, ¬ QuotedLine ('#' :: k :: r) m kw raw) (n : Nat) :
    parseLine ('#' :: k :: r) n = some (.comment n k (r.dropWhile isWhite)) :=
  (C06_line_classification _ n hn _).mpr (.comment (w := []) (r := k :: r) (by simp [White]) rfl hq)

theorem dropWhile_sp (s : Str) : (' ' :: s).dropWhile isWhite = s.dropWhile isWhite := by
  rw [List.dropWhile_cons, if_pos (by decide)]

/-- Kind and content of the line of a note. -/
def notePair (n : Note) : Char × Str :=
  match n.origin with
  | .developer => ('.', n.value)
  | .translator => (' ', n.value)

theorem note_line {x : Note} (h : WritableNote x) (n : Nat) : parseLine (noteLine x) n = some (.comment n (notePair x).1 (notePair x).2) := by
  obtain ⟨⟨h1, h2⟩, h3⟩ := h
  obtain ⟨o, v⟩ := x
  cases o with
  | developer =>
    have := parseLine_hash (k := '.') (r := ' ' :: v) (by simpa using h1)
      (not_quoted_kind (by decide) (by decide) (by decide) (by decide) (by decide)) n
    rw [dropWhile_sp, dropWhile_text h2] at this
    exact this
  | translator =>
    have := parseLine_hash (k := ' ') (r := v) (by simpa using h1) (h3 rfl) n
    rw [dropWhile_text h2] at this
    exact this

/-- Kind and content of the line of another comment. -/
def otherPair (c : Comment) : Char × Str := (c.kind, c.content)

theorem other_line {x : Comment} (h : WritableComment x) (n : Nat) : parseLine (otherLine x) n = some (.comment n (otherPair x).1 (otherPair x).2) := by
  obtain ⟨⟨h0, h2⟩, h1, _, _, _, _, h3⟩ := h
  have := parseLine_hash (k := x.kind) (r := ' ' :: x.content) (by simp [h0, Ne.symm h1]) h3 n
  rw [dropWhile_sp, dropWhile_text h2] at this
  exact this

/-- Kind and content of the line of the locations. -/
def locationPairs (ls : List Str) : List (Char × Str) := if ls = [] then [] else [(':', List.intercalate [' '] ls)]

/-- Kind and content of the line of the flags. -/
def flagPairs (fs : List Str) : List (Char × Str) := if fs = [] then [] else [(',', List.intercalate [',', ' '] fs)]

theorem intercalate_cons2 (sep a b : Str) (l : List Str) : List.intercalate sep (a :: b :: l) = a ++ (sep ++ List.intercalate sep (b :: l)) := by
  simp [List.intercalate]

theorem intercalate_one (sep a : Str) : List.intercalate sep [a] = a := by simp [List.intercalate]

theorem mem_intercalate {sep : Str} {c : Char} {l : List Str} (h : c ∈ List.intercalate sep l) : c ∈ sep ∨ ∃ x ∈ l, c ∈ x := by
  induction l with
  | nil => simp [List.intercalate] at h
  | cons a l ih =>
    cases l with
    | nil => rw [intercalate_one] at h; exact .inr ⟨a, by simp, h⟩
    | cons b l =>
      rw [intercalate_cons2, List.mem_append, List.mem_append] at h
      rcases h with h | h | h
      · exact .inr ⟨a, by simp, h⟩
      · exact .inl h
      · rcases ih h with h | ⟨x, hx, h⟩
        · exact .inl h
        · exact .inr ⟨x, List.mem_cons_of_mem _ hx, h⟩

theorem solid_nl {l : Str} (h : Solid l) : '\n' ∉ l := fun hm => by have := h _ hm; revert this; decide

theorem location_lines {ls : List Str} (h : ∀ l ∈ ls, WritableLocation l) : CommentsOf (locationLines ls) (locationPairs ls) := by
  unfold locationLines locationPairs
  by_cases he : ls = []
  · simp only [he, if_true]; exact .nil
  · simp only [he, if_false]
    refine .cons (fun n => ?_) .nil
    have hn : '\n' ∉ List.intercalate [' '] ls := by
      intro hm
      rcases mem_intercalate hm with hm | ⟨x, hx, hm⟩
      · revert hm; decide
      · exact solid_nl (h x hx).2 hm
    have := parseLine_hash (k := ':') (r := ' ' :: List.intercalate [' '] ls) (by simpa using hn)
      (not_quoted_kind (by decide) (by decide) (by decide) (by decide) (by decide)) n
    rw [dropWhile_sp, dropWhile_text] at this
    · exact this
    · intro c hc
      cases ls with
      | nil => exact absurd rfl he
      | cons a l =>
        obtain ⟨hne, hs⟩ := h a (List.mem_cons_self ..)
        cases a with
        | nil => exact absurd rfl hne
        | cons d a =>
          have : (List.intercalate [' '] ((d :: a) :: l)).head? = some d := by
            cases l with
            | nil => rw [intercalate_one]; rfl
            | cons b l => rw [intercalate_cons2]; rfl
          rw [this] at hc
          cases hc
          exact hs _ (List.mem_cons_self ..)

theorem flag_lines {fs : List Str} (h : ∀ f ∈ fs, WritableFlag f) : CommentsOf (flagLines fs) (flagPairs fs) := by
  unfold flagLines flagPairs
  by_cases he : fs = []
  · simp only [he, if_true]; exact .nil
  · simp only [he, if_false]
    refine .cons (fun n => ?_) .nil
    have hn : '\n' ∉ List.intercalate [',', ' '] fs := by
      intro hm
      rcases mem_intercalate hm with hm | ⟨x, hx, hm⟩
      · revert hm; decide
      · exact (h x hx).2.2 hm
    have := parseLine_hash (k := ',') (r := ' ' :: List.intercalate [',', ' '] fs) (by simpa using hn)
      (not_quoted_kind (by decide) (by decide) (by decide) (by decide) (by decide)) n
    rw [dropWhile_sp, dropWhile_text] at this
    · exact this
    · intro c hc
      cases fs with
      | nil => exact absurd rfl he
      | cons a l =>
        have ht := (h a (List.mem_cons_self ..)).1.1
        cases a with
        | nil =>
          cases l with
          | nil => rw [intercalate_one] at hc; cases hc
          | cons b l => rw [intercalate_cons2] at hc; cases hc; decide
        | cons d a =>
          have : (List.intercalate [',', ' '] ((d :: a) :: l)).head? = some d := by
            cases l with
            | nil => rw [intercalate_one]; rfl
            | cons b l => rw [intercalate_cons2]; rfl
          rw [this] at hc
          cases hc
          exact ht _ rfl

theorem locations_items {ls : List Str} (h : ∀ l ∈ ls, WritableLocation l) : (splitP isWhite (List.intercalate [' '] ls)).filter (fun w => w ≠ []) = ls := by
  induction ls with
  | nil => rfl
  | cons a l ih =>
    obtain ⟨hne, hs⟩ := h a (List.mem_cons_self ..)
    have hf : ∀ c ∈ a, isWhite c = false := hs
    cases l with
    | nil =>
      rw [intercalate_one, splitP_free hf]
      simp [hne]
    | cons b l =>
      rw [intercalate_cons2, List.singleton_append, splitP_append hf (by decide), List.filter_cons, if_pos (by simpa using hne),
        ih fun x hx => h x (List.mem_cons_of_mem _ hx)]

theorem trimmed_trim {f : Str} (h : Trimmed f) : trim f = f := by
  have h1 : trimStart f = f := dropWhile_text h.1
  rw [trim, h1]
  exact trimEnd_of_last h.2

theorem trim_sp {f : Str} (h : Trimmed f) : trim (' ' :: f) = f := by
  have h1 : trimStart (' ' :: f) = f := (dropWhile_sp f).trans (dropWhile_text h.1)
  rw [trim, h1]
  exact trimEnd_of_last h.2

theorem flags_items {fs : List Str} (h : ∀ f ∈ fs, WritableFlag f) (hne : fs ≠ []) :
    (splitP (· == ',') (List.intercalate [',', ' '] fs)).map trim = fs ∧ (splitP (· == ',') (' ' :: List.intercalate [',', ' '] fs)).map trim = fs := by
  induction fs with
  | nil => exact absurd rfl hne
  | cons a l ih =>
    obtain ⟨ht, hc, _⟩ := h a (List.mem_cons_self ..)
    have hf : ∀ c ∈ a, (c == ',') = false := by
      intro c hm
      simp only [beq_eq_false_iff_ne]
      rintro rfl
      exact hc hm
    have hf' : ∀ c ∈ ' ' :: a, (c == ',') = false := by
      intro c hm
      rcases List.mem_cons.mp hm with rfl | hm
      · decide
      · exact hf c hm
    cases l with
    | nil =>
      rw [intercalate_one, splitP_free hf, splitP_free hf']
      simp [trimmed_trim ht, trim_sp ht]
    | cons b l =>
      have ih' := (ih (fun x hx => h x (List.mem_cons_of_mem _ hx)) (by simp)).2
      rw [intercalate_cons2, List.cons_append, List.singleton_append, splitP_append hf (by decide), ← List.cons_append, splitP_append hf' (by decide)]
      simp only [List.map_cons, ih', trimmed_trim ht, trim_sp ht, and_self]

theorem distinct_nodup {fs : List Str} (h : fs.Nodup) : distinct fs = fs := by
  have key : ∀ (fs acc : List Str), (acc ++ fs).Nodup → fs.foldl (fun acc f => if f ∈ acc then acc else acc ++ [f]) acc = acc ++ fs := by
    intro fs
    induction fs with
    | nil => intro acc _; simp
    | cons f fs ih =>
      intro acc h
      have hf : f ∉ acc := by
        intro hm
        rw [List.nodup_append] at h
        exact h.2.2 f hm f (by simp) rfl
      rw [List.foldl_cons, if_neg hf, ih (acc ++ [f]) (by simpa using h)]
      simp
  have := key fs [] (by simpa using h)
  rwa [List.nil_append] at this

/-- A message that is read back as an entry, possibly that of the header. -/
def ReadableMessage (forms : Option PluralForms) : Message → Prop
  | .simple _ t => t ≠ some []
  | .plural p => p.values ≠ [] ∧ p.values.length ≤ nplurals forms ∧ p.forms = forms

/-- A unit that is read back as an entry, possibly that of the header. -/
structure ReadableUnit (forms : Option PluralForms) (u : PoUnit) : Prop where
  notes : ∀ n ∈ u.notes, WritableNote n
  comments : ∀ c ∈ u.comments, WritableComment c
  locations : ∀ l ∈ u.locations, WritableLocation l
  flags : ∀ f ∈ u.flags, WritableFlag f
  distinct : u.flags.Nodup
  message : ReadableMessage forms u.message
  previous : WritablePrevious forms u.prevMessage
  state : StateRule u

theorem Spec.WritableUnit.readable {forms : Option PluralForms} {u : PoUnit} (h : WritableUnit forms u) : ReadableUnit forms u := by
  refine ⟨h.notes, h.comments, h.locations, h.flags, h.distinct, ?_, h.previous, h.state⟩
  have := h.message
  revert this
  cases u.message with
  | simple id t => exact fun h => h.2
  | plural p => exact id

/-- Kinds and contents of all comment lines of a unit. -/
def unitPairs (notes : List Note) (comments : List Comment) (locations flags : List Str) : List (Char × Str) :=
  notes.map notePair ++ (comments.map otherPair ++ (locationPairs locations ++ flagPairs flags))

theorem notes_filter (notes : List Note) : (notes.map notePair).filterMap noteItem = notes ∧ (notes.map notePair).filterMap otherItem = [] ∧
    (notes.map notePair).flatMap flagItems = [] ∧ (notes.map notePair).flatMap locationItems = [] := by
  induction notes with
  | nil => exact ⟨rfl, rfl, rfl, rfl⟩
  | cons x xs ih =>
    obtain ⟨h1, h2, h3, h4⟩ := ih
    obtain ⟨o, v⟩ := x
    cases o <;> simp [notePair, noteItem, otherItem, flagItems_eq, locationItems_eq] at h1 h2 h3 h4 ⊢ <;> exact ⟨h1, h2, h3, h4⟩

theorem others_filter {cs : List Comment} (h : ∀ c ∈ cs, WritableComment c) : (cs.map otherPair).filterMap noteItem = [] ∧ (cs.map otherPair).filterMap otherItem = cs ∧
    (cs.map otherPair).flatMap flagItems = [] ∧ (cs.map otherPair).flatMap locationItems = [] := by
  induction cs with
  | nil => exact ⟨rfl, rfl, rfl, rfl⟩
  | cons x xs ih =>
    obtain ⟨h1, h2, h3, h4⟩ := ih fun c hc => h c (List.mem_cons_of_mem _ hc)
    obtain ⟨_, _, g1, g2, g3, g4, _⟩ := h x (List.mem_cons_self ..)
    refine ⟨?_, ?_, ?_, ?_⟩
    · rw [List.map_cons, List.filterMap_cons_none (by simp [noteItem, otherPair, g3, g4]), h1]
    · rw [List.map_cons, List.filterMap_cons_some (b := x) (by simp [otherItem, otherPair, g1, g2, g3, g4]), h2]
    · rw [List.map_cons, List.flatMap_cons, h3]; simp [flagItems_eq, otherPair, g1]
    · rw [List.map_cons, List.flatMap_cons, h4]; simp [locationItems_eq, otherPair, g2]

theorem pairs_data {u : PoUnit} {forms : Option PluralForms} (h : ReadableUnit forms u) : CommentData (unitPairs u.notes u.comments u.locations u.flags) u := by
  obtain ⟨n1, n2, n3, n4⟩ := notes_filter u.notes
  obtain ⟨o1, o2, o3, o4⟩ := others_filter h.comments
  have l1 : (locationPairs u.locations).filterMap noteItem = [] := by unfold locationPairs; split <;> simp [noteItem]
  have l2 : (locationPairs u.locations).filterMap otherItem = [] := by unfold locationPairs; split <;> simp [otherItem]
  have l3 : (locationPairs u.locations).flatMap flagItems = [] := by unfold locationPairs; split <;> simp [flagItems_eq]
  have l4 : (locationPairs u.locations).flatMap locationItems = u.locations := by
    unfold locationPairs
    split
    · rename_i he; rw [he]; rfl
    · rw [List.flatMap_cons, List.flatMap_nil, List.append_nil, locationItems_eq, if_pos rfl]
      exact locations_items h.locations
  have f1 : (flagPairs u.flags).filterMap noteItem = [] := by unfold flagPairs; split <;> simp [noteItem]
  have f2 : (flagPairs u.flags).filterMap otherItem = [] := by unfold flagPairs; split <;> simp [otherItem]
  have f3 : (flagPairs u.flags).flatMap flagItems = u.flags := by
    unfold flagPairs
    split
    · rename_i he; rw [he]; rfl
    · rename_i he
      rw [List.flatMap_cons, List.flatMap_nil, List.append_nil, flagItems_eq, if_pos rfl]
      exact (flags_items h.flags he).1
  have f4 : (flagPairs u.flags).flatMap locationItems = [] := by unfold flagPairs; split <;> simp [locationItems_eq]
  refine ⟨?_, ?_, ?_, ?_⟩ <;> unfold unitPairs
  · simp only [List.flatMap_append, n3, o3, l3, f3, List.nil_append]
    exact (distinct_nodup h.distinct).symm
  · simp only [List.flatMap_append, n4, o4, l4, f4, List.nil_append, List.append_nil]
  · simp only [List.filterMap_append, n1, o1, l1, f1, List.append_nil]
  · simp only [List.filterMap_append, n2, o2, l2, f2, List.nil_append, List.append_nil]

/-! ### Units -/

theorem kw_msgctxt : IsKeyword (c!"msgctxt") := .inl rfl
theorem kw_msgid : IsKeyword (c!"msgid") := .inr (.inl rfl)
theorem kw_msgid_plural : IsKeyword (c!"msgid_plural") := .inr (.inr (.inl rfl))
theorem kw_msgstr : IsKeyword (c!"msgstr") := .inr (.inr (.inr (.inl rfl)))

theorem unit_block {forms : Option PluralForms} {u : PoUnit} (h : ReadableUnit forms u) (n : Nat) : ∃ b, BlockOf n (unitLines u) b ∧ Entry forms b u := by
  have hc : CommentsOf (u.notes.map noteLine ++ (u.comments.map otherLine ++ (locationLines u.locations ++ flagLines u.flags)))
      (unitPairs u.notes u.comments u.locations u.flags) :=
    (CommentsOf.map fun x hx => note_line (h.notes x hx)).append ((CommentsOf.map fun x hx => other_line (h.comments x hx)).append
      ((location_lines h.locations).append (flag_lines h.flags)))
  obtain ⟨cs, hcs, b0⟩ := hc.block n
  have hdata : CommentData (cs.map Prod.snd) u := by rw [hcs]; exact pairs_data h
  have hlines : unitLines u = (u.notes.map noteLine ++ (u.comments.map otherLine ++ (locationLines u.locations ++ flagLines u.flags))) ++
      (optLine u.obsolete true (c!"msgctxt") u.prevContext ++ (previousLines u.obsolete u.prevMessage ++
        (optLine u.obsolete false (c!"msgctxt") u.context ++ messageLines u.obsolete u.message))) := by
    simp [unitLines]
  rw [hlines]
  generalize hN : n + (u.notes.map noteLine ++ (u.comments.map otherLine ++ (locationLines u.locations ++ flagLines u.flags))).length = N
  obtain ⟨b1, g1, f1⟩ := opt_block (o := u.obsolete) (pr := true) kw_msgctxt u.prevContext N
  generalize hN1 : N + (optLine u.obsolete true (c!"msgctxt") u.prevContext).length = N1
  -- the previous message
  have hprev : ∃ b2 b3 pid ppl, BlockOf N1 (previousLines u.obsolete u.prevMessage) (b2 ++ b3) ∧ OptField (c!"|msgid") u.obsolete b2 pid ∧
      OptField (c!"|msgid_plural") u.obsolete b3 ppl ∧ (pid = none → ppl = none) ∧ u.prevMessage = previousMessage forms pid ppl := by
    have hp := h.previous
    generalize u.prevMessage = pm at hp
    cases pm with
    | simple id t =>
      have : t = none := hp
      subst this
      by_cases hid : id = []
      · subst hid
        exact ⟨[], [], none, none, .nil, .none, .none, fun _ => rfl, rfl⟩
      · obtain ⟨b, e1, e2⟩ := field_block (o := u.obsolete) (pr := true) kw_msgid id N1
        refine ⟨b, [], some id, none, ?_, .some e2, .none, by simp, rfl⟩
        rw [previousLines, if_neg hid, List.append_nil]
        exact e1
    | plural p =>
      obtain ⟨hv, hf⟩ : p.values = [] ∧ p.forms = forms := hp
      obtain ⟨b, e1, e2⟩ := field_block (o := u.obsolete) (pr := true) kw_msgid p.singular N1
      obtain ⟨b', e3, e4⟩ := field_block (o := u.obsolete) (pr := true) kw_msgid_plural p.plural (N1 + 1)
      refine ⟨b, b', some p.singular, some p.plural, e1.append e3, .some e2, .some e4, by simp, ?_⟩
      obtain ⟨a, c, vs, f⟩ := p
      simp only at hv hf
      subst hv hf
      rfl
  obtain ⟨b2, b3, pid, ppl, g2, f2, f3, q3, hpm⟩ := hprev
  generalize hN2 : N1 + (previousLines u.obsolete u.prevMessage).length = N2
  obtain ⟨b4, g4, f4⟩ := opt_block (o := u.obsolete) (pr := false) kw_msgctxt u.context N2
  generalize hN3 : N2 + (optLine u.obsolete false (c!"msgctxt") u.context).length = N3
  have hmsg : ∃ b5 b6 b7 id idPl, BlockOf N3 (messageLines u.obsolete u.message) (b5 ++ (b6 ++ b7)) ∧ Field (c!"msgid") u.obsolete b5 id ∧
      OptField (c!"msgid_plural") u.obsolete b6 idPl ∧ TextFields forms u.obsolete id idPl b7 u.message := by
    have hm := h.message
    generalize u.message = m at hm
    cases m with
    | simple id t =>
      obtain ⟨b5, e1, e2⟩ := field_block (o := u.obsolete) (pr := false) kw_msgid id N3
      obtain ⟨b7, e3, e4⟩ := field_block (o := u.obsolete) (pr := false) kw_msgstr (t.getD []) (N3 + 1)
      refine ⟨b5, [], b7, id, none, e1.append e3, e2, .none, ?_⟩
      have := TextFields.simple (forms := forms) (id := id) e4
      cases t with
      | none => exact this
      | some t =>
        have ht : t ≠ [] := fun he => hm (by rw [he])
        simpa [ht] using this
    | plural p =>
      obtain ⟨hv, hl, hf⟩ : p.values ≠ [] ∧ p.values.length ≤ nplurals forms ∧ p.forms = forms := hm
      obtain ⟨b5, e1, e2⟩ := field_block (o := u.obsolete) (pr := false) kw_msgid p.singular N3
      obtain ⟨b6, e3, e4⟩ := field_block (o := u.obsolete) (pr := false) kw_msgid_plural p.plural (N3 + 1)
      obtain ⟨b7, e5, e6⟩ := values_block (o := u.obsolete) (hi := nplurals forms) p.values 0 (N3 + 1 + 1) (by omega)
      refine ⟨b5, b6, b7, p.singular, some p.plural, e1.append (e3.append e5), e2, .some e4, ?_⟩
      have := TextFields.plural (id := p.singular) (pl := p.plural) e6 hv
      obtain ⟨a, c, vs, f⟩ := p
      simp only at hf
      subst hf
      exact this
  obtain ⟨b5, b6, b7, id, idPl, g7, f5, f6, f7⟩ := hmsg
  refine ⟨cs.map commentLine ++ (b1 ++ (b2 ++ (b3 ++ (b4 ++ (b5 ++ (b6 ++ b7)))))), ?_, cs, b1, b2, b3, b4, b5, b6, b7, pid, ppl, id, idPl, rfl, f1, f2, f3, q3, f4,
    f5, f6, f7, hpm, hdata, h.state⟩
  refine b0.append ?_
  rw [hN]
  refine g1.append ?_
  rw [hN1, ← List.append_assoc b2]
  refine g2.append ?_
  rw [hN2]
  refine g4.append ?_
  rw [hN3]
  exact g7

/-! ### Whole catalogues -/

theorem fixed_not_value {k : Str} (hk : k ∈ [c!"msgctxt", c!"msgid", c!"msgid_plural", c!"msgstr", c!"|msgctxt", c!"|msgid", c!"|msgid_plural"]) (j : Nat) :
    k ≠ valueKeyword j := by
  rintro rfl
  simp [valueKeyword] at hk

theorem field_fresh {kw : Str} {o : Bool} {b : List PoLine} {v : Str} (h : Field kw o b v) (hk : ∀ j, kw ≠ valueKeyword j) (r : List Item) : FreshStart (b.map .ok ++ r) := by
  obtain ⟨p, ⟨n, s, cs, rfl, rfl⟩, _⟩ := h
  exact .inr ⟨_, _, rfl, .inr ⟨_, _, _, _, rfl, hk⟩⟩

theorem opt_fresh {kw : Str} {o : Bool} {b : List PoLine} {v : Option Str} (h : OptField kw o b v) (hk : ∀ j, kw ≠ valueKeyword j) {r : List Item} (hr : FreshStart r) :
    FreshStart (b.map .ok ++ r) := by
  cases h with
  | none => exact hr
  | some h => exact field_fresh h hk r

theorem entry_fresh {forms : Option PluralForms} {b : List PoLine} {u : PoUnit} (h : Entry forms b u) (r : List Item) : FreshStart (b.map .ok ++ r) := by
  obtain ⟨cs, b1, b2, b3, b4, b5, b6, b7, pid, ppl, id, idPl, rfl, f1, f2, f3, _, f4, f5, _⟩ := h
  cases cs with
  | cons c cs => exact .inr ⟨_, _, rfl, .inl ⟨c, rfl⟩⟩
  | nil =>
    simp only [List.map_nil, List.nil_append, List.map_append, List.append_assoc]
    exact opt_fresh f1 (fixed_not_value (by simp)) (opt_fresh f2 (fixed_not_value (by simp)) (opt_fresh f3 (fixed_not_value (by simp))
      (opt_fresh f4 (fixed_not_value (by simp)) (field_fresh f5 (fixed_not_value (by simp)) _))))

/-- A unit is written so that it is read back, and what follows can be read on its own. -/
theorem unit_items {forms : Option PluralForms} {u : PoUnit} (h : ReadableUnit forms u) (n : Nat) (rs : List (Except IoErr Str)) :
    ∃ b, Entry forms b u ∧ items n ((unitLines u ++ [[]]).map .ok ++ rs) = b.map .ok ++ items (n + (unitLines u).length + 1) rs := by
  obtain ⟨b, h1, h2⟩ := unit_block h n
  refine ⟨b, h2, ?_⟩
  rw [List.map_append, List.append_assoc, h1.items]
  rfl

theorem units_fresh {forms : Option PluralForms} {us : List PoUnit} (h : ∀ u ∈ us, WritableUnit forms u) (n : Nat) :
    FreshStart (items n ((us.flatMap fun u => unitLines u ++ [[]]).map .ok)) := by
  cases us with
  | nil => exact .inl rfl
  | cons u us =>
    rw [List.flatMap_cons, List.map_append]
    obtain ⟨b, h1, h2⟩ := unit_items (h u (List.mem_cons_self ..)).readable n ((us.flatMap fun u => unitLines u ++ [[]]).map .ok)
    rw [h2]
    exact entry_fresh h1 _

theorem writable_source {forms : Option PluralForms} {m : Message} (h : WritableMessage forms m) : HasSource m := by
  cases m with
  | simple id t => exact h.1
  | plural p => trivial

theorem units_run {forms : Option PluralForms} {us : List PoUnit} (h : ∀ u ∈ us, WritableUnit forms u) (n : Nat) :
    Run forms (items n ((us.flatMap fun u => unitLines u ++ [[]]).map .ok)) us none := by
  induction us generalizing n with
  | nil =>
    refine .stop (l := []) (Stops.endsInHead (o := false) (block := []) ⟨[], [], [], [], [], none, none, none, none, rfl, .none, .none, .none, fun _ => rfl, .none⟩)
  | cons u us ih =>
    have hu := h u (List.mem_cons_self ..)
    have hus : ∀ u ∈ us, WritableUnit forms u := fun u hu => h u (List.mem_cons_of_mem _ hu)
    rw [List.flatMap_cons, List.map_append]
    obtain ⟨b, h1, h2⟩ := unit_items hu.readable n ((us.flatMap fun u => unitLines u ++ [[]]).map .ok)
    rw [h2]
    exact .entry h1 (writable_source hu.message) ((ends_iff h1).mpr (entryEnd_fresh (units_fresh hus _))) (ih hus _)

/-! ### The header -/

/-- The header as an entry. -/
def headerUnit {L : Type} (h : Header L) : PoUnit :=
  { PoUnit.default with
    message := .simple [] (if headerText h.properties = [] then none else some (headerText h.properties))
    notes := h.notes
    comments := h.comments
    state := if headerText h.properties = [] then .empty else .final }

theorem headerUnit_lines {L : Type} (h : Header L) : unitLines (headerUnit h) = headerLines h := by
  unfold unitLines headerLines headerUnit
  by_cases ht : headerText h.properties = [] <;>
    simp [ht, PoUnit.default, Message.default, locationLines, flagLines, optLine, previousLines, messageLines, fieldLine, markOf]

theorem headerUnit_readable {env : Env} {h : Header env.Lang} (w : WritableHeader env h) : ReadableUnit none (headerUnit h) := by
  refine ⟨w.notes, w.comments, by simp [headerUnit, PoUnit.default], by simp [headerUnit, PoUnit.default], by simp [headerUnit, PoUnit.default], ?_, rfl, ?_⟩
  · show _ ≠ _
    split <;> simp_all
  · by_cases ht : headerText h.properties = []
    · constructor <;> simp [headerUnit, ht, PoUnit.default, HasText]
    · constructor <;> simp [headerUnit, ht, PoUnit.default, HasText]

theorem takeWhile_sp (v : Str) : v.takeWhile (· == ' ') = List.replicate (v.takeWhile (· == ' ')).length ' ' := by
  refine List.eq_replicate_iff.mpr ⟨rfl, fun c hc => ?_⟩
  have := List.all_takeWhile (p := (· == ' ')) (l := v)
  rw [List.all_eq_true] at this
  simpa using this c hc

/-- A value is the spaces in front, the middle and the spaces at the end. -/
theorem value_parts (v : Str) : v = List.replicate (v.takeWhile (· == ' ')).length ' ' ++ (middle v ++
    List.replicate ((v.dropWhile (· == ' ')).reverse.takeWhile (· == ' ')).length ' ') := by
  rw [← takeWhile_sp]
  have h : v.dropWhile (· == ' ') = middle v ++ List.replicate ((v.dropWhile (· == ' ')).reverse.takeWhile (· == ' ')).length ' ' := by
    rw [← List.reverse_inj, List.reverse_append, List.reverse_replicate, ← takeWhile_sp, middle, List.reverse_reverse]
    exact List.takeWhile_append_dropWhile.symm
  rw [← h]
  exact List.takeWhile_append_dropWhile.symm

theorem intercalate_lead (l : List Str) (hl : l ≠ []) : ∀ i, List.intercalate [' '] (List.replicate i [] ++ l) = List.replicate i ' ' ++ List.intercalate [' '] l
  | 0 => rfl
  | i + 1 => by
    have h : List.replicate i [] ++ l ≠ [] := by simp [hl]
    rw [List.replicate_succ, List.cons_append]
    cases hh : List.replicate i [] ++ l with
    | nil => exact absurd hh h
    | cons a r => rw [intercalate_cons2, ← hh, intercalate_lead l hl i]; rfl

theorem intercalate_trail (a : Str) : ∀ j, List.intercalate [' '] (a :: List.replicate j []) = a ++ List.replicate j ' '
  | 0 => by simp [intercalate_one]
  | j + 1 => by
    rw [List.replicate_succ, intercalate_cons2, intercalate_trail [] j]
    rfl

theorem pieces_join (v : Str) : List.intercalate [' '] (pieces v) = v := by
  unfold pieces
  rw [List.map_const', List.map_const', intercalate_lead _ (by simp), intercalate_trail]
  exact (value_parts v).symm

theorem pieces_ne (v : Str) : pieces v ≠ [] := by simp [pieces]

theorem pieces_mem {v x : Str} (h : x ∈ pieces v) : x = [] ∨ x = middle v := by
  unfold pieces at h
  rw [List.mem_append, List.mem_cons, List.mem_map, List.mem_map] at h
  rcases h with ⟨_, _, h⟩ | h | ⟨_, _, h⟩
  · exact .inl h.symm
  · exact .inr h
  · exact .inl h.symm

theorem middle_mem {v : Str} {c : Char} (h : c ∈ middle v) : c ∈ v := by
  rw [value_parts v]; simp [h]

theorem trimmed_nil : Trimmed [] := ⟨by simp, by simp⟩

theorem piece_ok {p : Str × Str} (h : WritableProperty p) {x : Str} (hx : x ∈ pieces p.2) : Trimmed x ∧ '\n' ∉ x := by
  obtain ⟨_, _, _, h1, h2⟩ := h
  rcases pieces_mem hx with rfl | rfl
  · exact ⟨trimmed_nil, by simp⟩
  · exact ⟨h1, fun hm => h2 (middle_mem hm)⟩

theorem headerText_lines {props : List (Str × Str)} (h : ∀ p ∈ props, WritableProperty p) : IsLines (headerText props) (propertyLines props ++ [[]]) := by
  refine ⟨by simp, ?_, ?_⟩
  · intro l hl
    rcases List.mem_append.mp hl with hl | hl
    · obtain ⟨p, hp, hl⟩ := List.mem_flatMap.mp hl
      obtain ⟨x, hx, rfl⟩ := List.mem_map.mp hl
      have h1 := (h p hp).2.2.1
      have h2 := (piece_ok (h p hp) hx).2
      simp [propertyLine, h1, h2]
    · rw [List.mem_singleton.mp hl]; simp
  · clear h
    unfold headerText
    induction propertyLines props with
    | nil => rfl
    | cons l ls ih =>
      rw [List.flatMap_cons, ih, List.cons_append]
      cases ls with
      | nil => simp [List.intercalate]
      | cons l' ls => rw [List.cons_append, intercalate_cons2]; simp

theorem property_key {k0 x : Str} (h1 : Trimmed k0) (h2 : ':' ∉ k0) (h3 : Trimmed x) {k v : Str} : KeyValue (propertyLine k0 x) k v ↔ k = k0 ∧ v = x := by
  rw [keyValue_iff]
  have : splitColon (propertyLine k0 x) = some (k0, ' ' :: x) := splitColon_iff.mpr ⟨rfl, h2⟩
  constructor
  · rintro ⟨q, hq, rfl, rfl⟩
    rw [this] at hq
    cases hq
    exact ⟨trimmed_trim h1, trim_sp h3⟩
  · rintro ⟨rfl, rfl⟩
    exact ⟨_, this, (trimmed_trim h1).symm, (trim_sp h3).symm⟩

theorem pieces_values {k0 k : Str} (h1 : Trimmed k0) (h2 : ':' ∉ k0) {xs : List Str} (hx : ∀ x ∈ xs, Trimmed x) {r vs : List Str}
    (hv : Values k (xs.map (propertyLine k0) ++ r) vs) : ∃ vs', Values k r vs' ∧ vs = (if k0 = k then xs else []) ++ vs' := by
  induction xs generalizing vs with
  | nil => exact ⟨vs, hv, by simp⟩
  | cons x xs ih =>
    have ih := @ih fun y hy => hx y (List.mem_cons_of_mem _ hy)
    have hp := @property_key k0 x h1 h2 (hx x (List.mem_cons_self ..))
    rw [List.map_cons, List.cons_append] at hv
    cases hv with
    | hit hk hv =>
      obtain ⟨rfl, rfl⟩ := hp.mp hk
      obtain ⟨vs', e1, e2⟩ := ih hv
      exact ⟨vs', e1, by rw [e2]; simp⟩
    | miss hk hv =>
      have hne : k0 ≠ k := by
        rintro rfl
        exact hk x (hp.mpr ⟨rfl, rfl⟩)
      obtain ⟨vs', e1, e2⟩ := ih hv
      exact ⟨vs', e1, by rw [e2]; simp [hne]⟩

theorem properties_values {props : List (Str × Str)} (h : ∀ p ∈ props, WritableProperty p) (hn : (props.map Prod.fst).Nodup) {k : Str} {vs : List Str}
    (hv : Values k (propertyLines props ++ [[]]) vs) : props.lookup k = if vs = [] then none else some (List.intercalate [' '] vs) := by
  have hempty : ∀ vs, Values k [[]] vs → vs = [] := by
    intro vs hv
    cases hv with
    | hit hk _ => obtain ⟨a, b, he, _⟩ := hk; simp at he
    | miss _ hv => cases hv; rfl
  have habsent : ∀ (props : List (Str × Str)) (vs : List Str), (∀ p ∈ props, WritableProperty p) → k ∉ props.map Prod.fst →
      Values k (propertyLines props ++ [[]]) vs → vs = [] := by
    intro props
    induction props with
    | nil => intro vs _ _ hv; exact hempty vs hv
    | cons p props ih =>
      intro vs h hk hv
      have hp := h p (List.mem_cons_self ..)
      rw [propertyLines, List.flatMap_cons, List.append_assoc] at hv
      obtain ⟨vs', e1, e2⟩ := pieces_values hp.1 hp.2.1 (fun x hx => (piece_ok hp hx).1) hv
      rw [List.map_cons, List.mem_cons, not_or] at hk
      rw [if_neg (Ne.symm hk.1), List.nil_append] at e2
      rw [e2]
      exact ih vs' (fun q hq => h q (List.mem_cons_of_mem _ hq)) hk.2 e1
  induction props generalizing vs with
  | nil => rw [hempty vs hv]; rfl
  | cons p props ih =>
    obtain ⟨a, b⟩ := p
    have hp := h (a, b) (List.mem_cons_self ..)
    have hps : ∀ q ∈ props, WritableProperty q := fun q hq => h q (List.mem_cons_of_mem _ hq)
    rw [List.map_cons, List.nodup_cons] at hn
    rw [propertyLines, List.flatMap_cons, List.append_assoc] at hv
    obtain ⟨vs', e1, e2⟩ := pieces_values hp.1 hp.2.1 (fun x hx => (piece_ok hp hx).1) hv
    by_cases hk : a = k
    · subst hk
      have := habsent props vs' hps hn.1 e1
      subst this
      rw [if_pos rfl, List.append_nil] at e2
      subst e2
      rw [lookup_self, if_neg (pieces_ne b), pieces_join]
    · rw [if_neg hk, List.nil_append] at e2
      subst e2
      rw [lookup_ne (Ne.symm hk)]
      exact ih hps hn.2 e1

theorem header_rule {env : Env} {h : Header env.Lang} (w : WritableHeader env h) : HeaderRule env h.notes h.comments (headerText h.properties) h := by
  refine ⟨rfl, rfl, w.keys, ?_, w.language⟩
  intro ls hl k vs hv
  have e : ls = propertyLines h.properties ++ [[]] := (isLines_split hl).symm.trans (isLines_split (headerText_lines w.properties))
  subst e
  exact properties_values w.properties w.keys hv

/-- A written catalogue is read back. -/
theorem cat_reads {env : Env} {c : Cat env.Lang} {forms : Option PluralForms} (w : WritableCat env c forms) :
    Reads env (items 1 ((catLines c).map .ok)) (c.header.getD (plainHeader env)) forms c.units none := by
  obtain ⟨header, units⟩ := c
  obtain ⟨w1, w2⟩ := w
  cases header with
  | none =>
    have : forms = none := w1
    subst this
    show Reads env (items 1 ((units.flatMap fun u => unitLines u ++ [[]]).map .ok)) (plainHeader env) none units none
    cases units with
    | nil => exact .nothing (First.comments (block := []) (by simp))
    | cons u us =>
      have hu := w2 u (List.mem_cons_self ..)
      have hus : ∀ u ∈ us, WritableUnit none u := fun u hu => w2 u (List.mem_cons_of_mem _ hu)
      rw [List.flatMap_cons, List.map_append]
      obtain ⟨b, h1, h2⟩ := unit_items hu.readable 1 ((us.flatMap fun u => unitLines u ++ [[]]).map .ok)
      rw [h2]
      exact .plain (.unit h1 (writable_source hu.message) ((ends_iff h1).mpr (entryEnd_fresh (units_fresh hus _)))) (units_run hus _)
  | some h =>
    obtain ⟨wh, wf⟩ := w1
    show Reads env (items 1 ((headerLines h ++ [[]] ++ units.flatMap fun u => unitLines u ++ [[]]).map .ok)) h forms units none
    rw [List.map_append, ← headerUnit_lines]
    obtain ⟨b, h1, h2⟩ := unit_items (headerUnit_readable wh) 1 ((units.flatMap fun u => unitLines u ++ [[]]).map .ok)
    rw [h2]
    have hf := First.header (t := if headerText h.properties = [] then none else some (headerText h.properties)) h1 rfl
      ((ends_iff h1).mpr (entryEnd_fresh (units_fresh w2 (1 + (unitLines (headerUnit h)).length + 1))))
    have ht : ((if headerText h.properties = [] then none else some (headerText h.properties) : Option Str)).getD [] = headerText h.properties := by
      by_cases he : headerText h.properties = [] <;> simp [he]
    rw [ht] at hf
    exact .headed hf (header_rule wh) wf (units_run w2 _)

/-! ### The lines are lines -/

theorem noteLine_clean {x : Note} (h : WritableNote x) : '\n' ∉ noteLine x := by
  obtain ⟨⟨h1, _⟩, _⟩ := h
  obtain ⟨o, v⟩ := x
  cases o <;> simpa [noteLine] using h1

theorem otherLine_clean {x : Comment} (h : WritableComment x) : '\n' ∉ otherLine x := by
  obtain ⟨⟨h0, _⟩, h1, _⟩ := h
  simp [otherLine, Ne.symm h1, h0]

theorem intercalate_clean {sep : Str} {l : List Str} (hs : '\n' ∉ sep) (h : ∀ x ∈ l, '\n' ∉ x) : '\n' ∉ List.intercalate sep l := by
  induction l with
  | nil => simp [List.intercalate]
  | cons a l ih =>
    have ha := h a (List.mem_cons_self ..)
    cases l with
    | nil => rw [intercalate_one]; exact ha
    | cons b l =>
      rw [intercalate_cons2]
      simp only [List.mem_append, not_or]
      exact ⟨ha, hs, ih fun x hx => h x (List.mem_cons_of_mem _ hx)⟩

theorem locationLines_clean {ls : List Str} (h : ∀ l ∈ ls, WritableLocation l) : ∀ x ∈ locationLines ls, '\n' ∉ x := by
  intro x hx
  unfold locationLines at hx
  split at hx
  · cases hx
  · rw [List.mem_singleton.mp hx]
    have := intercalate_clean (sep := [' ']) (by decide) fun l hl => solid_nl (h l hl).2
    simpa using this

theorem flagLines_clean {fs : List Str} (h : ∀ f ∈ fs, WritableFlag f) : ∀ x ∈ flagLines fs, '\n' ∉ x := by
  intro x hx
  unfold flagLines at hx
  split at hx
  · cases hx
  · rw [List.mem_singleton.mp hx]
    have := intercalate_clean (sep := [',', ' ']) (by decide) fun f hf => (h f hf).2.2
    simpa using this

theorem valueLines_clean (o : Bool) (i : Nat) (vs : List Str) : ∀ x ∈ valueLines o i vs, '\n' ∉ x := by
  induction vs generalizing i with
  | nil => intro x hx; cases hx
  | cons v vs ih =>
    intro x hx
    rcases List.mem_cons.mp hx with rfl | hx
    · exact (fieldLine_clean (valueKeyword_keyword i) v).1
    · exact ih _ x hx

theorem optLine_clean {o pr : Bool} {k : Str} (hk : IsKeyword k) (v : Option Str) : ∀ x ∈ optLine o pr k v, '\n' ∉ x := by
  intro x hx
  cases v with
  | none => cases hx
  | some v => rw [List.mem_singleton.mp hx]; exact (fieldLine_clean hk v).1

theorem unitLines_clean {forms : Option PluralForms} {u : PoUnit} (h : ReadableUnit forms u) : ∀ x ∈ unitLines u, '\n' ∉ x := by
  intro x hx
  unfold unitLines at hx
  simp only [List.mem_append] at hx
  rcases hx with hx | hx | hx | hx | hx | hx | hx | hx
  · obtain ⟨y, hy, rfl⟩ := List.mem_map.mp hx; exact noteLine_clean (h.notes y hy)
  · obtain ⟨y, hy, rfl⟩ := List.mem_map.mp hx; exact otherLine_clean (h.comments y hy)
  · exact locationLines_clean h.locations x hx
  · exact flagLines_clean h.flags x hx
  · exact optLine_clean kw_msgctxt _ x hx
  · revert hx
    cases u.prevMessage with
    | simple id t =>
      intro hx
      rw [previousLines] at hx
      by_cases hid : id = []
      · rw [if_pos hid] at hx; cases hx
      · rw [if_neg hid] at hx; rw [List.mem_singleton.mp hx]; exact (fieldLine_clean kw_msgid _).1
    | plural p =>
      intro hx
      simp only [previousLines, List.mem_cons, List.not_mem_nil, or_false] at hx
      rcases hx with rfl | rfl
      · exact (fieldLine_clean kw_msgid _).1
      · exact (fieldLine_clean kw_msgid_plural _).1
  · exact optLine_clean kw_msgctxt _ x hx
  · revert hx
    cases u.message with
    | simple id t =>
      intro hx
      simp only [messageLines, List.mem_cons, List.not_mem_nil, or_false] at hx
      rcases hx with rfl | rfl
      · exact (fieldLine_clean kw_msgid _).1
      · exact (fieldLine_clean kw_msgstr _).1
    | plural p =>
      intro hx
      simp only [messageLines, List.mem_cons] at hx
      rcases hx with rfl | rfl | hx
      · exact (fieldLine_clean kw_msgid _).1
      · exact (fieldLine_clean kw_msgid_plural _).1
      · exact valueLines_clean _ _ _ x hx

theorem catLines_clean {env : Env} {c : Cat env.Lang} {forms : Option PluralForms} (w : WritableCat env c forms) : ∀ x ∈ catLines c, '\n' ∉ x := by
  obtain ⟨header, units⟩ := c
  obtain ⟨w1, w2⟩ := w
  have hunits : ∀ x ∈ units.flatMap fun u => unitLines u ++ [[]], '\n' ∉ x := by
    intro x hx
    obtain ⟨u, hu, hx⟩ := List.mem_flatMap.mp hx
    rcases List.mem_append.mp hx with hx | hx
    · exact unitLines_clean (w2 u hu).readable x hx
    · rw [List.mem_singleton.mp hx]; simp
  intro x hx
  cases header with
  | none => exact hunits x hx
  | some h =>
    rcases List.mem_append.mp hx with hx | hx
    · rcases List.mem_append.mp hx with hx | hx
      · rw [← headerUnit_lines] at hx
        exact unitLines_clean (headerUnit_readable w1.1) x hx
      · rw [List.mem_singleton.mp hx]; simp
    · exact hunits x hx

end Verif
