import Verif.Spec.Endless
import Verif.Props.Lazy
import Verif.Props.Counting
import Verif.Props.Merge

/-! C87: streams that never end. -/

namespace Verif
open Spec

/-! ### Keywords of an entry -/

theorem optKw_length (k : Str) (v : Option Str) : (optKw k v).length ≤ 1 := by
  unfold optKw
  split <;> simp

theorem values_le {o : Bool} {hi lo : Nat} {b : List PoLine} {vs : List Str} (h : ValueFields o hi lo b vs) : vs.length ≤ hi - lo := by
  induction h with
  | nil => simp
  | cons h1 h2 _ _ ih => simp only [List.length_cons]; omega

/-- An entry has at most this many keywords. -/
def kwBound (forms : Option PluralForms) : Nat := 7 + nplurals forms

theorem entry_kws_le {forms : Option PluralForms} {b : List PoLine} {u : PoUnit} (h : Entry forms b u) : (kws b).length ≤ kwBound forms := by
  have hp : pluralTexts u ≤ nplurals forms := by
    obtain ⟨cs, b1, b2, b3, b4, b5, b6, b7, pid, ppl, id, idPl, rfl, f1, f2, f3, g3, f4, f5, f6, f7, f8, f9, f10⟩ := h
    unfold pluralTexts
    generalize u.message = m at f7
    cases f7 with
    | simple => exact Nat.zero_le _
    | plural f _ => exact values_le f
  obtain ⟨pid, ppl, ts, idPl, hk, ht⟩ := entry_kws h
  have ht : ts.length ≤ 1 + nplurals forms := by
    rcases ht with ⟨_, _, _, rfl⟩ | ⟨_, _, h, _⟩
    · simp
    · omega
  have h1 := optKw_length (c!"|msgctxt") u.prevContext
  have h2 := optKw_length (c!"|msgid") pid
  have h3 := optKw_length (c!"|msgid_plural") ppl
  have h4 := optKw_length (c!"msgctxt") u.context
  have h5 := optKw_length (c!"msgid_plural") idPl
  rw [hk]
  simp only [List.length_append, List.length_cons, kwBound]
  omega

theorem head_kws_le {o : Bool} {b : List PoLine} (h : EntryHead o b) : (kws b).length ≤ 4 := by
  obtain ⟨pc, pid, ppl, ctx, hk⟩ := head_kws h
  have h1 := optKw_length (c!"|msgctxt") pc
  have h2 := optKw_length (c!"|msgid") pid
  have h3 := optKw_length (c!"|msgid_plural") ppl
  have h4 := optKw_length (c!"msgctxt") ctx
  rw [hk]
  simp only [List.length_append]
  omega

theorem ids_kws_le {o : Bool} {idPl : Option Str} {b : List PoLine} (h : EntryIds o idPl b) : (kws b).length ≤ 6 := by
  obtain ⟨a, b5, b6, id, rfl, h1, f5, f6⟩ := h
  have h1 := head_kws_le h1
  have h2 := optKw_length (c!"msgid_plural") idPl
  have h3 : (kws b6).length ≤ 1 := by
    rw [kws_opt f6]
    split <;> simp
  rw [kws_append, kws_append, kws_field f5]
  simp only [List.length_append, List.length_cons, List.length_nil]
  omega

theorem stray_kws_le {b : List PoLine} (h : StrayPlural b) : (kws b).length ≤ 5 := by
  obtain ⟨o, a, b6, pl, rfl, h1, f6⟩ := h
  have h1 := head_kws_le h1
  rw [kws_append, kws_field f6]
  simp only [List.length_append, List.length_cons, List.length_nil]
  omega

/-- The number of keywords. -/
def kwCount (l : List Item) : Nat := (itemKws l).length

theorem kwCount_block (b : List PoLine) (l : List Item) : kwCount (b.map .ok ++ l) = (kws b).length + kwCount l := by
  unfold kwCount
  rw [itemKws_block, List.length_append]

theorem kwCount_lines (b : List PoLine) : kwCount (b.map .ok) = (kws b).length := by
  have := kwCount_block b []
  rwa [List.append_nil] at this

theorem kwCount_append (a b : List Item) : kwCount (a ++ b) = kwCount a + kwCount b := by
  unfold kwCount itemKws
  rw [List.filterMap_append, List.length_append]

theorem kwCount_le (l : List Item) : kwCount l ≤ l.length := by
  unfold kwCount itemKws
  exact List.length_filterMap_le ..

/-! ### Reading on -/

/-- A long enough list begins with an entry and more, or decides an error. -/
theorem long_step {forms : Option PluralForms} {p : List Item} (hb : NoBlank p) (hne : ∀ e, .error e ∉ p) (hk : kwBound forms < kwCount p) :
    (∃ block u z p', p = block.map .ok ++ z :: p' ∧ Entry forms block u ∧ HasSource u.message ∧ EndsHere forms block (z :: p') ∧
      kwCount p ≤ kwBound forms + kwCount (z :: p')) ∨ ∃ e, ∀ y, Stops forms (p ++ y) (some e) := by
  have h := drain_run (forms := forms) hb
  generalize (drain forms p).1 = us at h
  generalize (drain forms p).2 = e at h
  cases h with
  | stop h =>
    right
    cases h with
    | @endsInHead o block h =>
      have := head_kws_le h
      rw [kwCount_lines] at hk
      unfold kwBound at hk
      omega
    | @endsAfterIds o idPl block h =>
      have := ids_kws_le h
      rw [kwCount_lines] at hk
      unfold kwBound at hk
      omega
    | @unreadable block e tl h => exact absurd (by simp) (hne e)
    | noId h1 h2 => exact ⟨_, fun y => by rw [List.append_assoc]; exact .noId h1 h2⟩
    | noText h1 h2 => exact ⟨_, fun y => by rw [List.append_assoc]; exact .noText h1 h2⟩
    | @noSource cs ln block u rest t h1 h2 h3 h4 h5 =>
      cases rest with
      | nil =>
        have := entry_kws_le h1
        rw [List.append_nil, kwCount_lines] at hk
        omega
      | cons z p' => exact ⟨_, fun y => by rw [List.append_assoc]; exact .noSource h1 h2 h3 h4 (ends_prefix h5)⟩
  | @entry block u rest us e h1 h2 h3 h4 =>
    have hle := entry_kws_le h1
    cases rest with
    | nil =>
      rw [List.append_nil, kwCount_lines] at hk
      omega
    | cons z p' => exact .inl ⟨block, u, z, p', rfl, h1, h2, h3, by rw [kwCount_block]; omega⟩

theorem long_run {forms : Option PluralForms} (k : Nat) : ∀ {p : List Item}, NoBlank p → (∀ e, .error e ∉ p) → k * kwBound forms < kwCount p →
    (∃ us p', us.length = k ∧ p' ≠ [] ∧ After forms p us p') ∨ ∃ us e, ∀ y, Run forms (p ++ y) us (some e) := by
  induction k with
  | zero =>
    intro p hb hne hk
    refine .inl ⟨[], p, rfl, ?_, .refl⟩
    rintro rfl
    simp [kwCount, itemKws] at hk
  | succ k ih =>
    intro p hb hne hk
    rw [Nat.succ_mul] at hk
    rcases long_step (forms := forms) hb hne (by omega) with ⟨block, u, z, p', rfl, h1, h2, h3, h4⟩ | ⟨e, h⟩
    · rcases ih (p := z :: p') hb.append (fun e he => hne e (List.mem_append_right _ he)) (by omega) with ⟨us, l', i1, i2, i3⟩ | ⟨us, e, i⟩
      · exact .inl ⟨u :: us, l', by simp [i1], i2, .entry h1 h2 h3 i3⟩
      · exact .inr ⟨u :: us, e, fun y => by rw [List.append_assoc]; exact .entry h1 h2 (ends_prefix h3) (i y)⟩
    · exact .inr ⟨[], e, fun y => .stop (h y)⟩

/-- The list decides the header, or an error of `parse()`. -/
def HeadDecided (env : Env) (p : List Item) : Prop :=
  (∃ e, ∀ y, Rejects env (p ++ y) e) ∨ ∃ (hdr : Header env.Lang) (forms : Option PluralForms) (us0 : List PoUnit) (block : List PoLine) (rest : List Item),
    p = block.map .ok ++ rest ∧ kwCount p ≤ 9 + kwCount rest ∧
    (∀ y us l', After forms (rest ++ y) us l' → Progress env (p ++ y) false hdr forms (us0 ++ us) l') ∧
    (∀ y us e, Run forms (rest ++ y) us e → Reads env (p ++ y) hdr forms (us0 ++ us) e)

theorem long_first (env : Env) {p : List Item} (hb : NoBlank p) (hne : ∀ e, .error e ∉ p) (hk : 9 < kwCount p) : HeadDecided env p := by
  have h := first_sound hb
  generalize firstOut (entry none true p) = out at h
  -- a header that is decided
  have header : ∀ (block : List PoLine) (rest : List Item) (ns : List Note) (cs : List Comment) (t : Str), p = block.map .ok ++ rest →
      (kws block).length ≤ 9 → (∀ y, First (p ++ y) (.header ns cs t (rest ++ y))) → HeadDecided env p := by
    intro block rest ns cs t hp hle hf
    have hr := headerRule_text env ns cs t
    rcases hfm : textForms env ((textProps t).lookup (c!"Plural-Forms")) with e | forms
    · exact .inl ⟨e, fun y => .badForms (hf y) hr ((formsRule_iff _ _ _).mpr hfm)⟩
    · refine .inr ⟨_, forms, [], block, rest, hp, ?_, fun y us l' ha => .headed (hf y) hr ((formsRule_iff _ _ _).mpr hfm) ha,
        fun y us e ha => .headed (hf y) hr ((formsRule_iff _ _ _).mpr hfm) ha⟩
      rw [hp, kwCount_block]
      omega
  cases h with
  | @unit block u rest h1 h2 h3 =>
    have hle : (kws block).length ≤ 9 := entry_kws_le h1
    cases rest with
    | nil =>
      rw [List.append_nil, kwCount_lines] at hk
      omega
    | cons z p' =>
      refine .inr ⟨plainHeader env, none, [u], block, z :: p', rfl, by rw [kwCount_block]; omega, fun y us l' ha => ?_, fun y us e ha => ?_⟩
      · rw [List.append_assoc]
        exact .plain (.unit h1 h2 (ends_prefix h3)) ha
      · rw [List.append_assoc]
        exact .plain (.unit h1 h2 (ends_prefix h3)) ha
  | @header block u t rest h1 h2 h3 =>
    have hle : (kws block).length ≤ 9 := entry_kws_le h1
    cases rest with
    | nil =>
      rw [List.append_nil, kwCount_lines] at hk
      omega
    | cons z p' => exact header block (z :: p') _ _ _ rfl hle fun y => by rw [List.append_assoc]; exact .header h1 h2 (ends_prefix h3)
  | @noId block rest h1 h2 h3 =>
    have hle : (kws block).length ≤ 5 := by
      rcases h1 with ⟨o, h⟩ | h
      · have := head_kws_le h; omega
      · exact stray_kws_le h
    cases rest with
    | nil =>
      rw [List.append_nil, kwCount_lines] at hk
      omega
    | cons z p' =>
      refine header block (z :: p') (notesOf block) (commentsOf block) [] rfl (by omega) fun y => ?_
      rw [List.append_assoc]
      refine .noId h1 (.inl (by simp)) ?_
      rcases h3 with h3 | ⟨ln, tl, h3, hp⟩
      · cases h3
      · simp only [List.cons.injEq] at h3
        exact .inr ⟨ln, p' ++ y, by rw [h3.1]; rfl, hp⟩
  | @comments block h =>
    have : kws block = [] := by
      unfold kws
      rw [List.filterMap_eq_nil_iff]
      intro ln hl
      obtain ⟨c, rfl⟩ := h ln hl
      rfl
    rw [kwCount_lines, this] at hk
    simp at hk
  | @cut o idPl block h =>
    have := ids_kws_le h
    rw [kwCount_lines] at hk
    omega
  | @unreadable block e tl h => exact absurd (by simp) (hne e)
  | noText h1 h2 => exact .inl ⟨_, fun y => .first (by rw [List.append_assoc]; exact .noText h1 h2)⟩

/-! ### Beginnings -/

theorem beginning_add (f : Nat → Event) (n m : Nat) : ∃ post, beginning f (n + m) = beginning f n ++ post := by
  unfold beginning
  rw [List.range_add, List.map_append]
  exact ⟨_, rfl⟩

theorem complete_append (pre post : List Event) : ∃ ys, completeLines (pre ++ post) = completeLines pre ++ ys := by
  obtain ⟨more, f, hf⟩ := flatten_more pre post
  obtain ⟨ls, h⟩ := byteLines_append (flatten pre).1 more
  unfold completeLines
  rw [hf]
  simp only
  rw [h, List.map_append]
  exact ⟨_, rfl⟩

theorem complete_no_nl {pre : List Event} {s : Str} (hs : .ok s ∈ completeLines pre) : '\n' ∉ s := by
  refine rawLines_no_nl (inp := ((flatten pre).1, none)) ?_
  unfold rawLines
  exact List.mem_append_left _ hs

/-- The items of the complete lines of a beginning. -/
noncomputable def beginItems (f : Nat → Event) (n : Nat) : List Item := items 1 (completeLines (beginning f n))

theorem begin_lineItems (f : Nat → Event) (n : Nat) : LineItems 1 (completeLines (beginning f n)) (beginItems f n) :=
  items_lineItems (fun _ hs => complete_no_nl hs) 1

theorem begin_add {f : Nat → Event} {n : Nat} (hne : ∀ e, .error e ∉ beginItems f n) (m : Nat) : ∃ y, beginItems f (n + m) = beginItems f n ++ y := by
  obtain ⟨post, hp⟩ := beginning_add f n m
  obtain ⟨ys, hy⟩ := complete_append (beginning f n) post
  unfold beginItems at hne ⊢
  rw [hp, hy, items_append hne]
  exact ⟨_, rfl⟩

theorem begin_noBlank (f : Nat → Event) (n : Nat) : NoBlank (beginItems f n) := items_noBlank _ _

/-! ### Errors -/

theorem items_mem_error {x : IoErr} {rs : List (Except IoErr Str)} (h : .error x ∈ rs) : ∀ n, ∃ e, .error e ∈ items n rs := by
  induction rs with
  | nil => cases h
  | cons r rs ih =>
    intro n
    cases r with
    | error y => exact ⟨_, List.mem_cons_self ..⟩
    | ok s =>
      rcases List.mem_cons.mp h with h | h
      · cases h
      · obtain ⟨e, he⟩ := ih h (n + 1)
        rw [items]
        split
        · exact ⟨_, List.mem_cons_self ..⟩
        · exact ⟨e, he⟩
        · exact ⟨e, List.mem_cons_of_mem _ he⟩

theorem flatten_fail {pre : List Event} {c : Nat} (h : .fail c ∈ pre) : (∀ post, flatten (pre ++ post) = flatten pre) ∧ ∃ d, (flatten pre).2 = some d := by
  induction pre with
  | nil => cases h
  | cons e pre ih =>
    cases e with
    | fail d => exact ⟨fun _ => rfl, d, rfl⟩
    | interrupted =>
      rcases List.mem_cons.mp h with h | h
      · cases h
      · exact ih h
    | data b bs =>
      rcases List.mem_cons.mp h with h | h
      · cases h
      · obtain ⟨h1, d, h2⟩ := ih h
        exact ⟨fun post => by rw [List.cons_append, flatten, flatten, h1], d, by rw [flatten]; exact h2⟩

/-- If the items are decided and one cannot be read, an error is decided. -/
theorem decided_error {env : Env} {f : Nat → Event} {n : Nat} {l : List Item} (hl : ∀ post, streamItems (beginning f n ++ post) = l) (he : ∃ e, .error e ∈ l) :
    (∃ e, FailsOn env f e) ∨ ∃ hdr us e, StopsOn env f hdr us e := by
  have h0 := hl []
  rw [List.append_nil] at h0
  rcases parse_spec env (beginning f n) with ⟨e, h1, h2⟩ | ⟨hdr, forms, us, e, h1, h2⟩
  · refine .inl ⟨e, n, fun post => (rejects_iff ..).mp ?_⟩
    rw [hl, ← h0]
    exact h2
  · cases e with
    | none =>
      obtain ⟨e, he⟩ := he
      rw [← h0] at he
      exact absurd he (none_no_error h1 e)
    | some e =>
      refine .inr ⟨hdr, us, e, n, fun post => reads_yields (forms := forms) ?_⟩
      rw [hl, ← h0]
      exact h2

/-! ### Counting lines -/

theorem count_some {α : Type} (P : α → Prop) (l : List α) : ∃ n, Count P l n := by
  induction l with
  | nil => exact ⟨0, .nil⟩
  | cons a l ih =>
    obtain ⟨n, h⟩ := ih
    by_cases hp : P a
    · exact ⟨n + 1, .yes hp h⟩
    · exact ⟨n, .no hp h⟩

theorem count_zero {α : Type} {P : α → Prop} {l : List α} (h : Count P l 0) : ∀ x ∈ l, ¬ P x := by
  generalize hn : 0 = n at h
  induction h with
  | nil => simp
  | no h _ ih =>
    intro x hx
    rcases List.mem_cons.mp hx with rfl | hx
    · exact h
    · exact ih hn x hx
  | yes => omega

theorem begin_count {f : Nat → Event} {n : Nat} (hne : ∀ e, .error e ∉ beginItems f n) :
    Count (KeywordLine fun _ => True) (completeLines (beginning f n)) (kwCount (beginItems f n)) :=
  count_lines (begin_lineItems f n) hne (fun _ hs => complete_no_nl hs) (count_all fun _ _ => trivial)

/-- A bounded sequence of numbers has a largest one. -/
theorem exists_largest {K : Nat → Nat} {c : Nat} (h : ∀ n, K n ≤ c) : ∃ n, ∀ m, K m ≤ K n := by
  induction c with
  | zero => exact ⟨0, fun m => by have := h m; omega⟩
  | succ c ih =>
    by_cases hc : ∃ n, K n = c + 1
    · obtain ⟨n, hn⟩ := hc
      exact ⟨n, fun m => by rw [hn]; exact h m⟩
    · refine ih fun n => ?_
      have := h n
      have : K n ≠ c + 1 := fun h => hc ⟨n, h⟩
      omega

/-! ### Calls -/

theorem Spec.Calls.unique {σ L : Type} [Src σ] {r r1 r2 : Reader σ L} {xs ys : List (Option (Except Err PoUnit))} (h : Calls r xs r1) (h' : Calls r ys r2)
    (hl : xs.length = ys.length) : xs = ys ∧ r1 = r2 := by
  induction h generalizing ys with
  | nil =>
    cases h' with
    | nil => exact ⟨rfl, rfl⟩
    | cons => simp at hl
  | cons h _ ih =>
    cases h' with
    | nil => simp at hl
    | cons h' g =>
      rw [h] at h'
      cases h'
      obtain ⟨rfl, rfl⟩ := ih g (by simpa using hl)
      exact ⟨rfl, rfl⟩

theorem Spec.Calls.first {σ L : Type} [Src σ] {r r' : Reader σ L} {xs ys : List (Option (Except Err PoUnit))} (h : Calls r (xs ++ ys) r') : ∃ r1, Calls r xs r1 := by
  induction xs generalizing r with
  | nil => exact ⟨_, .nil⟩
  | cons x xs ih =>
    cases h with
    | cons h h' =>
      obtain ⟨r1, h1⟩ := ih h'
      exact ⟨r1, .cons h h1⟩

theorem calls_trace {σ L : Type} [Src σ] {r r' : Reader σ L} {xs : List (Option (Except Err PoUnit))} (h : Calls r xs r') :
    ∃ ys, trace xs.length r = .ok ys ∧ ys.map Prod.snd = xs := by
  induction h with
  | nil => exact ⟨[], rfl, rfl⟩
  | cons h _ ih =>
    obtain ⟨ys, h1, h2⟩ := ih
    rw [List.length_cons, trace, h]
    simp only [h1]
    exact ⟨_, rfl, by rw [List.map_cons, h2]⟩

theorem calls_yields {env : Env} {stream : List Event} {r r' : Reader Peekable env.Lang} {xs : List (Option (Except Err PoUnit))} {hdr : Header env.Lang}
    {res : List (Except Err PoUnit)} (hr : parse env stream = .ok r) (h : Calls r xs r') (hy : Yields (parse env stream) hdr res) :
    headerOf r = hdr ∧ xs = (List.range xs.length).map fun i => res[i]? := by
  obtain ⟨ys, h1, h2⟩ := calls_trace h
  have := hy xs.length
  rw [hr] at this
  simp only [observe, Out.bind, h1, Out.ok.injEq, Prod.mk.injEq] at this
  refine ⟨this.1, ?_⟩
  rw [← h2, this.2]
  simp


variable {env : Env} {f : Nat → Event}

/-! ### The four cases -/

/-- More and more keyword lines, all of them readable. -/
theorem busy_cases (env : Env) (hne : ∀ n e, .error e ∉ beginItems f n) (hk : ∀ c, ∃ n, c < kwCount (beginItems f n)) :
    (∃ e, FailsOn env f e) ∨ (∃ hdr us e, StopsOn env f hdr us e) ∨
      ∃ hdr : Header env.Lang, ∀ k, ∃ n forms us l', k < us.length ∧ l' ≠ [] ∧ Progress env (beginItems f n) false hdr forms us l' := by
  obtain ⟨n0, h0⟩ := hk 9
  rcases long_first env (begin_noBlank f n0) (hne n0) h0 with ⟨e, h⟩ | ⟨hdr, forms, us0, block, rest, hp, hle, ha, hr⟩
  · refine .inl ⟨e, n0, fun post => (rejects_iff ..).mp ?_⟩
    obtain ⟨c, hc⟩ := complete_more (beginning f n0) post
    rw [hc]
    exact h c
  · by_cases hs : ∃ hdr us e, StopsOn env f hdr us e
    · exact .inr (.inl hs)
    · refine .inr (.inr ⟨hdr, fun k => ?_⟩)
      obtain ⟨n, hn⟩ := hk (9 + (k + 1) * kwBound forms + kwCount (beginItems f n0))
      have hnn : n0 ≤ n := by
        refine Nat.le_of_lt (Nat.lt_of_not_le fun hlt => ?_)
        obtain ⟨y, hy⟩ := begin_add (hne n) (n0 - n)
        rw [show n + (n0 - n) = n0 by omega] at hy
        rw [hy, kwCount_append] at hn
        omega
      obtain ⟨y, hy⟩ := begin_add (hne n0) (n - n0)
      rw [show n0 + (n - n0) = n by omega] at hy
      have hy' := hy
      rw [hp, List.append_assoc] at hy'
      have hb : NoBlank (rest ++ y) := by
        have := begin_noBlank f n
        rw [hy'] at this
        exact this.append
      have hne' : ∀ e, .error e ∉ rest ++ y := by
        intro e he
        refine hne n e ?_
        rw [hy']
        exact List.mem_append_right _ he
      have hc : (k + 1) * kwBound forms < kwCount (rest ++ y) := by
        rw [hy, kwCount_append] at hn
        rw [kwCount_append]
        omega
      rcases long_run (forms := forms) (k + 1) hb hne' hc with ⟨us, l', i1, i2, i3⟩ | ⟨us, e, i⟩
      · refine ⟨n, forms, us0 ++ us, l', by rw [List.length_append]; omega, i2, ?_⟩
        rw [hy]
        exact ha y us l' i3
      · exfalso
        refine hs ⟨hdr, us0 ++ us, e, n, fun post => ?_⟩
        refine reads_yields (forms := forms) ?_
        obtain ⟨c, hc⟩ := complete_more (beginning f n) post
        have hc : streamItems (beginning f n ++ post) = beginItems f n ++ c := hc
        rw [hc, hy, List.append_assoc]
        refine hr (y ++ c) us _ ?_
        rw [← List.append_assoc]
        exact i c

theorem goesOn_of_progress {hdr : Header env.Lang} (hne : ∀ n e, .error e ∉ beginItems f n)
    (h : ∀ k, ∃ n forms us l', k < us.length ∧ l' ≠ [] ∧ Progress env (beginItems f n) false hdr forms us l') : ∃ u, GoesOn env f hdr u := by
  have h1 : ∀ k, ∃ (n : Nat) (us : List PoUnit), us.length = k ∧ ∀ post, ∃ r r' es, parse env (beginning f n ++ post) = .ok r ∧ SameHeader (headerOf r) hdr ∧
      Calls r (us.map (some ∘ .ok)) r' ∧ unread r' = some es ∧ post <:+ es := by
    intro k
    obtain ⟨n, forms, us, l', h1, h2, h3⟩ := h k
    refine ⟨n, us.take k, by rw [List.length_take]; omega, fun post => ?_⟩
    obtain ⟨r, i1, i2, i3⟩ := C58_lazy (post := post) (begin_lineItems f n) h3 h2
    obtain ⟨r', j1, j2, j3⟩ := i3 k h1
    cases hes : unread r' with
    | none => exact absurd hes (j3 (hne n))
    | some es => exact ⟨r, r', es, i1, i2, j1, hes, j2 es hes⟩
  obtain ⟨n, h1⟩ := Classical.axiomOfChoice h1
  obtain ⟨us, h1⟩ := Classical.axiomOfChoice h1
  have hl := fun k => (h1 k).1
  have hc := fun k => (h1 k).2
  -- the beginnings agree
  have agree : ∀ k m, k ≤ m → us k = (us m).take k := by
    intro k m hkm
    obtain ⟨p1, q1⟩ := beginning_add f (n k) (n m)
    obtain ⟨p2, q2⟩ := beginning_add f (n m) (n k)
    rw [Nat.add_comm, q1] at q2
    obtain ⟨r1, r1', _, a1, _, a2, _⟩ := hc k p1
    obtain ⟨r2, r2', _, b1, _, b2, _⟩ := hc m p2
    rw [← q2, a1] at b1
    cases b1
    rw [← List.take_append_drop k (us m), List.map_append] at b2
    obtain ⟨r3, b3⟩ := b2.first
    obtain ⟨h, _⟩ := a2.unique b3 (by simp [hl]; omega)
    refine List.map_inj_right ?_ |>.mp h
    intro x y hxy
    simpa using hxy
  refine ⟨fun i => (us (i + 1))[i]'(by rw [hl]; omega), fun k => ⟨n k, fun post => ?_⟩⟩
  obtain ⟨r, r', es, a1, a2, a3, a4, a5⟩ := hc k post
  refine ⟨r, r', es, a1, a2, ?_, a4, a5⟩
  rw [show ((List.range k).map fun i => some (Except.ok (ε := Err) ((us (i + 1))[i]'(by rw [hl]; omega)))) = (us k).map (some ∘ .ok) from ?_]
  · exact a3
  · apply List.ext_getElem
    · simp [hl]
    · intro i h1 h2
      have hi : i < k := by simpa using h1
      simp only [List.getElem_map, List.getElem_range, Function.comp]
      congr 2
      simp only [agree (i + 1) k (by omega), List.getElem_take]

/-- **C87** An endless stream: a beginning decides an error of `parse()`, or the units and an error after them; or there are units for ever; or from some
point on no line with a keyword comes any more. -/
theorem C87_endless (env : Env) (f : Nat → Event) :
    (∃ e, FailsOn env f e) ∨ (∃ hdr us e, StopsOn env f hdr us e) ∨ (∃ hdr u, GoesOn env f hdr u) ∨ Quiet f := by
  by_cases hf : ∃ n c, f n = .fail c
  · obtain ⟨n, c, hf⟩ := hf
    have hm : .fail c ∈ beginning f (n + 1) := List.mem_map.mpr ⟨n, by simp, hf⟩
    obtain ⟨h1, d, h2⟩ := flatten_fail hm
    have := decided_error (env := env) (f := f) (n := n + 1) (l := items 1 (rawLines (flatten (beginning f (n + 1))))) (fun post => by rw [streamItems_code, h1])
      (items_mem_error (x := .os d) (by unfold rawLines; rw [h2]; simp) 1)
    rcases this with h | h
    · exact .inl h
    · exact .inr (.inl h)
  by_cases he : ∃ n e, .error e ∈ beginItems f n
  · obtain ⟨n, e, he⟩ := he
    have := decided_error (env := env) (f := f) (n := n) (l := beginItems f n) (fun post => by
      obtain ⟨more, g, hg⟩ := flatten_more (beginning f n) post
      obtain ⟨ls, h⟩ := byteLines_append (flatten (beginning f n)).1 more
      have hy : ∃ ys, rawLines (flatten (beginning f n ++ post)) = completeLines (beginning f n) ++ ys := by
        rw [hg]
        unfold rawLines completeLines
        simp only
        rw [h, List.map_append, List.append_assoc]
        exact ⟨_, rfl⟩
      obtain ⟨ys, hy⟩ := hy
      rw [streamItems_code, hy, items_error he]
      rfl) ⟨e, he⟩
    rcases this with h | h
    · exact .inl h
    · exact .inr (.inl h)
  have hne : ∀ n e, .error e ∉ beginItems f n := fun n e h => he ⟨n, e, h⟩
  by_cases hk : ∀ c, ∃ n, c < kwCount (beginItems f n)
  · rcases busy_cases env hne hk with h | h | ⟨hdr, h⟩
    · exact .inl h
    · exact .inr (.inl h)
    · exact .inr (.inr (.inl ⟨hdr, goesOn_of_progress hne h⟩))
  · refine .inr (.inr (.inr ⟨fun n c h => hf ⟨n, c, h⟩, fun n b hb => ?_, ?_⟩))
    · rw [hb.unique (fun _ hs => complete_no_nl hs) (begin_lineItems f n)]
      exact hne n
    · have hk : ∃ c, ∀ n, kwCount (beginItems f n) ≤ c := by
        refine Classical.byContradiction fun h => hk fun c => Classical.byContradiction fun h' => h ⟨c, fun n => ?_⟩
        exact Nat.le_of_not_lt fun h'' => h' ⟨n, h''⟩
      obtain ⟨c, hc⟩ := hk
      obtain ⟨n, hn⟩ := exists_largest hc
      refine ⟨n, fun m more hm => ?_⟩
      obtain ⟨y, hy⟩ := begin_add (hne n) m
      have h1 := begin_count (hne (n + m))
      have h2 := begin_count (hne n)
      obtain ⟨k, h3⟩ := count_some (KeywordLine fun _ => True) more
      rw [hm] at h1
      have h4 := h1.unique (count_append h2 h3)
      have h5 := hn (n + m)
      have : k = 0 := by omega
      rw [this] at h3
      exact count_zero h3

theorem run_kwCount {forms : Option PluralForms} {l : List Item} {us : List PoUnit} {e : Option Err} (h : Run forms l us e) : us.length ≤ kwCount l := by
  induction h with
  | stop => simp
  | entry h1 _ _ _ ih =>
    have := List.length_pos_iff.mpr (List.ne_nil_of_mem (entry_id h1))
    rw [kwCount_block, List.length_cons]
    omega

theorem reads_kwCount {l : List Item} {hdr : Header env.Lang} {forms : Option PluralForms} {us : List PoUnit} {e : Option Err} (h : Reads env l hdr forms us e) :
    us.length ≤ kwCount l := by
  cases h with
  | nothing => simp
  | plain f r =>
    obtain ⟨block, rfl, h2, _⟩ := first_unit f
    have := List.length_pos_iff.mpr (List.ne_nil_of_mem (entry_id h2))
    have := run_kwCount r
    rw [kwCount_block, List.length_cons]
    omega
  | headed f _ _ r =>
    obtain ⟨block, rfl⟩ := first_header f
    have := run_kwCount r
    rw [kwCount_block]
    omega

/-- **C87** In the last case the number of units is bounded, however much of the stream is read. -/
theorem C87_quiet (h : Quiet f) : ∃ c, ∀ (env : Env) n (hdr : Header env.Lang) us e, Yields (parse env (beginning f n)) hdr (results us e) → us.length ≤ c := by
  obtain ⟨n0, hq⟩ := h.noKeyword
  have hne : ∀ n e, .error e ∉ beginItems f n := fun n => h.readable n _ (begin_lineItems f n)
  have hk : ∀ n, kwCount (beginItems f n) ≤ kwCount (beginItems f n0) := by
    intro n
    by_cases hn : n ≤ n0
    · obtain ⟨y, hy⟩ := begin_add (hne n) (n0 - n)
      rw [show n + (n0 - n) = n0 by omega] at hy
      rw [hy, kwCount_append]
      omega
    · obtain ⟨post, hp⟩ := beginning_add f n0 (n - n0)
      obtain ⟨ys, hy⟩ := complete_append (beginning f n0) post
      rw [← hp] at hy
      have h0 := count_none (hq _ _ hy)
      have h1 := begin_count (hne (n0 + (n - n0)))
      rw [hy] at h1
      have := h1.unique (count_append (begin_count (hne n0)) h0)
      rw [show n0 + (n - n0) = n by omega] at this
      omega
  refine ⟨kwCount (beginItems f n0) + 1, fun env n hdr us e hy => ?_⟩
  obtain ⟨forms, us0, e0, hx, hr⟩ := yields_reads hy
  obtain ⟨rfl, rfl⟩ := results_inj hx
  have h1 := reads_kwCount hr
  have h2 : ∃ x, rawLines (flatten (beginning f n)) = completeLines (beginning f n) ++ x ∧ x.length ≤ 1 := by
    refine ⟨_, rfl, ?_⟩
    split
    · simp
    · split <;> simp
  obtain ⟨x, hx, hl⟩ := h2
  rw [streamItems_code, hx, items_append (hne n), kwCount_append] at h1
  have h3 := kwCount_le (items (1 + (completeLines (beginning f n)).length) x)
  have h4 := items_one (1 + (completeLines (beginning f n)).length) hl
  have h5 := hk n
  unfold beginItems at h5 ⊢
  omega

/-! ### The cases exclude each other -/

theorem common_beginning (f : Nat → Event) (n m : Nat) : ∃ p q, beginning f n ++ p = beginning f m ++ q := by
  obtain ⟨p, h1⟩ := beginning_add f n m
  obtain ⟨q, h2⟩ := beginning_add f m n
  rw [Nat.add_comm, h1] at h2
  exact ⟨p, q, h2⟩

/-- So many units are yielded by a reader that gives so many. -/
theorem calls_units {stream : List Event} {r r' : Reader Peekable env.Lang} {k : Nat} {u : Nat → PoUnit} {hdr : Header env.Lang} {us : List PoUnit} {e : Option Err}
    (hr : parse env stream = .ok r) (h : Calls r ((List.range k).map fun i => some (.ok (u i))) r') (hy : Yields (parse env stream) hdr (results us e)) :
    k ≤ us.length := by
  have := (calls_yields hr h hy).2
  refine Nat.le_of_not_lt fun hlt => ?_
  have := congrArg (fun l => l[us.length]?) this
  simp only [List.getElem?_map, List.length_map, List.length_range, List.getElem?_range hlt, Option.map_some, Option.some.injEq] at this
  unfold results at this
  rw [List.getElem?_append_right (by simp)] at this
  cases e <;> simp at this

/-- **C87** The units and the header data of an endless catalogue are determined. -/
theorem C87_unique {hdr hdr' : Header env.Lang} {u u' : Nat → PoUnit} (h : GoesOn env f hdr u) (h' : GoesOn env f hdr' u') : SameHeader hdr hdr' ∧ u = u' := by
  have key : ∀ k, SameHeader hdr hdr' ∧ ∀ i, i < k → u i = u' i := by
    intro k
    obtain ⟨n, h⟩ := h k
    obtain ⟨m, h'⟩ := h' k
    obtain ⟨p, q, hpq⟩ := common_beginning f n m
    obtain ⟨r, _, _, a1, a2, a3, _⟩ := h p
    obtain ⟨s, _, _, b1, b2, b3, _⟩ := h' q
    rw [← hpq, a1] at b1
    cases b1
    refine ⟨⟨a2.notes.symm.trans b2.notes, a2.comments.symm.trans b2.comments, fun k => (a2.properties k).symm.trans (b2.properties k),
      a2.language.symm.trans b2.language⟩, fun i hi => ?_⟩
    have := congrArg (fun l => l[i]?) (a3.unique b3 (by simp)).1
    simpa [List.getElem?_map, List.getElem?_range hi] using this
  exact ⟨(key 0).1, funext fun i => (key (i + 1)).2 i (Nat.lt_succ_self i)⟩

/-- **C87** An endless catalogue has no error, and keyword lines come for ever. -/
theorem C87_exclusive {hdr : Header env.Lang} {u : Nat → PoUnit} (h : GoesOn env f hdr u) :
    (∀ e, ¬ FailsOn env f e) ∧ (∀ hdr us e, ¬ StopsOn env f hdr us e) ∧ ¬ Quiet f := by
  refine ⟨?_, ?_, ?_⟩
  · rintro e ⟨m, h'⟩
    obtain ⟨n, h⟩ := h 0
    obtain ⟨p, q, hpq⟩ := common_beginning f n m
    obtain ⟨r, _, _, a1, _⟩ := h p
    have := h' q
    rw [← hpq, a1] at this
    cases this
  · rintro hdr us e ⟨m, h'⟩
    obtain ⟨n, h⟩ := h (us.length + 1)
    obtain ⟨p, q, hpq⟩ := common_beginning f n m
    obtain ⟨r, _, _, a1, _, a3, _⟩ := h p
    obtain ⟨hdr', _, b⟩ := h' q
    rw [← hpq] at b
    have := calls_units a1 a3 b
    omega
  · intro hq
    obtain ⟨c, hc⟩ := C87_quiet hq
    obtain ⟨n, h⟩ := h (c + 1)
    obtain ⟨r, _, _, a1, _, a3, _⟩ := h []
    rw [List.append_nil] at a1
    rcases parse_spec env (beginning f n) with ⟨e, h1, _⟩ | ⟨hdr, forms, us, e, h1, _⟩
    · rw [show parse env (beginning f n) = _ from h1] at a1
      cases a1
    · have := hc _ _ _ _ _ h1
      have := calls_units a1 a3 h1
      omega

/-! ### Concrete cases -/

/-- The lines of an entry. -/
def againLines : List Str := [c!"msgid \"a\"", c!"msgstr \"b\""]

/-- The same entry again and again. -/
def again : Nat → Event := fun _ => .data 109 ((utf8 (againLines.flatMap fun l => l ++ ['\n'])).tail)

theorem again_flatten (n : Nat) : flatten (beginning again n) = (utf8 ((List.replicate n againLines).flatten.flatMap fun l => l ++ ['\n']), none) := by
  have hb : beginning again n = List.replicate n (again 0) := by
    unfold beginning
    rw [List.eq_replicate_iff]
    refine ⟨by simp, fun b hb => ?_⟩
    obtain ⟨_, _, rfl⟩ := List.mem_map.mp hb
    rfl
  rw [hb]
  clear hb
  induction n with
  | zero => rfl
  | succ n ih =>
    rw [List.replicate_succ, List.replicate_succ, List.flatten_cons, List.flatMap_append, utf8_append]
    have : again 0 = .data 109 ((utf8 (againLines.flatMap fun l => l ++ ['\n'])).tail) := rfl
    rw [this, flatten, ← this, ih]
    rfl

theorem again_complete (n : Nat) : completeLines (beginning again n) = (List.replicate n againLines).flatten.map .ok := by
  have : ∀ l ∈ (List.replicate n againLines).flatten, CleanLine l := by
    intro l hl
    obtain ⟨x, h1, h2⟩ := List.mem_flatten.mp hl
    rw [List.eq_of_mem_replicate h1] at h2
    clear h1 hl
    revert l
    decide
  rw [← completeLines_text this]
  unfold completeLines
  rw [again_flatten, textStream_flatten]

theorem again_items (k : Nat) (ls : List Str) : items k ((againLines ++ ls).map .ok) =
    [.message k [] (c!"msgid") (c!"a"), .message (k + 1) [] (c!"msgstr") (c!"b")].map .ok ++ items (k + 2) (ls.map .ok) := by
  rfl

theorem again_fresh (k n : Nat) : FreshStart (items k ((List.replicate n againLines).flatten.map .ok)) := by
  cases n with
  | zero => exact .inl rfl
  | succ n =>
    rw [List.replicate_succ, List.flatten_cons, again_items]
    exact .inr ⟨_, _, rfl, .inr ⟨_, _, _, _, rfl, not_valueKeyword (by decide)⟩⟩

theorem again_after (n k : Nat) : ∃ m, After none (items k ((List.replicate (n + 1) againLines).flatten.map .ok)) (List.replicate n (unitAB (c!"a") (c!"b")))
    (items m (againLines.map .ok)) := by
  induction n generalizing k with
  | zero => exact ⟨k, .refl⟩
  | succ n ih =>
    obtain ⟨m, ih⟩ := ih (k + 2)
    refine ⟨m, ?_⟩
    rw [List.replicate_succ, List.flatten_cons, again_items, List.replicate_succ (n := n) (a := unitAB _ _)]
    have e := entry_plain none k (k + 1) (c!"a") (c!"b")
    exact .entry e (by decide : c!"a" ≠ []) ((ends_iff e).mpr (entryEnd_fresh (again_fresh _ _))) ih

-- units for ever
theorem again_goesOn : GoesOn demoEnv again (plainHeader demoEnv) fun _ => unitAB (c!"a") (c!"b") := by
  have hne : ∀ n e, .error e ∉ beginItems again n := by
    intro n e
    unfold beginItems
    rw [again_complete]
    generalize 1 = k
    induction n generalizing k with
    | zero => simp [items]
    | succ n ih =>
      rw [List.replicate_succ, List.flatten_cons, again_items, List.mem_append]
      rintro (h | h)
      · simp at h
      · exact ih _ h
  have hp : ∀ k, ∃ n forms us l', k < us.length ∧ l' ≠ [] ∧ us = List.replicate (k + 1) (unitAB (c!"a") (c!"b")) ∧
      Progress demoEnv (beginItems again n) false (plainHeader demoEnv) forms us l' := by
    intro k
    obtain ⟨m, h⟩ := again_after k 3
    have e := entry_plain none 1 2 (c!"a") (c!"b")
    refine ⟨k + 2, none, unitAB (c!"a") (c!"b") :: List.replicate k (unitAB (c!"a") (c!"b")), items m (againLines.map .ok), by simp, ?_, rfl, ?_⟩
    · rw [show items m (againLines.map .ok) = _ from again_items m []]
      simp
    · unfold beginItems
      rw [again_complete, List.replicate_succ, List.flatten_cons, again_items]
      exact .plain (.unit e (by decide : c!"a" ≠ []) ((ends_iff e).mpr (entryEnd_fresh (again_fresh _ _)))) h
  intro k
  obtain ⟨n, forms, us, l', h1, h2, rfl, h3⟩ := hp k
  refine ⟨n, fun post => ?_⟩
  obtain ⟨r, i1, i2, i3⟩ := C58_lazy (post := post) (begin_lineItems again n) h3 h2
  obtain ⟨r', j1, j2, j3⟩ := i3 k h1
  cases hes : unread r' with
  | none => exact absurd hes (j3 (hne n))
  | some es =>
    refine ⟨r, r', es, i1, i2, ?_, hes, j2 es hes⟩
    rw [List.take_replicate, Nat.min_eq_left (by omega), List.map_replicate] at j1
    rw [List.map_const', List.length_range]
    exact j1

example : ¬ Quiet again := (C87_exclusive again_goesOn).2.2

example {hdr : Header demoEnv.Lang} {u : Nat → PoUnit} (h : GoesOn demoEnv again hdr u) : u 1000 = unitAB (c!"a") (c!"b") :=
  congrFun (C87_unique h again_goesOn).2 1000

-- a stream that is interrupted again and again has no lines
theorem idle_quiet : Quiet fun _ => .interrupted := by
  have h : ∀ n, completeLines (beginning (fun _ => .interrupted) n) = [] := by
    intro n
    have : flatten (beginning (fun _ => .interrupted) n) = ([], none) := by
      unfold beginning
      rw [List.map_const', List.length_range]
      induction n with
      | zero => rfl
      | succ n ih => exact ih
    unfold completeLines
    rw [this]
    rfl
  refine ⟨fun n c hc => (by cases hc), fun n b hb e he => ?_, 0, fun m more hm x hx => ?_⟩
  · rw [h] at hb
    cases hb
    cases he
  · rw [h, h, List.nil_append] at hm
    rw [← hm] at hx
    cases hx

example : ∃ c, ∀ n (hdr : Header demoEnv.Lang) us e, Yields (parse demoEnv (beginning (fun _ => .interrupted) n)) hdr (results us e) → us.length ≤ c := by
  obtain ⟨c, h⟩ := C87_quiet idle_quiet
  exact ⟨c, h demoEnv⟩

-- a failure decides an error of `parse()`
example : FailsOn demoEnv (fun _ => .fail 5) (.io 1 (.os 5)) := by
  refine ⟨1, fun post => (rejects_iff ..).mp (.first ?_)⟩
  rw [streamItems_code]
  exact .unreadable (block := []) (tl := []) (.inl (.inl ⟨false, entryHead_comments false []⟩))

/-- Two entries, then a line that is not recognised, again and again. -/
def strange : Nat → Event := fun n => if n < 2 then again n else .data 120 [10]

-- the second entry is not delivered
example : StopsOn demoEnv strange (plainHeader demoEnv) [unitAB (c!"a") (c!"b")] (.parse 6 (c!"x") []) := by
  have hf : flatten (beginning strange 3) = flatten (textStream (againLines ++ againLines ++ [c!"x"])) := by decide +kernel
  have hl : completeLines (beginning strange 3) = (againLines ++ againLines ++ [c!"x"]).map .ok := by
    rw [← completeLines_text (ls := againLines ++ againLines ++ [c!"x"]) (by decide)]
    unfold completeLines
    rw [hf]
  have hi : beginItems strange 3 = [.message 1 [] (c!"msgid") (c!"a"), .message 2 [] (c!"msgstr") (c!"b")].map .ok ++
      ([.message 3 [] (c!"msgid") (c!"a"), .message 4 [] (c!"msgstr") (c!"b")].map .ok ++ [.error (.parse 6 (c!"x") [])]) := by
    unfold beginItems
    rw [hl]
    rfl
  refine ⟨3, fun post => reads_yields (forms := none) ?_⟩
  obtain ⟨c, hc⟩ := complete_more (beginning strange 3) post
  rw [hc, show items 1 (completeLines (beginning strange 3)) = _ from hi]
  have e1 := entry_plain none 1 2 (c!"a") (c!"b")
  have e2 := entry_plain none 3 4 (c!"a") (c!"b")
  simp only [List.append_assoc]
  exact .plain (.unit e1 (by decide : c!"a" ≠ []) ((ends_iff e1).mpr (entryEnd_fresh (.inr ⟨_, _, rfl, .inr ⟨_, _, _, _, rfl, not_valueKeyword (by decide)⟩⟩))))
    (.stop (.unreadable (.inr (.inr ⟨_, e2⟩))))

end Verif
