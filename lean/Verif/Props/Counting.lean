import Verif.Spec.Counting
import Verif.Props.Forms

/-! C75: the lines and the data correspond in number. -/

namespace Verif
open Spec

theorem count_append {α : Type} {P : α → Prop} {a b : List α} {n m : Nat} (h : Count P a n) (h' : Count P b m) : Count P (a ++ b) (n + m) := by
  induction h with
  | nil => rw [Nat.zero_add]; exact h'
  | no h _ ih => exact .no h ih
  | @yes x l n h _ ih =>
    rw [Nat.add_right_comm]
    exact .yes h ih

theorem Spec.Count.unique {α : Type} {P : α → Prop} {a : List α} {n m : Nat} (h : Count P a n) (h' : Count P a m) : n = m := by
  induction h generalizing m with
  | nil => cases h'; rfl
  | no h _ ih =>
    cases h' with
    | no _ h' => exact ih h'
    | yes hp => exact absurd hp h
  | yes h _ ih =>
    cases h' with
    | no hp => exact absurd h hp
    | yes _ h' => rw [ih h']

theorem count_none {α : Type} {P : α → Prop} {a : List α} (h : ∀ x ∈ a, ¬ P x) : Count P a 0 := by
  induction a with
  | nil => exact .nil
  | cons x a ih => exact .no (h x (List.mem_cons_self ..)) (ih fun y hy => h y (List.mem_cons_of_mem _ hy))

theorem count_all {α : Type} {P : α → Prop} {a : List α} (h : ∀ x ∈ a, P x) : Count P a a.length := by
  induction a with
  | nil => exact .nil
  | cons x a ih => exact .yes (h x (List.mem_cons_self ..)) (ih fun y hy => h y (List.mem_cons_of_mem _ hy))

/-- The keywords of items. -/
def itemKws (l : List Item) : List Str := l.filterMap fun x => match x with | .ok ln => keywordOf ln | .error _ => none

theorem itemKws_block (b : List PoLine) (l : List Item) : itemKws (b.map .ok ++ l) = kws b ++ itemKws l := by
  unfold itemKws kws
  rw [List.filterMap_append, List.filterMap_map]
  rfl

/-- Lines and items have the same keywords. -/
theorem count_lines {K : Str → Prop} {n c : Nat} {rs : List (Except IoErr Str)} {l : List Item} (h : LineItems n rs l) (he : ∀ e, .error e ∉ l)
    (hn : ∀ s, .ok s ∈ rs → '\n' ∉ s) (hc : Count K (itemKws l) c) : Count (KeywordLine K) rs c := by
  induction h generalizing c with
  | nil => cases hc; exact .nil
  | failed => exact absurd (List.mem_cons_self ..) (he _)
  | unrecognised => exact absurd (List.mem_cons_self ..) (he _)
  | blank hb _ ih =>
    refine .no ?_ (ih he (fun s hs => hn s (List.mem_cons_of_mem _ hs)) hc)
    rintro ⟨s, m, k, raw, hs, hq, _⟩
    cases hs
    have := classified_unique (hn _ (List.mem_cons_self ..)) hb (.keyword hq)
    cases this
  | @line n s rs ln l hl hb _ ih =>
    have ih := fun {c} => @ih c (fun e h => he e (List.mem_cons_of_mem _ h)) (fun s hs => hn s (List.mem_cons_of_mem _ hs))
    have key : KeywordLine K (.ok s) ↔ ∃ k, keywordOf ln = some k ∧ K k := by
      constructor
      · rintro ⟨s', m, k, raw, hs, hq, hk⟩
        cases hs
        have := classified_unique (hn _ (List.mem_cons_self ..)) hl (.keyword hq)
        cases this
        exact ⟨_, rfl, hk⟩
      · rintro ⟨k, hk, hK⟩
        generalize hx : some ln = x at hl
        cases hl with
        | keyword hq =>
          cases hx
          cases hk
          exact ⟨_, _, _, _, rfl, hq, hK⟩
        | blank => cases hx; cases hk
        | continuation => cases hx; cases hk
        | comment => cases hx; cases hk
        | unrecognised => cases hx
    cases hk : keywordOf ln with
    | none =>
      have : itemKws (.ok ln :: l) = itemKws l := by simp [itemKws, hk]
      rw [this] at hc
      refine .no ?_ (ih hc)
      rw [key, hk]
      rintro ⟨_, h, _⟩
      cases h
    | some k =>
      have : itemKws (.ok ln :: l) = k :: itemKws l := by simp [itemKws, hk]
      rw [this] at hc
      cases hc with
      | no h hc =>
        refine .no ?_ (ih hc)
        rw [key, hk]
        rintro ⟨_, h', h2⟩
        cases h'
        exact h h2
      | yes h hc => exact .yes (key.mpr ⟨_, hk, h⟩) (ih hc)

theorem values_kws {o : Bool} {hi lo : Nat} {b : List PoLine} {vs : List Str} (h : ValueFields o hi lo b vs) :
    (kws b).length = vs.length ∧ ∀ k ∈ kws b, ∃ i, k = valueKeyword i := by
  induction h with
  | nil => exact ⟨rfl, fun k hk => by cases hk⟩
  | cons _ _ f _ ih =>
    rw [kws_append, kws_field f]
    refine ⟨by simp [ih.1], fun k hk => ?_⟩
    rcases List.mem_cons.mp hk with hk | hk
    · exact ⟨_, hk⟩
    · exact ih.2 k hk

/-- An optional keyword. -/
def optKw (k : Str) (v : Option Str) : List Str := if v = none then [] else [k]

/-- The keywords of an entry. -/
theorem entry_kws {forms : Option PluralForms} {b : List PoLine} {u : PoUnit} (h : Entry forms b u) :
    ∃ pid ppl ts idPl, kws b = optKw (c!"|msgctxt") u.prevContext ++ (optKw (c!"|msgid") pid ++ (optKw (c!"|msgid_plural") ppl ++
      (optKw (c!"msgctxt") u.context ++ (c!"msgid" :: (optKw (c!"msgid_plural") idPl ++ ts))))) ∧ 
      ((idPl = none ∧ ¬ IsPlural u ∧ pluralTexts u = 0 ∧ ts = [c!"msgstr"]) ∨
       (idPl ≠ none ∧ IsPlural u ∧ ts.length = pluralTexts u ∧ ∀ k ∈ ts, ∃ i, k = valueKeyword i)) := by
  obtain ⟨cs, b1, b2, b3, b4, b5, b6, b7, pid, ppl, id, idPl, rfl, f1, f2, f3, g3, f4, f5, f6, f7, f8, f9, f10⟩ := h
  refine ⟨pid, ppl, kws b7, idPl, ?_, ?_⟩
  · simp only [kws_append, kws_comments, List.nil_append, kws_opt f1, kws_opt f2, kws_opt f3, kws_opt f4, kws_field f5, kws_opt f6]
    rfl
  · unfold IsPlural pluralTexts
    generalize u.message = m at f7
    cases f7 with
    | simple f => exact .inl ⟨rfl, (by rintro ⟨p, h⟩; cases h), rfl, kws_field f⟩
    | plural f _ => exact .inr ⟨by simp, ⟨_, rfl⟩, (values_kws f).1, (values_kws f).2⟩

theorem head_kws {o : Bool} {b : List PoLine} (h : EntryHead o b) :
    ∃ pc pid ppl ctx, kws b = optKw (c!"|msgctxt") pc ++ (optKw (c!"|msgid") pid ++ (optKw (c!"|msgid_plural") ppl ++ optKw (c!"msgctxt") ctx)) := by
  obtain ⟨cs, b1, b2, b3, b4, pc, pid, ppl, ctx, rfl, f1, f2, f3, g3, f4⟩ := h
  refine ⟨pc, pid, ppl, ctx, ?_⟩
  simp only [kws_append, kws_comments, List.nil_append, kws_opt f1, kws_opt f2, kws_opt f3, kws_opt f4]
  rfl

theorem tail_kws {forms : Option PluralForms} {l : List Item} (h : Stops forms l none) :
    ∃ pc pid ppl ctx id pl, itemKws l = optKw (c!"|msgctxt") pc ++ (optKw (c!"|msgid") pid ++ (optKw (c!"|msgid_plural") ppl ++ (optKw (c!"msgctxt") ctx ++
      (optKw (c!"msgid") id ++ optKw (c!"msgid_plural") pl)))) ∧ (id = none → pl = none) := by
  obtain ⟨b, rfl, ⟨o, h⟩ | ⟨o, idPl, h⟩⟩ := stops_none h
  · obtain ⟨pc, pid, ppl, ctx, hk⟩ := head_kws h
    refine ⟨pc, pid, ppl, ctx, none, none, ?_, fun _ => rfl⟩
    have := itemKws_block b []
    rw [List.append_nil] at this
    rw [this, hk]
    simp [optKw, itemKws]
  · obtain ⟨a, b5, b6, id, rfl, h1, f5, f6⟩ := h
    obtain ⟨pc, pid, ppl, ctx, hk⟩ := head_kws h1
    refine ⟨pc, pid, ppl, ctx, some id, idPl, ?_, fun h => by cases h⟩
    have := itemKws_block (a ++ (b5 ++ b6)) []
    rw [List.append_nil] at this
    rw [this, kws_append, kws_append, hk, kws_field f5, kws_opt f6]
    simp [optKw, itemKws]

theorem count_opt {K : Str → Prop} {k : Str} (h : K k) (v : Option Str) : Count K (optKw k v) (if v = none then 0 else 1) := by
  unfold optKw
  split
  · exact .nil
  · exact .yes h .nil

theorem count_opt_no {K : Str → Prop} {k : Str} (h : ¬ K k) (v : Option Str) : Count K (optKw k v) 0 := by
  unfold optKw
  split
  · exact .nil
  · exact .no h .nil

/-- Entries and their units, one by one. -/
theorem after_count {forms : Option PluralForms} {K : Str → Prop} {P : PoUnit → Prop} (hw : ∀ b u, Entry forms b u → (P u ∧ Count K (kws b) 1) ∨ (¬ P u ∧ Count K (kws b) 0))
    {l l' : List Item} {us : List PoUnit} (h : After forms l us l') {d : Nat} (hd : Count K (itemKws l') d) : ∃ n, Count P us n ∧ Count K (itemKws l) (n + d) := by
  induction h with
  | refl => exact ⟨0, .nil, by rwa [Nat.zero_add]⟩
  | entry he _ _ _ ih =>
    obtain ⟨n, h1, h2⟩ := ih hd
    rw [itemKws_block]
    rcases hw _ _ he with ⟨hp, hk⟩ | ⟨hp, hk⟩
    · exact ⟨n + 1, .yes hp h1, by rw [Nat.add_right_comm, Nat.add_comm]; exact count_append hk h2⟩
    · exact ⟨n, .no hp h1, by rw [← Nat.zero_add (n + d)]; exact count_append hk h2⟩

theorem after_count_texts {forms : Option PluralForms} {l l' : List Item} {us : List PoUnit} (h : After forms l us l') {d : Nat}
    (hd : Count (fun k => ∃ i, k = valueKeyword i) (itemKws l') d) : Count (fun k => ∃ i, k = valueKeyword i) (itemKws l) ((us.map pluralTexts).sum + d) := by
  induction h with
  | refl => simpa using hd
  | entry he _ _ _ ih =>
    have ih := ih hd
    rw [itemKws_block, List.map_cons, List.sum_cons, Nat.add_assoc]
    refine count_append ?_ ih
    obtain ⟨pid, ppl, ts, idPl, hk, ht⟩ := entry_kws he
    have no : ∀ k ∈ [c!"|msgctxt", c!"|msgid", c!"|msgid_plural", c!"msgctxt", c!"msgid", c!"msgid_plural", c!"msgstr"], ¬ ∃ i, k = valueKeyword i := by
      rintro k hk ⟨i, hi⟩
      refine not_valueKeyword ?_ i hi
      clear hi
      revert k
      decide
    rw [hk, ← Nat.zero_add (pluralTexts _)]
    refine count_append (count_opt_no (no _ (by simp)) _) ?_
    rw [← Nat.zero_add (pluralTexts _)]
    refine count_append (count_opt_no (no _ (by simp)) _) ?_
    rw [← Nat.zero_add (pluralTexts _)]
    refine count_append (count_opt_no (no _ (by simp)) _) ?_
    rw [← Nat.zero_add (pluralTexts _)]
    refine count_append (count_opt_no (no _ (by simp)) _) (.no (no _ (by simp)) ?_)
    rw [← Nat.zero_add (pluralTexts _)]
    refine count_append (count_opt_no (no _ (by simp)) _) ?_
    rcases ht with ⟨_, _, h0, rfl⟩ | ⟨_, _, h0, h1⟩
    · rw [h0]
      exact .no (no _ (by simp)) .nil
    · rw [← h0]
      exact count_all h1

theorem count_word (k : Str) (l : List Str) : Count (fun x => x = k) l (l.count k) := by
  induction l with
  | nil => exact .nil
  | cons x l ih =>
    by_cases h : x = k
    · rw [h, List.count_cons_self]
      exact .yes rfl ih
    · rw [List.count_cons_of_ne h]
      exact .no h ih

theorem count_optKw (k k' : Str) (v : Option Str) : (optKw k v).count k' = if k = k' ∧ v ≠ none then 1 else 0 := by
  unfold optKw
  by_cases hv : v = none
  · simp [hv]
  · by_cases hk : k = k' <;> simp [hv, hk]

/-- How often a keyword occurs in an entry. -/
theorem entry_count {forms : Option PluralForms} {b : List PoLine} {u : PoUnit} (h : Entry forms b u) :
    (kws b).count (c!"msgid") = 1 ∧ ((IsPlural u ∧ (kws b).count (c!"msgid_plural") = 1) ∨ (¬ IsPlural u ∧ (kws b).count (c!"msgid_plural") = 0)) ∧
    ((¬ IsPlural u ∧ (kws b).count (c!"msgstr") = 1) ∨ (¬ ¬ IsPlural u ∧ (kws b).count (c!"msgstr") = 0)) ∧
    ((u.context ≠ none ∧ (kws b).count (c!"msgctxt") = 1) ∨ (¬ u.context ≠ none ∧ (kws b).count (c!"msgctxt") = 0)) ∧
    ((u.prevContext ≠ none ∧ (kws b).count (c!"|msgctxt") = 1) ∨ (¬ u.prevContext ≠ none ∧ (kws b).count (c!"|msgctxt") = 0)) := by
  obtain ⟨pid, ppl, ts, idPl, hk, ht⟩ := entry_kws h
  have hts : ∀ k : Str, k.take 7 ≠ c!"msgstr[" → (∀ k ∈ ts, ∃ i, k = valueKeyword i) → ts.count k = 0 := by
    intro k hk h
    rw [List.count_eq_zero]
    intro hm
    obtain ⟨i, hi⟩ := h k hm
    exact not_valueKeyword hk i hi
  have hx : ∀ (v : Option Str) (a : Nat), a = (if v ≠ none then 1 else 0) → (v ≠ none ∧ a = 1) ∨ (¬ v ≠ none ∧ a = 0) := by
    intro v a h
    by_cases hv : v ≠ none
    · rw [if_pos hv] at h; exact .inl ⟨hv, h⟩
    · rw [if_neg hv] at h; exact .inr ⟨hv, h⟩
  rw [hk]
  simp only [List.count_append, count_optKw, List.count_cons]
  rcases ht with ⟨rfl, hp, _, rfl⟩ | ⟨hi, hp, _, h1⟩
  · refine ⟨by simp, .inr ⟨hp, by simp⟩, .inl ⟨hp, by simp⟩, hx _ _ (by simp), hx _ _ (by simp)⟩
  · have c1 := hts (c!"msgid") (by decide) h1
    have c2 := hts (c!"msgid_plural") (by decide) h1
    have c3 := hts (c!"msgstr") (by decide) h1
    have c4 := hts (c!"msgctxt") (by decide) h1
    have c5 := hts (c!"|msgctxt") (by decide) h1
    refine ⟨by simp [c1], .inl ⟨hp, by simp [c2, hi]⟩, .inr ⟨fun h => h hp, by simp [c3]⟩, hx _ _ (by simp [c4]), hx _ _ (by simp [c5])⟩

theorem after_count_eq {forms : Option PluralForms} (k : Str) {P : PoUnit → Prop}
    (hw : ∀ b u, Entry forms b u → (P u ∧ (kws b).count k = 1) ∨ (¬ P u ∧ (kws b).count k = 0))
    {l l' : List Item} {us : List PoUnit} (h : After forms l us l') : ∃ n, Count P us n ∧ Count (fun x => x = k) (itemKws l) (n + (itemKws l').count k) := by
  refine after_count (fun b u he => ?_) h (count_word k _)
  rcases hw b u he with ⟨h1, h2⟩ | ⟨h1, h2⟩
  · exact .inl ⟨h1, by rw [← h2]; exact count_word k _⟩
  · exact .inr ⟨h1, by rw [← h2]; exact count_word k _⟩

/-- The lines after the header are read as a run. -/
theorem body_run {env : Env} {stream : List Event} {rs : List (Except IoErr Str)} {hdr : Header env.Lang} {us : List PoUnit} {e : Option Err}
    (h : Body stream rs) (hy : Yields (parse env stream) hdr (results us e)) :
    (∀ s, .ok s ∈ rs → '\n' ∉ s) ∧ ∃ forms n, Run forms (items n rs) us e := by
  rcases h with ⟨hd, h, hh, hc⟩ | ⟨h, hn⟩
  · obtain ⟨f, _, hr⟩ := after_header h hh hc hy
    exact ⟨fun s hs => rawLines_no_nl (inp := flatten stream) (s := s) (by rw [h]; simp [hs]), _, _, hr⟩
  · refine ⟨fun s hs => rawLines_no_nl (inp := flatten stream) (s := s) (by rw [h]; exact hs), none, 1, ?_⟩
    obtain ⟨forms, us1, e1, hx, hr⟩ := yields_reads hy
    obtain ⟨rfl, rfl⟩ := results_inj hx
    rw [streamItems_code, h] at hr hn
    cases hr with
    | nothing f => exact .stop (first_nothing f)
    | plain f hrun =>
      obtain ⟨block, hl, hb, hsrc, hend⟩ := first_unit f
      rw [hl]
      exact .entry hb hsrc hend hrun
    | headed f => exact (hn _ _ _ _ f).elim

/-- **C75** In an input that is read without error, after the header, there are as many `msgstr` lines as simple units, and as many `msgstr[i]` lines as texts
in the plural units. -/
theorem C75_texts {env : Env} {stream : List Event} {rs : List (Except IoErr Str)} {hdr : Header env.Lang} {us : List PoUnit} (h : Body stream rs)
    (hy : Yields (parse env stream) hdr (results us none)) :
    (∃ n, Count (fun u => ¬ IsPlural u) us n ∧ Count (KeywordLine fun k => k = c!"msgstr") rs n) ∧
    Count (KeywordLine fun k => ∃ i, k = valueKeyword i) rs (us.map pluralTexts).sum := by
  obtain ⟨hn, forms, m, hr⟩ := body_run h hy
  have lines : ∀ {K : Str → Prop} {c : Nat}, Count K (itemKws (items m rs)) c → Count (KeywordLine K) rs c :=
    fun hc => count_lines (items_lineItems hn _) (run_no_error hr) hn hc
  obtain ⟨l', ha, hs⟩ := hr.after
  obtain ⟨pc, pid, ppl, ctx, id, pl, hk, _⟩ := tail_kws hs
  constructor
  · obtain ⟨n, h1, h2⟩ := after_count_eq (c!"msgstr") (P := fun u => ¬ IsPlural u) (fun b u he => (entry_count he).2.2.1) ha
    refine ⟨n, h1, ?_⟩
    have : (itemKws l').count (c!"msgstr") = 0 := by
      rw [hk]
      simp only [List.count_append, count_optKw]
      simp
    rw [this] at h2
    exact lines h2
  · refine lines (after_count_texts ha (d := 0) (count_none fun k hm => ?_))
    rintro ⟨i, rfl⟩
    have : ∀ k : Str, ∀ v, valueKeyword i ∈ optKw k v → k = valueKeyword i := by
      intro k v hm
      unfold optKw at hm
      split at hm
      · cases hm
      · exact (List.mem_singleton.mp hm).symm
    rw [hk] at hm
    simp only [List.mem_append] at hm
    rcases hm with hm | hm | hm | hm | hm | hm <;> exact absurd (this _ _ hm) (not_valueKeyword (by decide) i)

/-- **C75** There are as many `msgid` lines as units, as many `msgid_plural` lines as plural units, as many `msgctxt` lines as units with a context and
as many previous `msgctxt` lines as units with a previous context; except that there can be one more of each, from an entry that is cut off at the end. -/
theorem C75_ids {env : Env} {stream : List Event} {rs : List (Except IoErr Str)} {hdr : Header env.Lang} {us : List PoUnit} (h : Body stream rs)
    (hy : Yields (parse env stream) hdr (results us none)) :
    ∃ n₁ n₂ n₃ d₀ d₁ d₂ d₃ : Nat, d₁ ≤ d₀ ∧ d₀ ≤ 1 ∧ d₂ ≤ 1 ∧ d₃ ≤ 1 ∧ (EndsWithText rs → d₀ = 0 ∧ d₁ = 0 ∧ d₂ = 0 ∧ d₃ = 0) ∧
      Count (KeywordLine fun k => k = c!"msgid") rs (us.length + d₀) ∧
      Count IsPlural us n₁ ∧ Count (KeywordLine fun k => k = c!"msgid_plural") rs (n₁ + d₁) ∧
      Count (fun u => u.context ≠ none) us n₂ ∧ Count (KeywordLine fun k => k = c!"msgctxt") rs (n₂ + d₂) ∧
      Count (fun u => u.prevContext ≠ none) us n₃ ∧ Count (KeywordLine fun k => k = c!"|msgctxt") rs (n₃ + d₃) := by
  obtain ⟨hn, forms, m, hr⟩ := body_run h hy
  have lines : ∀ {K : Str → Prop} {c : Nat}, Count K (itemKws (items m rs)) c → Count (KeywordLine K) rs c :=
    fun hc => count_lines (items_lineItems hn _) (run_no_error hr) hn hc
  suffices ∃ l', After forms (items m rs) us l' ∧ Stops forms l' none ∧ (EndsWithText rs → l' = []) by
    obtain ⟨l', ha, hs, ht⟩ := this
    obtain ⟨pc, pid, ppl, ctx, id, pl, hk, hi⟩ := tail_kws hs
    obtain ⟨n₀, a0, b0⟩ := after_count_eq (c!"msgid") (P := fun _ => True) (fun b u he => .inl ⟨trivial, (entry_count he).1⟩) ha
    obtain ⟨n₁, a1, b1⟩ := after_count_eq (c!"msgid_plural") (P := IsPlural) (fun b u he => (entry_count he).2.1) ha
    obtain ⟨n₂, a2, b2⟩ := after_count_eq (c!"msgctxt") (P := fun u => u.context ≠ none) (fun b u he => (entry_count he).2.2.2.1) ha
    obtain ⟨n₃, a3, b3⟩ := after_count_eq (c!"|msgctxt") (P := fun u => u.prevContext ≠ none) (fun b u he => (entry_count he).2.2.2.2) ha
    have : n₀ = us.length := a0.unique (count_all fun _ _ => trivial)
    subst this
    refine ⟨n₁, n₂, n₃, _, _, _, _, ?_, ?_, ?_, ?_, ?_, lines b0, a1, lines b1, a2, lines b2, a3, lines b3⟩
    · rw [hk]
      simp only [List.count_append, count_optKw]
      cases id with
      | none => simp [hi rfl]
      | some _ => cases pl <;> simp
    · rw [hk]
      simp only [List.count_append, count_optKw]
      cases id <;> simp
    · rw [hk]
      simp only [List.count_append, count_optKw]
      cases ctx <;> simp
    · rw [hk]
      simp only [List.count_append, count_optKw]
      cases pc <;> simp
    · intro he
      rw [ht he]
      simp [itemKws]
  by_cases he : EndsWithText rs
  · exact ⟨[], after_complete hn hr (.inl he), .endsInHead (o := false) (block := []) ⟨[], [], [], [], [], none, none, none, none, rfl, .none, .none, .none, fun _ => rfl, .none⟩, fun _ => rfl⟩
  · obtain ⟨l', ha, hs⟩ := hr.after
    exact ⟨l', ha, hs, fun h => absurd h he⟩

/-! ### Example -/

/-- Two texts, then an entry that is cut off. -/
def cutTexts : List Str := twoTexts ++ [c!"msgctxt \"x\"", c!"msgid \"a\""]

theorem cutTexts_yields :
    Yields (parse demoEnv (textStream (headLines (c!"X: y") ++ cutTexts))) ⟨[], [], [(c!"X", c!"y")], []⟩ (results [twoTextsUnit none] none) :=
  yields_text (env := demoEnv) (res := ⟨⟨[], [], [(c!"X", c!"y")], []⟩, none, [twoTextsUnit none], none⟩) (by decide) (by rfl)

theorem cutTexts_body : Body (textStream (headLines (c!"X: y") ++ cutTexts)) (cutTexts.map .ok) :=
  .inl ⟨(headLines (c!"X: y")).map .ok, by rw [rawLines_text (by decide)]; rfl, headerLines_demo _, noContinuation_head (by decide) rfl⟩

-- `C75_texts`: two lines `msgstr[i]`, none with `msgstr`
example : Count (KeywordLine fun k => ∃ i, k = valueKeyword i) (cutTexts.map .ok) 2 ∧ Count (KeywordLine fun k => k = c!"msgstr") (cutTexts.map .ok) 0 := by
  obtain ⟨⟨n, h1, h2⟩, h3⟩ := C75_texts cutTexts_body cutTexts_yields
  have : Count (fun u => ¬ IsPlural u) [twoTextsUnit none] 0 := .no (fun h => h ⟨_, rfl⟩) .nil
  rw [h1.unique this] at h2
  exact ⟨h3, h2⟩

-- `C75_ids`: one or two lines `msgid`; here there are two, because the last entry is cut off
example : (∃ d ≤ 1, Count (KeywordLine fun k => k = c!"msgid") (cutTexts.map .ok) (1 + d)) ∧ ¬ EndsWithText (cutTexts.map .ok) := by
  obtain ⟨n₁, n₂, n₃, d₀, d₁, d₂, d₃, _, h0, _, _, he, h, _⟩ := C75_ids cutTexts_body cutTexts_yields
  refine ⟨⟨d₀, h0, h⟩, fun hx => ?_⟩
  have hd := (he hx).1
  subst hd
  have two : Count (fun x => x = c!"msgid") (itemKws (items 0 (cutTexts.map .ok))) 2 := by
    have : itemKws (items 0 (cutTexts.map .ok)) = [c!"msgid", c!"msgid_plural", c!"msgstr[0]", c!"msgstr[1]", c!"msgctxt", c!"msgid"] := by rfl
    rw [this]
    exact count_word (c!"msgid") _
  have hn : ∀ s, .ok s ∈ cutTexts.map (Except.ok (ε := IoErr)) → '\n' ∉ s := by
    intro s hs
    simp only [List.mem_map, Except.ok.injEq, exists_eq_right] at hs
    revert s
    decide
  have hb : (items 0 (cutTexts.map .ok)).all (fun x => match x with | .ok _ => true | .error _ => false) = true := by rfl
  rw [List.all_eq_true] at hb
  have := count_lines (items_lineItems hn 0) (fun e he => by cases hb _ he) hn two
  exact absurd (h.unique this) (by decide)

end Verif
