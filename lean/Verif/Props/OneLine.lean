import Verif.Spec.OneLine
import Verif.Props.Least
import Verif.Props.Chars

/-! C89: inputs of a single line; line feeds are the only line ends. -/

namespace Verif
open Spec

theorem same_plain {env : Env} {h : Header env.Lang} (hs : SameHeader h (plainHeader env)) : h = plainHeader env := by
  obtain ⟨a, b, p, l⟩ := h
  obtain ⟨h1, h2, h3, h4⟩ := hs
  simp only [plainHeader] at h1 h2 h3 h4
  subst h1 h2 h4
  cases p with
  | nil => rfl
  | cons q p =>
    have := h3 q.1
    simp [List.lookup] at this

theorem yields_plain {env : Env} {stream : List Event} {us : List PoUnit} {e : Option Err} (h : Reads env (streamItems stream) (plainHeader env) none us e) :
    Yields (parse env stream) (plainHeader env) (results us e) := by
  obtain ⟨hdr, h1, h2⟩ := reads_yields h
  rw [same_plain h1] at h2
  exact h2

/-- The header data of a header without text and comments. -/
theorem headerRule_plain (env : Env) : HeaderRule env [] [] [] (plainHeader env) where
  notes := rfl
  comments := rfl
  keys := by simp [plainHeader]
  properties ls hl k vs hv := by
    have hnil : ∀ ls, IsLines [] ls → ls = [[]] := by
      rintro (_ | ⟨a, _ | ⟨b, ls⟩⟩) ⟨h1, h2, h3⟩
      · exact absurd rfl h1
      · simp at h3; rw [← h3]
      · simp [List.intercalate, List.intersperse] at h3
    rw [hnil ls hl] at hv
    cases hv with
    | hit h => obtain ⟨a, b, h, _⟩ := h; simp at h
    | miss _ h => cases h; rfl
  language := rfl

theorem reads_empty_header {env : Env} {l rest : List Item} {e : Option Err} (h : First l (.header [] [] [] rest)) (hs : Stops none rest e) :
    Reads env l (plainHeader env) none [] e :=
  .headed h (headerRule_plain env) .absent (.stop hs)

theorem first_prefix_line {ln : PoLine} (h : FirstPrefix [ln]) : IsComment ln ∨ ∃ k, keywordOf ln = some k ∧ BeginsEntry k := by
  have hk : kws [ln] = (keywordOf ln).toList := by
    unfold kws
    cases h : keywordOf ln <;> simp [h]
  have head : ∀ {o}, EntryHead o [ln] → IsComment ln ∨ ∃ k, keywordOf ln = some k ∧ BeginsEntry k := by
    intro o h
    cases hl : keywordOf ln with
    | none =>
      have := prefix_no_kws (forms := none) (.inl ⟨o, h⟩) (by rw [hk, hl]; rfl) ln (by simp)
      exact .inl this
    | some k =>
      right
      refine ⟨k, rfl, ?_⟩
      obtain ⟨cs, b1, b2, b3, b4, pc, pid, ppl, ctx, hb, f1, f2, f3, g3, f4⟩ := h
      rcases kws_head ⟨cs, b1, b2, b3, b4, pc, pid, ppl, ctx, hb, f1, f2, f3, g3, f4⟩ (k := k) (by rw [hk, hl]; simp) with rfl | rfl | rfl | rfl
      · exact .inl rfl
      · exact .inr (.inl rfl)
      · exfalso
        have e : kws [ln] = [c!"|msgid_plural"] := by rw [hk, hl]; rfl
        rw [hb] at e
        simp only [kws_append, kws_comments, kws_opt f1, kws_opt f2, kws_opt f3, kws_opt f4, List.nil_append] at e
        cases pc <;> cases pid <;> cases ppl <;> cases ctx <;> simp at e g3
      · exact .inr (.inr (.inl rfl))
  have ids : ∀ {o idPl}, EntryIds o idPl [ln] → IsComment ln ∨ ∃ k, keywordOf ln = some k ∧ BeginsEntry k := by
    rintro o idPl ⟨b, b5, b6, id, hb, h1, h2, h3⟩
    have e : kws [ln] = kws b ++ ([c!"msgid"] ++ kws b6) := by rw [hb, kws_append, kws_append, kws_field h2]
    rw [hk] at e
    cases hl : keywordOf ln with
    | none => rw [hl] at e; simp at e
    | some k =>
      rw [hl] at e
      have hm : c!"msgid" ∈ (some k).toList := by rw [e]; simp
      have hm : c!"msgid" = k := by simpa using hm
      exact .inr ⟨k, rfl, .inr (.inr (.inr (.inl hm.symm)))⟩
  rcases h with (⟨o, h⟩ | ⟨o, idPl, h⟩ | ⟨u, h⟩) | ⟨o, b, b6, pl, hb, h1, h2⟩
  · exact head h
  · exact ids h
  · have := entry_least h
    have h2 : 2 ≤ messageLeast u.message := by cases u.message <;> simp [messageLeast]
    unfold unitLeast at this
    simp only [List.length_cons, List.length_nil] at this
    omega
  · have e : kws [ln] = kws b ++ [c!"msgid_plural"] := by rw [hb, kws_append, kws_field h2]
    rw [hk] at e
    cases hl : keywordOf ln with
    | none => rw [hl] at e; simp at e
    | some k =>
      rw [hl] at e
      have hm : c!"msgid_plural" ∈ (some k).toList := by rw [e]; simp
      have hm : c!"msgid_plural" = k := by simpa using hm
      exact .inr ⟨k, rfl, .inr (.inr (.inr (.inr hm.symm)))⟩

/-- A line that begins no entry. -/
theorem reads_stray {env : Env} {ln : PoLine} (h : ¬ FirstPrefix [ln]) : Reads env [.ok ln] (plainHeader env) none [] (some (missing (c!"msgid") ln)) := by
  have hh : EntryHead false [] := entryHead_comments false []
  refine reads_empty_header (rest := [.ok ln]) ?_ ?_
  · exact .noId (block := []) (.inl ⟨_, hh⟩) (.inl (by simp)) (.inr ⟨ln, [], rfl, h⟩)
  · exact .noId (block := []) hh (fun hp => h (.inl hp))

theorem reads_begins {env : Env} {n : Nat} {p k t : Str} (h : BeginsEntry k) : Reads env [.ok (.message n p k t)] (plainHeader env) none [] none := by
  obtain ⟨o, ho⟩ : ∃ o : Bool, o = true ↔ Tilde p := ⟨decide (p.head? = some '~'), by simp [Tilde]⟩
  have hf : ∀ kw, Field kw o [.message n p kw t] t := fun kw => ⟨p, ⟨n, t, [], by simp, by simp⟩, ho⟩
  have hempty : Stops none [] none := .endsInHead (block := []) (entryHead_comments false [])
  have hhead : ∀ {ln}, EntryHead o [ln] ∨ StrayPlural [ln] → ¬ IsComment ln → commentOf ln = none → Reads env [.ok ln] (plainHeader env) none [] none := by
    intro ln h hc hn
    refine reads_empty_header (rest := []) ?_ hempty
    have := First.noId (block := [ln]) (rest := []) (h.imp (fun h => ⟨o, h⟩) id) (.inr ⟨ln, by simp, hc⟩) (.inl rfl)
    simpa [notesOf, commentsOf, hn] using this
  have hnc : ∀ kw, ¬ IsComment (.message n p kw t) := by rintro kw ⟨c, hc⟩; cases hc
  rcases h with rfl | rfl | rfl | rfl | rfl
  · exact hhead (.inl ⟨[], _, [], [], [], some t, none, none, none, by simp, .some (hf _), .none, .none, fun _ => rfl, .none⟩) (hnc _) rfl
  · exact hhead (.inl ⟨[], [], _, [], [], none, some t, none, none, by simp, .none, .some (hf _), .none, fun _ => rfl, .none⟩) (hnc _) rfl
  · exact hhead (.inl ⟨[], [], [], [], _, none, none, none, some t, by simp, .none, .none, .none, fun _ => rfl, .some (hf _)⟩) (hnc _) rfl
  · exact .nothing (.cut (o := o) (idPl := none) (block := [.message n p (c!"msgid") t])
      ⟨[], _, [], t, by simp, entryHead_comments o [], hf _, .none⟩)
  · exact hhead (.inr ⟨o, [], _, t, rfl, entryHead_comments o [], hf _⟩) (hnc _) rfl

/-- **C89** What an input that consists of one line gives. -/
theorem C89_one (env : Env) {stream : List Event} {s : Str} (h : rawLines (flatten stream) = [.ok s]) {o : Except Err (Option Err)} (ho : OneLine s o) :
    match o with
    | .error e => Fails (parse env stream) e
    | .ok e => Yields (parse env stream) (plainHeader env) (results [] e) := by
  obtain ⟨h1, h2⟩ := one_line h
  have item : ∀ {ln}, ln ≠ .blank → Classified s 1 (some ln) → streamItems stream = [.ok ln] := by
    intro ln hb hc
    rw [h2]
    unfold items
    rw [(C06_line_classification s 1 h1 _).mpr hc]
    cases ln <;> first | rfl | exact absurd rfl hb
  cases ho with
  | unrecognised hc => exact fails_unrecognised h hc
  | blank hw =>
    apply yields_plain
    rw [h2]
    unfold items
    rw [(C06_line_classification s 1 h1 _).mpr (.blank hw)]
    exact .nothing (.comments (block := []) (by simp))
  | comment hc =>
    apply yields_plain
    rw [item (by simp) hc]
    exact .nothing (.comments (block := [_]) (by intro ln hl; rw [List.mem_singleton.mp hl]; exact ⟨(_, _, _), rfl⟩))
  | begins hq hb =>
    apply yields_plain
    rw [item (by simp) (.keyword hq)]
    exact reads_begins hb
  | stray hq hb =>
    apply yields_plain
    rw [item (by simp) (.keyword hq)]
    refine reads_stray fun hp => ?_
    rcases first_prefix_line hp with ⟨c, hc⟩ | ⟨k, hk, hb'⟩
    · cases hc
    · cases hk; exact hb hb'
  | continuation hq =>
    apply yields_plain
    rw [item (by simp) (.continuation hq)]
    refine reads_stray fun hp => ?_
    rcases first_prefix_line hp with ⟨c, hc⟩ | ⟨k, hk, hb'⟩
    · cases hc
    · cases hk

/-- **C89** One of these cases applies to every line. -/
theorem C89_total (s : Str) (h : '\n' ∉ s) : ∃ o, OneLine s o := by
  have hc := (C06_line_classification s 1 h _).mp rfl
  generalize parseLine s 1 = x at hc
  cases hc with
  | blank hw => exact ⟨_, .blank hw⟩
  | @keyword m k raw hq =>
    by_cases hb : BeginsEntry (taggedKeyword m k)
    · exact ⟨_, .begins hq hb⟩
    · exact ⟨_, .stray hq hb⟩
  | continuation hq => exact ⟨_, .continuation hq⟩
  | comment hw he hq => exact ⟨_, .comment (.comment hw he hq)⟩
  | unrecognised h1 h2 h3 => exact ⟨_, .unrecognised (.unrecognised h1 h2 h3)⟩

theorem no_lf_lines {stream : List Event} (h : (10 : UInt8) ∉ (flatten stream).1) : (rawLines (flatten stream)).length ≤ 1 := by
  unfold rawLines
  rw [byteLines_eq, splitNl_none h]
  simp only [List.map_nil, List.nil_append]
  split
  · simp
  · split <;> simp

/-- **C89** An input without a line feed gives no unit, whatever other line ends it has. -/
theorem C89_no_lf {env : Env} {stream : List Event} {hdr : Header env.Lang} {us : List PoUnit} {e : Option Err} (h : (10 : UInt8) ∉ (flatten stream).1)
    (hy : Yields (parse env stream) hdr (results us e)) : us = [] := by
  have h1 := C88_two hy
  have h2 := no_lf_lines h
  have h3 : solidLines stream ≤ (rawLines (flatten stream)).length := List.length_filter_le _ _
  exact List.length_eq_zero_iff.mp (by omega)

/-- **C89** Lines with carriage returns between them, the first of them a `msgid` line and the last one ending in a quote: everything is lost, without
an error. -/
theorem C89_cr (env : Env) {stream : List Event} {id l : Str} {ls : List Str} (hn : ∀ x ∈ l :: ls, '\n' ∉ x)
    (hd : Delivers stream (utf8 (crJoin (kwLine (c!"msgid") id :: (ls ++ [l ++ ['"']]))))) : Yields (parse env stream) (plainHeader env) (results [] none) := by
  have hj : ∀ xs : List Str, (∀ x ∈ xs, '\n' ∉ x) → ∃ t, '\n' ∉ t ∧ crJoin (xs ++ [l ++ ['"']]) = t ++ ['"'] := by
    intro xs hx
    induction xs with
    | nil => exact ⟨l, hn l (by simp), by simp [crJoin, List.intercalate]⟩
    | cons x xs ih =>
      obtain ⟨t, h1, h2⟩ := ih fun y hy => hx y (List.mem_cons_of_mem _ hy)
      refine ⟨x ++ '\r' :: t, ?_, ?_⟩
      · have := hx x (by simp)
        simp [this, h1]
      · have : crJoin (x :: xs ++ [l ++ ['"']]) = x ++ '\r' :: crJoin (xs ++ [l ++ ['"']]) := by
          unfold crJoin
          cases xs <;> simp [List.intercalate, List.intersperse]
        rw [this, h2]
        simp
  obtain ⟨t, h1, h2⟩ := hj ls fun x hx => hn x (List.mem_cons_of_mem _ hx)
  have h3 : crJoin (kwLine (c!"msgid") id :: (ls ++ [l ++ ['"']])) = kwLine (c!"msgid") id ++ '\r' :: crJoin (ls ++ [l ++ ['"']]) := by
    unfold crJoin
    cases ls <;> simp [List.intercalate, List.intersperse]
  have hq : QuotedLine (crJoin (kwLine (c!"msgid") id :: (ls ++ [l ++ ['"']]))) none (some (c!"msgid")) (esc id ++ '"' :: '\r' :: t) := by
    refine ⟨by simp, fun k hk => ?_, [], [], [' '], [], by decide, by decide, by decide, by decide, ?_⟩
    · cases hk; exact .inr (.inl rfl)
    · rw [h3, h2]
      simp [kwLine, markerText]
  have hnl : '\n' ∉ crJoin (kwLine (c!"msgid") id :: (ls ++ [l ++ ['"']])) := by
    rw [h3, h2]
    have := esc_nl id
    simp [kwLine, h1, this]
  have hne : crJoin (kwLine (c!"msgid") id :: (ls ++ [l ++ ['"']])) ≠ [] := by rw [h3]; simp [kwLine]
  refine C89_one env (s := crJoin (kwLine (c!"msgid") id :: (ls ++ [l ++ ['"']]))) ?_ (.begins hq ?_)
  · rw [show flatten stream = _ from hd, rawLines_rendering (.last hne hnl)]
    rfl
  · exact .inr (.inr (.inr (.inl rfl)))

/-- The natural claim that a carriage return alone ends a line. -/
theorem C89_refuted : ¬ ∀ (env : Env) (ls : List Str) (s₁ s₂ : List Event) (hdr : Header env.Lang) (us : List PoUnit), Delivers s₁ (utf8 (List.intercalate ['\n'] ls)) →
    Delivers s₂ (utf8 (crJoin ls)) → Yields (parse env s₁) hdr (results us none) → Yields (parse env s₂) hdr (results us none) := by
  intro h
  obtain ⟨s₁, h1⟩ := delivers_exists (utf8 (List.intercalate ['\n'] [c!"msgid \"a\"", c!"msgstr \"b\""]))
  obtain ⟨s₂, h2⟩ := delivers_exists (utf8 (crJoin [c!"msgid \"a\"", c!"msgstr \"b\""]))
  have hr : Rendering [c!"msgid \"a\"", c!"msgstr \"b\""] (List.intercalate ['\n'] [c!"msgid \"a\"", c!"msgstr \"b\""]) :=
    .lf (l := c!"msgid \"a\"") (by decide) (.last (l := c!"msgstr \"b\"") (by decide) (by decide))
  have hy : Yields (parse demoEnv s₁) (plainHeader demoEnv) (results [unitAB (c!"a") (c!"b")] none) := by
    have := parse_stream demoEnv s₁
    rw [streamItems_code, show flatten s₁ = _ from h1, rawLines_rendering hr] at this
    exact this
  have hy := h demoEnv _ s₁ s₂ _ _ h1 h2 hy
  have hy' := C89_cr demoEnv (id := c!"a") (ls := []) (l := c!"msgstr \"b") (by decide) h2
  exact absurd (results_inj (hy.unique hy').2).1 (by simp)

/-! ### Examples -/

-- every case occurs
example : OneLine (c!"msgid \"a") (.error (.parse 2 (c!"msgid \"a") [])) := .unrecognised ((C06_line_classification _ _ (by decide) _).mp rfl)
example : OneLine (c!" \t") (.ok none) := .blank (by decide)
example : OneLine (c!"# a") (.ok none) := .comment ((C06_line_classification _ _ (by decide) (some (.comment 1 ' ' (c!"a")))).mp rfl)
example : OneLine (c!"#~| msgid \"a\"") (.ok none) :=
  .begins (m := some (c!"~|")) (k := c!"msgid") (raw := c!"a")
    ⟨by simp [IsMarker], by simp [IsKeyword], [], [' '], [' '], [], by decide, by decide, by decide, by decide, rfl⟩ (by simp [BeginsEntry, taggedKeyword])
example : OneLine (c!"#~ msgstr \"a\"") (.ok (some (.parse 1 (c!"~") (c!"msgid")))) :=
  .stray (m := some (c!"~")) (k := c!"msgstr") (raw := c!"a")
    ⟨by simp [IsMarker], by simp [IsKeyword], [], [' '], [' '], [], by decide, by decide, by decide, by decide, rfl⟩ (by simp [BeginsEntry, taggedKeyword])
example : OneLine (c!"\"a\"") (.ok (some (.parse 1 (c!"\"") (c!"msgid")))) :=
  .continuation (m := none) (raw := c!"a") ⟨by simp, by simp, [], [], [], [], by decide, by decide, by decide, by decide, rfl⟩

-- two entries with carriage returns between the lines
example : ∃ stream, Delivers stream (utf8 (c!"msgid \"a\"\rmsgstr \"b\"\rmsgid \"c\"\rmsgstr \"d\"")) ∧
    Yields (parse demoEnv stream) (plainHeader demoEnv) (results [] none) := by
  obtain ⟨stream, hd⟩ := delivers_exists (utf8 (c!"msgid \"a\"\rmsgstr \"b\"\rmsgid \"c\"\rmsgstr \"d\""))
  exact ⟨stream, hd, C89_cr demoEnv (id := c!"a") (ls := [c!"msgstr \"b\"", c!"msgid \"c\""]) (l := c!"msgstr \"d") (by decide) hd⟩

-- with line feeds instead there is a unit
example : 2 * 1 ≤ solidLines (textStream [c!"msgid \"a\"", c!"msgstr \"b\""]) :=
  C88_two (yields_text (env := demoEnv) (ls := [c!"msgid \"a\"", c!"msgstr \"b\""]) (res := ⟨noHeader demoEnv, none, [unitAB (c!"a") (c!"b")], none⟩) (by decide) (by rfl))

end Verif
