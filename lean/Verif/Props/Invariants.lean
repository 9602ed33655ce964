import Verif.Spec.Invariants
import Verif.Props.Change

/-! C57: what holds for all data that the reader gives. -/

namespace Verif
open Spec

theorem lineItems_mem {n : Nat} {rs : List (Except IoErr Str)} {l : List Item} (h : LineItems n rs l) {ln : PoLine} (hm : .ok ln ∈ l) :
    ∃ s m, .ok s ∈ rs ∧ Classified s m (some ln) := by
  induction h with
  | nil => simp at hm
  | failed => simp at hm
  | unrecognised => simp at hm
  | blank _ _ ih =>
    obtain ⟨s, m, h1, h2⟩ := ih hm
    exact ⟨s, m, by simp [h1], h2⟩
  | @line n s rs ln' l hc hne _ ih =>
    rcases List.mem_cons.mp hm with h | h
    · cases h
      exact ⟨s, n, by simp, hc⟩
    · obtain ⟨s, m, h1, h2⟩ := ih h
      exact ⟨s, m, by simp [h1], h2⟩

theorem dropWhile_head_white (s : Str) (c : Char) (h : (s.dropWhile isWhite).head? = some c) : isWhite c = false := by
  induction s with
  | nil => simp at h
  | cons x s ih =>
    rw [List.dropWhile_cons] at h
    split at h
    · exact ih h
    · simp at h
      rw [← h]
      simpa using ‹¬ isWhite x = true›

theorem comment_item {stream : List Event} {n : Nat} {c : Char} {t : Str} (h : .ok (.comment n c t) ∈ streamItems stream) : c ≠ '\n' ∧ CommentBody t := by
  obtain ⟨s, m, h1, h2⟩ := lineItems_mem ((stream_items stream _).mpr rfl) h
  have hn : '\n' ∉ s := rawLines_no_nl h1
  cases h2 with
  | @comment w r hw e _ =>
    subst e
    have hr : '\n' ∉ r := fun h => hn (by simp [h])
    refine ⟨?_, ?_, fun c => dropWhile_head_white _ c⟩
    · cases r with
      | nil => simp
      | cons x r =>
        simp only [List.mem_cons, not_or] at hr
        exact fun h => hr.1 h.symm
    · exact fun h => hr (List.mem_of_mem_drop ((List.dropWhile_sublist _).subset h))

/-- The comments come from the input. -/
theorem block_comments {stream : List Event} {block : List PoLine} (h : block.map .ok <:+: streamItems stream) {c : Char × Str} (hc : c ∈ block.filterMap commentOf) :
    c.1 ≠ '\n' ∧ CommentBody c.2 := by
  obtain ⟨ln, h1, h2⟩ := List.mem_filterMap.mp hc
  have hm : .ok ln ∈ streamItems stream := h.subset (List.mem_map.mpr ⟨ln, h1, rfl⟩)
  cases ln with
  | comment n k s =>
    simp only [commentOf] at h2
    cases h2
    exact comment_item hm
  | _ => simp [commentOf] at h2

theorem notes_text {cs : List (Char × Str)} (h : ∀ c ∈ cs, c.1 ≠ '\n' ∧ CommentBody c.2) : ∀ n ∈ cs.filterMap noteItem, CommentBody n.value := by
  intro n hn
  obtain ⟨c, h1, h2⟩ := List.mem_filterMap.mp hn
  unfold noteItem at h2
  split at h2
  · cases h2; exact (h c h1).2
  · split at h2
    · cases h2; exact (h c h1).2
    · cases h2

theorem others_text {cs : List (Char × Str)} (h : ∀ c ∈ cs, c.1 ≠ '\n' ∧ CommentBody c.2) : ∀ c ∈ cs.filterMap otherItem, OtherComment c := by
  intro n hn
  obtain ⟨c, h1, h2⟩ := List.mem_filterMap.mp hn
  unfold otherItem at h2
  split at h2
  · cases h2
  · rename_i hk
    cases h2
    simp only [not_or] at hk
    refine ⟨?_, (h c h1).2⟩
    simp only [List.mem_cons, List.not_mem_nil, or_false, not_or]
    exact ⟨hk.1, hk.2.1, hk.2.2.1, hk.2.2.2, (h c h1).1⟩

theorem cut_mem {sep : Char → Prop} {s : Str} {ps : List Str} (h : Cut sep s ps) : ∀ p ∈ ps, (∀ c ∈ p, ¬ sep c) ∧ ∀ c ∈ p, c ∈ s := by
  induction h with
  | last h => intro p hp; simp at hp; subst hp; exact ⟨h, fun c hc => hc⟩
  | cons h h1 _ ih =>
    intro p hp
    rcases List.mem_cons.mp hp with rfl | hp
    · exact ⟨h, fun c hc => by simp [hc]⟩
    · obtain ⟨h2, h3⟩ := ih p hp
      exact ⟨h2, fun c hc => by simp [h3 c hc]⟩

theorem stripped_mem {s t : Str} (h : Stripped s t) : ∀ c ∈ t, c ∈ s := by
  obtain ⟨_, a, b, _, _, rfl⟩ := h
  intro c hc
  simp [hc]

theorem stripped_strip (s : Str) : Stripped s (strip s) := by
  rw [strip_eq]
  exact stripped_iff.mpr rfl

theorem cut_cut (p : Char → Bool) (s : Str) : Cut (fun c => p c = true) s (cut (fun c => p c = true) s) := by
  rw [cut_eq]
  exact cut_iff.mpr rfl

theorem flags_text {cs : List (Char × Str)} (h : ∀ c ∈ cs, c.1 ≠ '\n' ∧ CommentBody c.2) : ∀ f ∈ cs.flatMap flagItems, ',' ∉ f ∧ '\n' ∉ f ∧ Trimmed f := by
  intro f hf
  obtain ⟨c, h1, h2⟩ := List.mem_flatMap.mp hf
  unfold flagItems at h2
  split at h2
  · obtain ⟨p, h3, rfl⟩ := List.mem_map.mp h2
    have hc : Cut (fun x => (x == ',') = true) c.2 (cut (fun x => x = ',') c.2) := by
      have := cut_cut (· == ',') c.2
      simpa using this
    obtain ⟨h4, h5⟩ := cut_mem hc p h3
    have hs := stripped_strip p
    refine ⟨fun hm => ?_, fun hm => ?_, hs.1⟩
    · have := h4 _ (stripped_mem hs _ hm)
      simp at this
    · exact (h c h1).2.1 (h5 _ (stripped_mem hs _ hm))
  · simp at h2

theorem locations_text {cs : List (Char × Str)} : ∀ l ∈ cs.flatMap locationItems, l ≠ [] ∧ ∀ c ∈ l, isWhite c = false := by
  intro l hl
  obtain ⟨c, h1, h2⟩ := List.mem_flatMap.mp hl
  unfold locationItems at h2
  split at h2
  · obtain ⟨h3, h4⟩ := List.mem_filter.mp h2
    obtain ⟨h5, _⟩ := cut_mem (cut_cut isWhite c.2) l h3
    exact ⟨by simpa using h4, fun c hc => by simpa using h5 c hc⟩
  · simp at h2

theorem valueFields_length_le {o : Bool} {hi lo : Nat} {b : List PoLine} {vs : List Str} (h : ValueFields o hi lo b vs) : lo ≤ hi → vs.length ≤ hi - lo := by
  induction h with
  | nil => simp
  | cons h1 h2 _ _ ih =>
    intro _
    have := ih (by omega)
    simp only [List.length_cons]
    omega

/-- **C57** For every input, every unit that the reader gives satisfies `UnitInvariant`, with the plural forms of the header. -/
theorem C57_units {env : Env} {stream : List Event} {hdr : Header env.Lang} {xs : List (Except Err PoUnit)} (h : Yields (parse env stream) hdr xs) :
    ∃ forms, FormsRule env (hdr.properties.lookup (c!"Plural-Forms")) (.ok forms) ∧ ∀ u, .ok u ∈ xs → UnitInvariant forms u := by
  obtain ⟨_, us, e, rfl, _⟩ := yields_reads h
  obtain ⟨forms, head, blocks, tail, h1, h2, h3, _, h5, _⟩ := C14_blocks h
  refine ⟨forms, h5, ?_⟩
  intro u hu
  have := results_mem hu
  rw [h2] at this
  obtain ⟨b, hb, rfl⟩ := List.mem_map.mp this
  obtain ⟨he, hs⟩ := h3 b hb
  have hin : b.1.map .ok <:+: streamItems stream := by
    obtain ⟨s, t, rfl⟩ := List.append_of_mem hb
    rw [h1]
    exact ⟨head.map .ok ++ (s.flatMap Prod.fst).map .ok, (t.flatMap Prod.fst).map .ok ++ tail, by simp⟩
  have hc := entry_comments_of he
  have ht := fun c => block_comments hin (c := c)
  obtain ⟨cs, b1, b2, b3, b4, b5, b6, b7, pid, ppl, id, idPl, _, _, _, _, _, _, _, _, f7, f8, _, f9⟩ := he
  refine ⟨?_, ?_, ?_, ?_, ?_, ?_, f9⟩
  · rw [hc.flags]
    exact ⟨nodup_distinct _, fun f hf => flags_text ht f ((mem_distinct _ _).mp hf)⟩
  · rw [hc.locations]; exact locations_text
  · rw [hc.notes]; exact notes_text ht
  · rw [hc.comments]; exact others_text ht
  · generalize b.2.message = m at *
    cases f7 with
    | @simple _ v hv =>
      refine .inl ⟨_, _, rfl, hs, ?_⟩
      split
      · simp
      · simpa
    | @plural pl _ vs hv hne =>
      refine .inr ⟨_, rfl, rfl, ?_, ?_⟩
      · cases vs with
        | nil => exact absurd rfl hne
        | cons v vs => simp
      · have := valueFields_length_le hv (by omega)
        simpa using this
  · rw [f8]
    cases pid with
    | none => exact .inl ⟨_, rfl⟩
    | some i =>
      cases ppl with
      | none => exact .inl ⟨_, rfl⟩
      | some p => exact .inr ⟨_, _, rfl⟩

theorem values_mem_fields {k : Str} {ls vs : List Str} (h : Values k ls vs) : ∀ v ∈ vs, ∃ line ∈ ls, KeyValue line k v := by
  induction h with
  | nil => simp
  | @hit line v ls vs hk _ ih =>
    intro w hw
    rcases List.mem_cons.mp hw with rfl | hw
    · exact ⟨line, by simp, hk⟩
    · obtain ⟨l, h1, h2⟩ := ih w hw
      exact ⟨l, by simp [h1], h2⟩
  | miss _ _ ih =>
    intro w hw
    obtain ⟨l, h1, h2⟩ := ih w hw
    exact ⟨l, by simp [h1], h2⟩

theorem lookup_of_nodup_mem {m : List (Str × Str)} (hn : (m.map Prod.fst).Nodup) {kv : Str × Str} (h : kv ∈ m) : m.lookup kv.1 = some kv.2 := by
  induction m with
  | nil => simp at h
  | cons x m ih =>
    obtain ⟨a, b⟩ := x
    simp only [List.map_cons, List.nodup_cons] at hn
    rcases List.mem_cons.mp h with rfl | h'
    · rw [lookup_self]
    · rw [lookup_ne, ih hn.2 h']
      rintro rfl
      exact hn.1 (List.mem_map.mpr ⟨kv, h', rfl⟩)

theorem mem_intercalate_char {s : Str} {vs : List Str} {c : Char} (h : c ∈ List.intercalate s vs) : c ∈ s ∨ ∃ v ∈ vs, c ∈ v := by
  rw [List.intercalate, List.mem_flatten] at h
  obtain ⟨l, h1, h2⟩ := h
  induction vs with
  | nil => simp at h1
  | cons v vs ih =>
    cases vs with
    | nil => simp at h1; subst h1; exact .inr ⟨_, by simp, h2⟩
    | cons w vs =>
      rw [List.intersperse_cons_cons] at h1
      rcases List.mem_cons.mp h1 with rfl | h1
      · exact .inr ⟨_, by simp, h2⟩
      · rcases List.mem_cons.mp h1 with rfl | h1
        · exact .inl h2
        · rcases ih h1 with h | ⟨x, hx, hc⟩
          · exact .inl h
          · exact .inr ⟨x, List.mem_cons_of_mem _ hx, hc⟩

/-- Notes and comments of a first entry that is a header. -/
theorem first_comments {stream : List Event} {ns : List Note} {cs : List Comment} {t : Str} {rest : List Item}
    (h : First (streamItems stream) (.header ns cs t rest)) : (∀ n ∈ ns, CommentBody n.value) ∧ ∀ c ∈ cs, OtherComment c := by
  generalize hl : streamItems stream = l at h
  cases h with
  | @header block u t rest he _ _ =>
    have hc := entry_comments_of he
    have ht := fun c => block_comments (stream := stream) (block := block) ⟨[], rest, by rw [hl]; simp⟩ (c := c)
    rw [hc.notes, hc.comments]
    exact ⟨notes_text ht, others_text ht⟩
  | @noId block rest _ _ _ =>
    have ht := fun c => block_comments (stream := stream) (block := block) ⟨[], rest, by rw [hl]; simp⟩ (c := c)
    exact ⟨notes_text ht, others_text ht⟩

/-- **C57** For every input, the header data satisfy `HeaderInvariant`. -/
theorem C57_header {env : Env} {stream : List Event} {hdr : Header env.Lang} {xs : List (Except Err PoUnit)} (h : Yields (parse env stream) hdr xs) :
    HeaderInvariant hdr := by
  obtain ⟨forms, us, e, rfl, hr⟩ := yields_reads h
  cases hr with
  | nothing f => exact ⟨by simp [plainHeader], by simp [plainHeader], by simp [plainHeader], by simp [plainHeader]⟩
  | plain f r => exact ⟨by simp [plainHeader], by simp [plainHeader], by simp [plainHeader], by simp [plainHeader]⟩
  | @headed ns cs t rest hdr forms us e f r1 r2 r =>
    obtain ⟨h1, h2⟩ := first_comments f
    refine ⟨by rw [r1.notes]; exact h1, by rw [r1.comments]; exact h2, r1.keys, ?_⟩
    rintro ⟨k, v⟩ hkv
    obtain ⟨vs, hv⟩ := values_exists k (splitP (· == '\n') t)
    have hls := isLines_of_split t
    have hlk := r1.properties _ hls k vs hv
    have hlk2 := lookup_of_nodup_mem r1.keys hkv
    simp only at hlk2
    rw [hlk2] at hlk
    split at hlk
    · simp at hlk
    · simp only [Option.some.injEq] at hlk
      have hm := values_mem_fields hv
      have hkey : Trimmed k ∧ ':' ∉ k ∧ '\n' ∉ k := by
        cases vs with
        | nil => exact absurd rfl ‹¬ [] = []›
        | cons w vs =>
          obtain ⟨line, hl, a, b, rfl, ha, hk, _⟩ := hm w (by simp)
          exact ⟨hk.1, fun h => ha (stripped_mem hk _ h), fun h => hls.2.1 _ hl (by simp [stripped_mem hk _ h])⟩
      refine ⟨hkey.1, hkey.2.1, hkey.2.2, ?_⟩
      subst hlk
      intro hn
      rcases mem_intercalate_char hn with h | ⟨w, hw, hc⟩
      · simp at h
      · obtain ⟨line, hl, a, b, rfl, _, _, hb⟩ := hm w hw
        exact hls.2.1 _ hl (by simp [stripped_mem hb _ hc])

/-! ### Examples -/

/-- An input with all kinds of comments. -/
def noisyLines : List Str :=
  [c!"#  header note", c!"msgid \"\"", c!"msgstr \"  K : v\\n k2:w\\nK:  x\"", c!"#, a , b,a", c!"#:  x:1\ty:2", c!"#.\tdev", c!"#~ odd", c!"msgid \"a\"", c!"msgstr \"\""]

theorem noisy_yields : Yields (parse demoEnv (textStream noisyLines)) ⟨[⟨.translator, c!"header note"⟩], [], [(c!"K", c!"v x"), (c!"k2", c!"w")], []⟩
    (results [{ PoUnit.default with
      message := .simple (c!"a") none, flags := [c!"a", c!"b"], locations := [c!"x:1", c!"y:2"], notes := [⟨.developer, c!"dev"⟩], comments := [⟨'~', c!"odd"⟩] }] none) :=
  yields_text (env := demoEnv) (res := ⟨⟨[⟨.translator, c!"header note"⟩], [], [(c!"K", c!"v x"), (c!"k2", c!"w")], []⟩, none, [_], none⟩) (by decide) (by rfl)

example : HeaderInvariant (⟨[⟨.translator, c!"header note"⟩], [], [(c!"K", c!"v x"), (c!"k2", c!"w")], []⟩ : Header Str) := C57_header (env := demoEnv) noisy_yields

-- the invariant is not trivial: a flag with a comma, or a note with leading white space, cannot come from any input
example (env : Env) (stream : List Event) (hdr : Header env.Lang) (xs : List (Except Err PoUnit)) (u : PoUnit) (h : Yields (parse env stream) hdr xs) (hu : .ok u ∈ xs) :
    u.flags ≠ [c!"a,b"] ∧ u.notes ≠ [⟨.translator, c!" x"⟩] := by
  obtain ⟨forms, _, h⟩ := C57_units h
  have := h u hu
  refine ⟨fun e => ?_, fun e => ?_⟩
  · have := (this.flags.2 (c!"a,b") (by rw [e]; simp)).1
    simp at this
  · have := (this.notes ⟨.translator, c!" x"⟩ (by rw [e]; simp)).2 ' ' rfl
    revert this
    decide

end Verif
