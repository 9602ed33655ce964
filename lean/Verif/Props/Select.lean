import Verif.Spec.Select
import Verif.Props.Uncomment
import Verif.Lemmas.CommentRuns

/-! C97: only the active, or only the obsolete entries. -/

namespace Verif
open Spec

/-- A quoted line of kind `o`. -/
inductive Kind (o : Bool) : PoLine → Prop
  | message {n p k s} : (o = true ↔ Tilde p) → Kind o (.message n p k s)
  | continuation {n p s} : (o = true ↔ Tilde p) → Kind o (.continuation n p s)

theorem kind_other {o o' : Bool} {ln : PoLine} (h : Kind o ln) (h' : Kind o' ln) : o = o' := by
  cases h with
  | message h => cases h' with | message h' => cases o <;> cases o' <;> simp_all
  | continuation h => cases h' with | continuation h' => cases o <;> cases o' <;> simp_all

theorem not_kind_comment {o : Bool} {n : Nat} {c : Char} {s : Str} (h : Kind o (.comment n c s)) : False := by cases h

/-- The second lines are the first without the quoted lines of kind `o`, with other numbers. -/
inductive Thinned (o : Bool) : List PoLine → List PoLine → Prop
  | nil : Thinned o [] []
  | drop {ln b b'} : Kind o ln → Thinned o b b' → Thinned o (ln :: b) b'
  | keep {ln ln' b b'} : ¬ Kind o ln → Sparse false [ln] [ln'] → Thinned o b b' → Thinned o (ln :: b) (ln' :: b')

theorem Thinned.split {o : Bool} {a b c : List PoLine} (h : Thinned o (a ++ b) c) : ∃ a' b', c = a' ++ b' ∧ Thinned o a a' ∧ Thinned o b b' := by
  induction a generalizing c with
  | nil => exact ⟨[], c, rfl, .nil, h⟩
  | cons x a ih =>
    cases h with
    | drop hp h => obtain ⟨a', b', rfl, h1, h2⟩ := ih h; exact ⟨a', b', rfl, .drop hp h1, h2⟩
    | keep hp hs h => obtain ⟨a', b', rfl, h1, h2⟩ := ih h; exact ⟨_ :: a', b', rfl, .keep hp hs h1, h2⟩

theorem sparse_one {x y : PoLine} {b b' : List PoLine} (h : Sparse false [x] [y]) (hb : Sparse false b b') : Sparse false (x :: b) (y :: b') := by
  cases h with
  | drop h => cases h
  | comment _ => exact .comment hb
  | message _ => exact .message hb
  | continuation _ => exact .continuation hb

theorem thin_stays {o : Bool} {b b' : List PoLine} (h : Thinned o b b') (hk : ∀ ln ∈ b, ¬ Kind o ln) : Sparse false b b' := by
  induction h with
  | nil => exact .nil
  | drop hp _ _ => exact absurd hp (hk _ (List.mem_cons_self ..))
  | keep _ hs _ ih => exact sparse_one hs (ih fun ln hl => hk ln (List.mem_cons_of_mem _ hl))

theorem thin_goes {o : Bool} {b b' : List PoLine} (h : Thinned o b b') (hk : ∀ ln ∈ b, Kind o ln) : b' = [] := by
  induction h with
  | nil => rfl
  | drop _ _ ih => exact ih fun ln hl => hk ln (List.mem_cons_of_mem _ hl)
  | keep hp _ _ _ => exact absurd (hk _ (List.mem_cons_self ..)) hp

theorem thin_comments {o : Bool} {cs : List (Nat × Char × Str)} {b' : List PoLine} (h : Thinned o (cs.map commentLine) b') :
    ∃ cs' : List (Nat × Char × Str), b' = cs'.map commentLine ∧ cs'.map Prod.snd = cs.map Prod.snd := by
  induction cs generalizing b' with
  | nil => cases h; exact ⟨[], rfl, rfl⟩
  | cons c cs ih =>
    cases h with
    | drop hp _ => exact (not_kind_comment hp).elim
    | keep _ hs h =>
      obtain ⟨cs', rfl, h2⟩ := ih h
      cases hs with
      | drop h => cases h
      | @comment _ n' _ _ _ _ _ => exact ⟨(n', c.2) :: cs', rfl, by simp [h2]⟩

theorem field_kind {k : Str} {o : Bool} {b : List PoLine} {v : Str} (f : Field k o b v) : ∀ ln ∈ b, Kind o ln := by
  obtain ⟨p, ⟨n, s, cs, rfl, _⟩, hp⟩ := f
  intro ln hl
  rcases List.mem_cons.mp hl with rfl | hl
  · exact .message hp
  · obtain ⟨c, _, rfl⟩ := List.mem_map.mp hl; exact .continuation hp

theorem opt_kind {k : Str} {o : Bool} {b : List PoLine} {v : Option Str} (f : OptField k o b v) : ∀ ln ∈ b, Kind o ln := by
  cases f with
  | none => simp
  | some f => exact field_kind f

theorem values_kind {o : Bool} {hi lo : Nat} {b : List PoLine} {vs : List Str} (f : ValueFields o hi lo b vs) : ∀ ln ∈ b, Kind o ln := by
  induction f with
  | nil => simp
  | cons _ _ f _ ih =>
    intro ln hl
    rcases List.mem_append.mp hl with hl | hl
    · exact field_kind f ln hl
    · exact ih ln hl

theorem texts_kind {forms : Option PluralForms} {o : Bool} {id : Str} {idPl : Option Str} {b : List PoLine} {m : Message} (f : TextFields forms o id idPl b m) :
    ∀ ln ∈ b, Kind o ln := by
  cases f with
  | simple f => exact field_kind f
  | plural f _ => exact values_kind f

theorem stays_other {o o' : Bool} {b b' : List PoLine} (h : Thinned o b b') (hk : ∀ ln ∈ b, Kind o' ln) (ho : o' ≠ o) : Sparse false b b' :=
  thin_stays h fun ln hl hk' => ho (kind_other (hk ln hl) hk')

/-- The comments that wait for an entry, as lines and as data of the units whose comments they were. -/
structure Waiting (cs : List (Char × Str)) (ps : List PoUnit) : Prop where
  notes : ps.flatMap PoUnit.notes = cs.filterMap noteItem
  locations : ps.flatMap PoUnit.locations = cs.flatMap locationItems
  comments : ps.flatMap PoUnit.comments = cs.filterMap otherItem
  flags : distinct (ps.flatMap PoUnit.flags) = distinct (cs.flatMap flagItems)

theorem distinct_distinct (a : List Str) : distinct (distinct a) = distinct a := distinct_nodup (nodup_distinct a)

theorem distinct_parts {a a' b b' : List Str} (h : distinct a = distinct a') (hb : distinct b = distinct b') : distinct (a ++ b) = distinct (a' ++ b') := by
  rw [distinct_append, distinct_append, h, hb]

theorem Waiting.nil : Waiting [] [] := ⟨rfl, rfl, rfl, rfl⟩

theorem Waiting.add {cs ds : List (Char × Str)} {ps : List PoUnit} {u : PoUnit} (h : Waiting cs ps) (hd : CommentData ds u) : Waiting (cs ++ ds) (ps ++ [u]) where
  notes := by simp [h.notes, hd.notes]
  locations := by simp [h.locations, hd.locations]
  comments := by simp [h.comments, hd.comments]
  flags := by
    rw [List.flatMap_append, List.flatMap_append]
    exact distinct_parts h.flags (by simp [hd.flags, distinct_distinct])

theorem Waiting.inherits {cs ds : List (Char × Str)} {ps : List PoUnit} {u : PoUnit} (h : Waiting cs ps) (hd : CommentData ds u) :
    Inherits ps u (withComments (cs ++ ds) u) where
  fields := ⟨rfl, rfl, rfl, rfl, rfl⟩
  notes := by simp [withComments, h.notes, hd.notes]
  locations := by simp [withComments, h.locations, hd.locations]
  comments := by simp [withComments, h.comments, hd.comments]
  flags := by
    simp only [withComments, List.flatMap_append]
    exact (distinct_parts h.flags (by simp [hd.flags, distinct_distinct])).symm
  state := with_state _ _

theorem head_comments (cs : List (Nat × Char × Str)) (o : Bool) : EntryHead o (cs.map commentLine) :=
  ⟨cs, [], [], [], [], none, none, none, none, by simp, .none, .none, .none, fun _ => rfl, .none⟩

theorem thin_head {o o' : Bool} {b b' : List PoLine} (h : Thinned o b b') (f : EntryHead o' b) (cs : List (Nat × Char × Str)) :
    EntryHead o' (cs.map commentLine ++ b') ∧ (o' = o → ∃ cs' : List (Nat × Char × Str), b' = cs'.map commentLine) := by
  obtain ⟨ds, b1, b2, b3, b4, _, _, _, _, rfl, f1, f2, f3, g3, f4⟩ := f
  obtain ⟨c0, _, rfl, k0, h⟩ := h.split
  obtain ⟨c1, _, rfl, k1, h⟩ := h.split
  obtain ⟨c2, _, rfl, k2, h⟩ := h.split
  obtain ⟨c3, c4, rfl, k3, k4⟩ := h.split
  obtain ⟨ds', rfl, _⟩ := thin_comments k0
  by_cases ho : o' = o
  · subst ho
    cases thin_goes k1 (opt_kind f1)
    cases thin_goes k2 (opt_kind f2)
    cases thin_goes k3 (opt_kind f3)
    cases thin_goes k4 (opt_kind f4)
    have : cs.map commentLine ++ (ds'.map commentLine ++ ([] ++ ([] ++ ([] ++ [])))) = (cs ++ ds').map commentLine := by simp
    rw [this]
    exact ⟨head_comments _ _, fun _ => ⟨ds', by simp⟩⟩
  · refine ⟨⟨cs ++ ds', c1, c2, c3, c4, _, _, _, _, by simp, sparse_opt (stays_other k1 (opt_kind f1) ho) f1, sparse_opt (stays_other k2 (opt_kind f2) ho) f2,
      sparse_opt (stays_other k3 (opt_kind f3) ho) f3, g3, sparse_opt (stays_other k4 (opt_kind f4) ho) f4⟩, fun h => absurd h ho⟩

theorem thin_ids {forms : Option PluralForms} {o o' : Bool} {idPl : Option Str} {b b' : List PoLine} (h : Thinned o b b') (f : EntryIds o' idPl b)
    (cs : List (Nat × Char × Str)) : Stops forms ((cs.map commentLine ++ b').map .ok) none := by
  obtain ⟨b0, b5, b6, id, rfl, f0, f5, f6⟩ := f
  obtain ⟨c0, _, rfl, k0, h⟩ := h.split
  obtain ⟨c5, c6, rfl, k5, k6⟩ := h.split
  obtain ⟨g, _⟩ := thin_head k0 f0 cs
  by_cases ho : o' = o
  · subst ho
    cases thin_goes k5 (field_kind f5)
    cases thin_goes k6 (opt_kind f6)
    simp only [List.append_nil]
    exact .endsInHead g
  · rw [← List.append_assoc]
    exact .endsAfterIds ⟨_, c5, c6, id, rfl, g, sparse_field (stays_other k5 (field_kind f5) ho) f5, sparse_opt (stays_other k6 (opt_kind f6) ho) f6⟩

theorem thin_run {o : Bool} {forms : Option PluralForms} {l : List Item} {us : List PoUnit} {e : Option Err} (h : Run forms l us e) (he : e = none) {b b' : List PoLine}
    (hl : l = b.map .ok) (hk : Thinned o b b') {cs : List (Nat × Char × Str)} {ps : List PoUnit} (hw : Waiting (cs.map Prod.snd) ps) :
    ∃ us', Run forms ((cs.map commentLine ++ b').map .ok) us' none ∧ Selection o ps us us' := by
  induction h generalizing b b' cs ps with
  | stop h =>
    subst he hl
    generalize hb : b.map Except.ok = l at h
    generalize he : (none : Option Err) = e at h
    cases h with
    | endsInHead h => cases map_ok_inj hb; exact ⟨[], .stop (.endsInHead (thin_head hk h cs).1), .nil⟩
    | endsAfterIds h => cases map_ok_inj hb; exact ⟨[], .stop (thin_ids hk h cs), .nil⟩
    | _ => cases he
  | @entry block u rest us e h1 h2 h3 hr ih =>
    subst he
    obtain ⟨r, c, rfl, _⟩ := follows_run hr rfl .fresh
    rw [← List.map_append] at hl
    cases map_ok_inj hl
    obtain ⟨b1, b2, rfl, k, k'⟩ := hk.split
    obtain ⟨ds, b1, b2, b3, b4, b5, b6, b7, pid, ppl, id, idPl, rfl, f1, f2, f3, g3, f4, f5, f6, f7, f8, f9, f10⟩ := h1
    obtain ⟨c0, _, rfl, k0, k⟩ := k.split
    obtain ⟨c1, _, rfl, k1, k⟩ := k.split
    obtain ⟨c2, _, rfl, k2, k⟩ := k.split
    obtain ⟨c3, _, rfl, k3, k⟩ := k.split
    obtain ⟨c4, _, rfl, k4, k⟩ := k.split
    obtain ⟨c5, _, rfl, k5, k⟩ := k.split
    obtain ⟨c6, c7, rfl, k6, k7⟩ := k.split
    obtain ⟨ds', rfl, hds⟩ := thin_comments k0
    by_cases ho : u.obsolete = o
    · cases thin_goes k1 (ho ▸ opt_kind f1)
      cases thin_goes k2 (ho ▸ opt_kind f2)
      cases thin_goes k3 (ho ▸ opt_kind f3)
      cases thin_goes k4 (ho ▸ opt_kind f4)
      cases thin_goes k5 (ho ▸ field_kind f5)
      cases thin_goes k6 (ho ▸ opt_kind f6)
      cases thin_goes k7 (ho ▸ texts_kind f7)
      have hw' : Waiting ((cs ++ ds').map Prod.snd) (ps ++ [u]) := by
        rw [List.map_append, hds]
        exact hw.add f9
      obtain ⟨us', h5, h7⟩ := ih rfl rfl k' hw'
      exact ⟨us', by simpa using h5, .drop ho h7⟩
    · obtain ⟨us', h5, h7⟩ := ih rfl rfl k' (cs := []) .nil
      simp only [List.map_nil, List.nil_append] at h5
      refine ⟨withComments ((cs ++ ds').map Prod.snd) u :: us', ?_, .keep ho (by rw [List.map_append, hds]; exact hw.inherits f9) h7⟩
      rw [← List.append_assoc, List.map_append]
      have h4 : Entry forms (cs.map commentLine ++ (ds'.map commentLine ++ (c1 ++ (c2 ++ (c3 ++ (c4 ++ (c5 ++ (c6 ++ c7))))))))
          (withComments ((cs ++ ds').map Prod.snd) u) :=
        ⟨cs ++ ds', c1, c2, c3, c4, c5, c6, c7, pid, ppl, id, idPl, by simp, sparse_opt (stays_other k1 (opt_kind f1) ho) f1,
          sparse_opt (stays_other k2 (opt_kind f2) ho) f2, sparse_opt (stays_other k3 (opt_kind f3) ho) f3, g3, sparse_opt (stays_other k4 (opt_kind f4) ho) f4,
          sparse_field (stays_other k5 (field_kind f5) ho) f5, sparse_opt (stays_other k6 (opt_kind f6) ho) f6, sparse_texts (stays_other k7 (texts_kind f7) ho) f7, f8,
          with_data _ _, with_state _ _⟩
      exact .entry h4 h2 ((ends_iff h4).mpr (entryEnd_fresh (run_fresh h5 (.inr rfl)))) h5

theorem quoted_kind {o : Bool} {s : Str} {n : Nat} {ln : PoLine} (hn : '\n' ∉ s) (hc : Classified s n (some ln)) : KindLine o s ↔ Kind o ln := by
  constructor
  · rintro ⟨p, hp, ⟨k, t, h⟩ | ⟨t, h⟩⟩
    · cases h with
      | keyword h => cases classified_unique hn hc (.keyword h); exact .message hp
    · cases h with
      | continuation h => cases classified_unique hn hc (.continuation h); exact .continuation hp
  · intro hk
    cases hk with
    | message hp => cases hc with | keyword h => exact ⟨_, hp, .inl ⟨_, _, .keyword h⟩⟩
    | continuation hp => cases hc with | continuation h => exact ⟨_, hp, .inr ⟨_, .continuation h⟩⟩

theorem thin_lines {o : Bool} {n : Nat} {rs rs' : List (Except IoErr Str)} {b : List PoLine} (hn : ∀ s, .ok s ∈ rs → '\n' ∉ s) (h : LineItems n rs (b.map .ok))
    (hc : WithoutKind o rs rs') (n' : Nat) : ∃ b', LineItems n' rs' (b'.map .ok) ∧ Thinned o b b' := by
  induction hc generalizing n n' b with
  | nil => generalize hl : b.map Except.ok = l at h; cases h; cases List.map_eq_nil_iff.mp hl; exact ⟨[], .nil, .nil⟩
  | keep hq _ ih =>
    generalize hl : b.map Except.ok = l at h
    cases h with
    | failed => cases b <;> simp at hl
    | unrecognised => cases b <;> simp at hl
    | blank hc h =>
      subst hl
      obtain ⟨b', h1, h2⟩ := ih (fun s hs => hn s (List.mem_cons_of_mem _ hs)) h (n' + 1)
      cases hc with
      | blank hw => exact ⟨b', .blank (.blank hw) h1, h2⟩
    | line hc hb h =>
      cases b with
      | nil => cases hl
      | cons x b =>
        simp only [List.map_cons, List.cons.injEq, Except.ok.injEq] at hl
        obtain ⟨rfl, rfl⟩ := hl
        obtain ⟨b', h1, h2⟩ := ih (fun s hs => hn s (List.mem_cons_of_mem _ hs)) h (n' + 1)
        obtain ⟨ln', h3, h4, h5⟩ := line_again hc hb n' (d := false) .nil
        exact ⟨ln' :: b', .line h3 h4 h1, .keep (fun hk => hq _ rfl ((quoted_kind (hn _ (List.mem_cons_self ..)) hc).mpr hk)) h5 h2⟩
  | drop hq _ ih =>
    have hs := hn _ (List.mem_cons_self ..)
    generalize hl : b.map Except.ok = l at h
    cases h with
    | unrecognised => cases b <;> simp at hl
    | blank hc _ => cases (quoted_kind hs hc).mp hq
    | line hc hb h =>
      cases b with
      | nil => cases hl
      | cons x b =>
        simp only [List.map_cons, List.cons.injEq, Except.ok.injEq] at hl
        obtain ⟨rfl, rfl⟩ := hl
        obtain ⟨b', h1, h2⟩ := ih (fun s hs => hn s (List.mem_cons_of_mem _ hs)) h n'
        exact ⟨b', h1, .drop ((quoted_kind hs hc).mp hq) h2⟩

theorem select_run {o : Bool} {forms : Option PluralForms} {n : Nat} {rs rs' : List (Except IoErr Str)} {us : List PoUnit} (hn : ∀ s, .ok s ∈ rs → '\n' ∉ s)
    (hn' : ∀ s, .ok s ∈ rs' → '\n' ∉ s) (h : Run forms (items n rs) us none) (hc : WithoutKind o rs rs') (n' : Nat) :
    ∃ us', Run forms (items n' rs') us' none ∧ Selection o [] us us' := by
  obtain ⟨b, c, hb, _⟩ := follows_run h rfl .fresh
  have hl := items_lineItems hn n
  rw [hb] at hl h
  obtain ⟨b', h1, h2⟩ := thin_lines hn hl hc n'
  rw [← h1.unique hn' (items_lineItems hn' n')]
  simpa using thin_run h rfl rfl h2 (cs := []) .nil

/-- **C97** Removing all quoted lines of one kind (obsolete or active) after the header from an input that is read without error gives an input that is read without
error, with the same header data and the units of the other kind; these take over the data of comments of units removed before them. -/
theorem C97_headed {env : Env} {stream stream' : List Event} {hd rs rs' : List (Except IoErr Str)} {hdr : Header env.Lang} {us : List PoUnit} {o : Bool}
    (h : rawLines (flatten stream) = hd ++ rs) (h' : rawLines (flatten stream') = hd ++ rs') (hh : HeaderLines hd) (hc : NoContinuation rs) (hr : WithoutKind o rs rs')
    (hy : Yields (parse env stream) hdr (results us none)) :
    ∃ hdr' us', SameHeader hdr' hdr ∧ Yields (parse env stream') hdr' (results us' none) ∧ Selection o [] us us' := by
  have hn : ∀ s, .ok s ∈ rs → '\n' ∉ s := fun s hs => rawLines_no_nl (inp := flatten stream) (s := s) (by rw [h]; simp [hs])
  have hn' : ∀ s, .ok s ∈ rs' → '\n' ∉ s := fun s hs => rawLines_no_nl (inp := flatten stream') (s := s) (by rw [h']; simp [hs])
  obtain ⟨forms, us1, e1, hx, hrd⟩ := yields_reads hy
  obtain ⟨rfl, rfl⟩ := results_inj hx
  obtain ⟨block, u, t, e1, h1, h2, hcase⟩ := first_block h hh hc
  rcases hcase with ⟨e0, hf⟩ | ⟨h3, hf⟩
  · exact (not_rejects_reads (.first hf) hrd).elim
  · cases hrd with
    | nothing f => cases hf.unique f
    | plain f => cases hf.unique f
    | headed f r1 r2 r =>
      cases hf.unique f
      obtain ⟨us', hr', hu⟩ := select_run hn hn' r hr (1 + hd.length)
      have : ∃ hdr', SameHeader hdr' hdr ∧ Yields (parse env stream') hdr' (results us' none) := by
        refine reads_yields (forms := forms) (.headed (rest := items (1 + hd.length) rs') ?_ r1 r2 hr')
        have hi : streamItems stream' = block.map .ok ++ items (1 + hd.length) rs' := by
          rw [streamItems_code, h', items_append (by rw [e1]; simp), e1]
        rw [hi]
        exact .header h1 h2 ((ends_iff h1).mpr (entryEnd_fresh (run_fresh hr' (.inr rfl))))
      obtain ⟨hdr', hs, hy'⟩ := this
      exact ⟨hdr', us', hs, hy', hu⟩

theorem selection_keeps {o : Bool} {ps us us' : List PoUnit} (h : Selection o ps us us') (hk : ∃ u ∈ us, u.obsolete ≠ o) : us' ≠ [] := by
  induction h with
  | nil => obtain ⟨_, hu, _⟩ := hk; cases hu
  | drop hu _ ih =>
    obtain ⟨u, hm, hn⟩ := hk
    rcases List.mem_cons.mp hm with rfl | hm
    · exact absurd hu hn
    · exact ih ⟨u, hm, hn⟩
  | keep => simp

/-- **C97** The same for an input without header, if a unit remains. -/
theorem C97_plain {env : Env} {stream stream' : List Event} {hdr : Header env.Lang} {us : List PoUnit} {o : Bool}
    (hf : ∀ ns cs t rest, ¬ First (streamItems stream) (.header ns cs t rest)) (hr : WithoutKind o (rawLines (flatten stream)) (rawLines (flatten stream')))
    (hk : ∃ u ∈ us, u.obsolete ≠ o) (hy : Yields (parse env stream) hdr (results us none)) :
    ∃ hdr' us', SameHeader hdr' hdr ∧ Yields (parse env stream') hdr' (results us' none) ∧ Selection o [] us us' := by
  have hn : ∀ s, .ok s ∈ rawLines (flatten stream) → '\n' ∉ s := fun s hs => rawLines_no_nl hs
  have hn' : ∀ s, .ok s ∈ rawLines (flatten stream') → '\n' ∉ s := fun s hs => rawLines_no_nl hs
  obtain ⟨forms, us1, e1, hx, hrd⟩ := yields_reads hy
  obtain ⟨rfl, rfl⟩ := results_inj hx
  cases hrd with
  | headed f => exact (hf _ _ _ _ f).elim
  | nothing f => obtain ⟨_, hu, _⟩ := hk; cases hu
  | plain f hrun =>
    obtain ⟨block, hl, he, hsrc, hend⟩ := first_unit f
    have hrun' := Run.entry he hsrc hend hrun
    rw [← hl, streamItems_code] at hrun'
    obtain ⟨us', h5, h7⟩ := select_run hn hn' hrun' hr 1
    have : ∃ hdr', SameHeader hdr' (plainHeader env) ∧ Yields (parse env stream') hdr' (results us' none) := by
      generalize hi : items 1 (rawLines (flatten stream')) = l at h5
      cases h5 with
      | stop => exact absurd rfl (selection_keeps h7 hk)
      | entry g1 g2 g3 g4 =>
        refine reads_yields (forms := none) (.plain ?_ g4)
        rw [streamItems_code, hi]
        exact .unit g1 g2 g3
    obtain ⟨hdr', hs, hy'⟩ := this
    exact ⟨hdr', us', hs, hy', h7⟩

theorem state_unique {u u' : PoUnit} (h : StateRule u) (h' : StateRule u') (hf : u.flags = u'.flags) (hm : u.message = u'.message) : u.state = u'.state := by
  have h1 := h.needsWork
  have h2 := h.final
  have h1' := h'.needsWork
  have h2' := h'.final
  rw [hf] at h1 h2
  rw [hm] at h2
  cases hs : u.state <;> cases hs' : u'.state <;> simp_all

theorem inherits_unique {ps : List PoUnit} {u v w : PoUnit} (h : Inherits ps u v) (h' : Inherits ps u w) : v = w := by
  have hf := h.flags.trans h'.flags.symm
  have hm := h.fields.message.symm.trans h'.fields.message
  have hs := state_unique h.state h'.state hf hm
  have h1 := h.fields.context.symm.trans h'.fields.context
  have h2 := h.fields.prevContext.symm.trans h'.fields.prevContext
  have h3 := h.fields.prevMessage.symm.trans h'.fields.prevMessage
  have h4 := h.fields.obsolete.symm.trans h'.fields.obsolete
  have h5 := h.notes.trans h'.notes.symm
  have h6 := h.locations.trans h'.locations.symm
  have h7 := h.comments.trans h'.comments.symm
  cases v
  cases w
  simp_all

/-- **C97** The selection of the units is determined. -/
theorem C97_determined {o : Bool} {ps us vs ws : List PoUnit} (h : Selection o ps us vs) (h' : Selection o ps us ws) : vs = ws := by
  induction h generalizing ws with
  | nil => cases h'; rfl
  | drop hu _ ih =>
    cases h' with
    | drop _ h' => exact ih h'
    | keep hu' _ _ => exact absurd hu hu'
  | keep hu hi _ ih =>
    cases h' with
    | drop hu' _ => exact absurd hu' hu
    | keep _ hi' h' => rw [inherits_unique hi hi', ih h']

theorem selection_clean {o : Bool} {ps us us' : List PoUnit} (h : Selection o ps us us') (hp : ∀ u ∈ ps, NoRemarks u) (hr : ∀ u ∈ us, u.obsolete = o → NoRemarks u)
    (hs : ∀ u ∈ us, StateRule u ∧ u.flags.Nodup) : us' = us.filter (fun u => u.obsolete != o) := by
  induction h with
  | nil => rfl
  | @drop ps u us us' hu _ ih =>
    rw [List.filter_cons_of_neg (by simp [hu])]
    refine ih ?_ (fun v hv => hr v (List.mem_cons_of_mem _ hv)) (fun v hv => hs v (List.mem_cons_of_mem _ hv))
    intro v hv
    rcases List.mem_append.mp hv with hv | hv
    · exact hp v hv
    · rw [List.mem_singleton.mp hv]; exact hr u (List.mem_cons_self ..) hu
  | @keep ps u u' us us' hu hi _ ih =>
    rw [List.filter_cons_of_pos (by simp [hu]), ih (by simp) (fun v hv => hr v (List.mem_cons_of_mem _ hv)) (fun v hv => hs v (List.mem_cons_of_mem _ hv))]
    congr 1
    obtain ⟨h1, h2⟩ := hs u (List.mem_cons_self ..)
    refine inherits_unique hi ⟨⟨rfl, rfl, rfl, rfl, rfl⟩, ?_, ?_, ?_, ?_, h1⟩
    · rw [List.flatMap_eq_nil_iff.mpr fun v hv => (hp v hv).notes]; rfl
    · rw [List.flatMap_eq_nil_iff.mpr fun v hv => (hp v hv).locations]; rfl
    · rw [List.flatMap_eq_nil_iff.mpr fun v hv => (hp v hv).comments]; rfl
    · rw [List.flatMap_eq_nil_iff.mpr fun v hv => (hp v hv).flags]; exact (distinct_nodup h2).symm

/-- **C97** If the removed units have no data of comments, the units are exactly those of the other kind. -/
theorem C97_clean {env : Env} {stream : List Event} {hdr : Header env.Lang} {us us' : List PoUnit} {e : Option Err} {o : Bool} (h : Selection o [] us us')
    (hr : ∀ u ∈ us, u.obsolete = o → NoRemarks u) (hy : Yields (parse env stream) hdr (results us e)) : us' = us.filter (fun u => u.obsolete != o) := by
  refine selection_clean h (by simp) hr fun u hu => ?_
  obtain ⟨forms, block, _, he, _⟩ := unit_entry hy (u := u) (by simp [results, hu])
  obtain ⟨_, _, _, _, _, _, _, _, _, _, _, _, _, _, _, _, _, _, _, _, _, _, hd, hs⟩ := he
  exact ⟨hs, by rw [hd.flags]; exact nodup_distinct _⟩

/-! Examples. -/

theorem kindLine_text {o : Bool} {s : Str} {ln : PoLine} (hn : '\n' ∉ s) (h : items 1 [.ok s] = [.ok ln]) : KindLine o s ↔ Kind o ln := by
  have hl := items_lineItems (rs := [.ok s]) (by intro x hx; simp at hx; exact hx ▸ hn) 1
  rw [h] at hl
  cases hl with
  | blank _ h => cases h
  | line hc _ _ => exact quoted_kind hn hc

/-- An obsolete unit with a comment before an active one. -/
def mixedEntries : List Str := [c!"# x", c!"#~ msgid \"a\"", c!"#~ msgstr \"b\"", c!"#, fuzzy", c!"msgid \"c\"", c!"msgstr \"d\""]

def activeEntries : List Str := [c!"# x", c!"#, fuzzy", c!"msgid \"c\"", c!"msgstr \"d\""]

def mixedUnits : List PoUnit :=
  [{ unitAB (c!"a") (c!"b") with notes := [⟨.translator, c!"x"⟩], obsolete := true }, { unitAB (c!"c") (c!"d") with flags := [c!"fuzzy"], state := .needsWork }]

theorem mixed_active : WithoutKind true (mixedEntries.map .ok) (activeEntries.map .ok) := by
  have k : ∀ {s : Str} {n : Nat} {c : Char} {t : Str}, '\n' ∉ s → items 1 [.ok s] = [.ok (.comment n c t)] → ¬ KindLine true s :=
    fun hn h hk => not_kind_comment ((kindLine_text hn h).mp hk)
  have m : ∀ {s : Str} {n : Nat} {c t : Str}, '\n' ∉ s → items 1 [.ok s] = [.ok (.message n [] c t)] → ¬ KindLine true s := by
    intro s n c t hn h hk
    cases (kindLine_text hn h).mp hk with
    | message hp => exact absurd (hp.mp rfl) (by simp [Tilde])
  have d : ∀ {s : Str} {n : Nat} {c t : Str}, '\n' ∉ s → items 1 [.ok s] = [.ok (.message n (c!"~") c t)] → KindLine true s :=
    fun hn h => (kindLine_text hn h).mpr (.message (by simp [Tilde]))
  refine .keep (fun s hs => ?_) (.drop (d (by decide) rfl) (.drop (d (by decide) rfl) (.keep (fun s hs => ?_) (.keep (fun s hs => ?_) (.keep (fun s hs => ?_) .nil)))))
  · cases hs; exact k (by decide) rfl
  · cases hs; exact k (by decide) rfl
  · cases hs; exact m (by decide) rfl
  · cases hs; exact m (by decide) rfl

theorem mixed_yields : Yields (parse demoEnv (textStream (headLines (c!"X: y") ++ mixedEntries))) ⟨[], [], [(c!"X", c!"y")], []⟩ (results mixedUnits none) :=
  yields_text (env := demoEnv) (res := ⟨⟨[], [], [(c!"X", c!"y")], []⟩, none, mixedUnits, none⟩) (by decide) (by rfl)

-- `C97_headed`, and the resulting units by `C97_determined`: the note of the obsolete unit goes to the active one
example : ∃ hdr', SameHeader hdr' ⟨[], [], [(c!"X", c!"y")], []⟩ ∧ Yields (parse demoEnv (textStream (headLines (c!"X: y") ++ activeEntries))) hdr'
    (results [{ unitAB (c!"c") (c!"d") with notes := [⟨.translator, c!"x"⟩], flags := [c!"fuzzy"], state := .needsWork }] none) := by
  obtain ⟨hdr', us', h1, h2, h3⟩ := C97_headed (hd := (headLines (c!"X: y")).map .ok) (rs' := activeEntries.map .ok) (by rw [rawLines_text (by decide)]; rfl)
    (stream' := textStream (headLines (c!"X: y") ++ activeEntries)) (by rw [rawLines_text (by decide)]; rfl) (headerLines_demo _)
    (noContinuation_head (by decide) rfl) mixed_active mixed_yields
  refine ⟨hdr', h1, ?_⟩
  have : Selection true [] mixedUnits [{ unitAB (c!"c") (c!"d") with notes := [⟨.translator, c!"x"⟩], flags := [c!"fuzzy"], state := .needsWork }] :=
    .drop rfl (.keep (by decide) ⟨⟨rfl, rfl, rfl, rfl, rfl⟩, rfl, rfl, rfl, rfl, ⟨by simp, by simp⟩⟩ .nil)
  rw [C97_determined h3 this] at h2
  exact h2

-- `C97_plain`
example : ∃ hdr' us', SameHeader hdr' (noHeader demoEnv) ∧ Yields (parse demoEnv (textStream activeEntries)) hdr' (results us' none) ∧ Selection true [] mixedUnits us' :=
  C97_plain (stream := textStream mixedEntries) (by
      intro ns cs t rest hf
      rw [streamItems_code, rawLines_text (by decide), first_iff (items_noBlank _ _)] at hf
      cases hf)
    (by rw [rawLines_text (by decide), rawLines_text (by decide)]; exact mixed_active) ⟨mixedUnits[1], by simp [mixedUnits], by decide⟩
    (yields_text (env := demoEnv) (res := ⟨noHeader demoEnv, none, mixedUnits, none⟩) (by decide) (by rfl))

-- without a remaining unit, the end of an input that was ignored may become header data
example : Yields (parse demoEnv (textStream [c!"#~ msgid \"a\"", c!"#~ msgstr \"b\"", c!"# x", c!"msgctxt \"c\""])) (noHeader demoEnv)
      (results [{ unitAB (c!"a") (c!"b") with obsolete := true }] none) ∧
    Yields (parse demoEnv (textStream [c!"# x", c!"msgctxt \"c\""])) { noHeader demoEnv with notes := [⟨.translator, c!"x"⟩] } (results [] none) :=
  ⟨yields_text (env := demoEnv) (res := ⟨noHeader demoEnv, none, [_], none⟩) (by decide) (by rfl),
    yields_text (env := demoEnv) (res := ⟨{ noHeader demoEnv with notes := [⟨.translator, c!"x"⟩] }, none, [], none⟩) (by decide) (by rfl)⟩

-- `C97_clean`: the removed active unit has no data of comments
example {us' : List PoUnit} (h : Selection false [] [unitAB (c!"c") (c!"d"), mixedUnits[0]] us') {hdr : Header demoEnv.Lang}
    (hy : Yields (parse demoEnv (textStream [c!"msgid \"c\"", c!"msgstr \"d\"", c!"# x", c!"#~ msgid \"a\"", c!"#~ msgstr \"b\""])) hdr
      (results [unitAB (c!"c") (c!"d"), mixedUnits[0]] none)) : us' = [mixedUnits[0]] :=
  C97_clean h (by
    intro u hu ho
    simp only [List.mem_cons, List.not_mem_nil, or_false] at hu
    rcases hu with rfl | rfl
    · exact ⟨rfl, rfl, rfl, rfl⟩
    · cases ho) hy

end Verif
