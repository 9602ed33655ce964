import Verif.Spec.Uncomment
import Verif.Props.Clear

/-! C95: removing and inserting comment lines. -/

namespace Verif
open Spec

/-- The second lines are the first without some comment lines (if `d`), with other numbers. -/
inductive Sparse (d : Bool) : List PoLine → List PoLine → Prop
  | nil : Sparse d [] []
  | drop {n c s b b'} : d = true → Sparse d b b' → Sparse d (.comment n c s :: b) b'
  | comment {n n' c s b b'} : Sparse d b b' → Sparse d (.comment n c s :: b) (.comment n' c s :: b')
  | message {n n' p k s b b'} : Sparse d b b' → Sparse d (.message n p k s :: b) (.message n' p k s :: b')
  | continuation {n n' p s b b'} : Sparse d b b' → Sparse d (.continuation n p s :: b) (.continuation n' p s :: b')

theorem Sparse.split {d : Bool} {a b c : List PoLine} (h : Sparse d (a ++ b) c) : ∃ a' b', c = a' ++ b' ∧ Sparse d a a' ∧ Sparse d b b' := by
  induction a generalizing c with
  | nil => exact ⟨[], c, rfl, .nil, h⟩
  | cons x a ih =>
    cases h with
    | drop hp h => obtain ⟨a', b', rfl, h1, h2⟩ := ih h; exact ⟨a', b', rfl, .drop hp h1, h2⟩
    | comment h => obtain ⟨a', b', rfl, h1, h2⟩ := ih h; exact ⟨_ :: a', b', rfl, .comment h1, h2⟩
    | message h => obtain ⟨a', b', rfl, h1, h2⟩ := ih h; exact ⟨_ :: a', b', rfl, .message h1, h2⟩
    | continuation h => obtain ⟨a', b', rfl, h1, h2⟩ := ih h; exact ⟨_ :: a', b', rfl, .continuation h1, h2⟩

theorem sparse_continuations {d : Bool} {p : Str} {cs : List (Nat × Str)} {b' : List PoLine} (h : Sparse d (cs.map fun c => PoLine.continuation c.1 p c.2) b') :
    ∃ cs' : List (Nat × Str), b' = (cs'.map fun c => PoLine.continuation c.1 p c.2) ∧ cs'.map Prod.snd = cs.map Prod.snd := by
  induction cs generalizing b' with
  | nil => cases h; exact ⟨[], rfl, rfl⟩
  | cons c cs ih =>
    cases h with
    | @continuation _ n' _ _ _ _ h =>
      obtain ⟨cs', h1, h2⟩ := ih h
      exact ⟨(n', c.2) :: cs', by rw [h1]; rfl, by simp [h2]⟩

theorem sparse_field {d : Bool} {k : Str} {o : Bool} {b b' : List PoLine} {v : Str} (h : Sparse d b b') (f : Field k o b v) : Field k o b' v := by
  obtain ⟨p, ⟨n, s, cs, rfl, rfl⟩, ho⟩ := f
  cases h with
  | @message _ n' _ _ _ _ _ h =>
    obtain ⟨cs', h1, h2⟩ := sparse_continuations h
    exact ⟨p, ⟨n', s, cs', by rw [h1], by rw [h2]⟩, ho⟩

theorem sparse_opt {d : Bool} {k : Str} {o : Bool} {b b' : List PoLine} {v : Option Str} (h : Sparse d b b') (f : OptField k o b v) : OptField k o b' v := by
  cases f with
  | none => cases h; exact .none
  | some f => exact .some (sparse_field h f)

theorem sparse_comments {d : Bool} {cs : List (Nat × Char × Str)} {b' : List PoLine} (h : Sparse d (cs.map commentLine) b') :
    ∃ cs' : List (Nat × Char × Str), b' = cs'.map commentLine ∧ (cs'.map Prod.snd).Sublist (cs.map Prod.snd) := by
  induction cs generalizing b' with
  | nil => cases h; exact ⟨[], rfl, by simp⟩
  | cons c cs ih =>
    cases h with
    | @comment _ n' _ _ _ _ h =>
      obtain ⟨cs', rfl, h2⟩ := ih h
      exact ⟨(n', c.2) :: cs', rfl, by simpa using h2⟩
    | drop _ h =>
      obtain ⟨cs', rfl, h2⟩ := ih h
      exact ⟨cs', rfl, by simpa using h2.cons _⟩

theorem sparse_values {d : Bool} {o : Bool} {hi lo : Nat} {b b' : List PoLine} {vs : List Str} (h : Sparse d b b') (f : ValueFields o hi lo b vs) :
    ValueFields o hi lo b' vs := by
  induction f generalizing b' with
  | nil => cases h; exact .nil
  | cons h1 h2 f _ ih =>
    obtain ⟨b1, b2, rfl, g1, g2⟩ := h.split
    exact .cons h1 h2 (sparse_field g1 f) (ih g2)

theorem sparse_texts {d : Bool} {forms : Option PluralForms} {o : Bool} {id : Str} {idPl : Option Str} {b b' : List PoLine} {m : Message} (h : Sparse d b b')
    (f : TextFields forms o id idPl b m) : TextFields forms o id idPl b' m := by
  cases f with
  | simple f => exact .simple (sparse_field h f)
  | plural f hv => exact .plural (sparse_values h f) hv

theorem sparse_head {d : Bool} {o : Bool} {b b' : List PoLine} (h : Sparse d b b') (f : EntryHead o b) : EntryHead o b' := by
  obtain ⟨cs, b1, b2, b3, b4, _, _, _, _, rfl, f1, f2, f3, g3, f4⟩ := f
  obtain ⟨c0, _, rfl, k0, h⟩ := h.split
  obtain ⟨c1, _, rfl, k1, h⟩ := h.split
  obtain ⟨c2, _, rfl, k2, h⟩ := h.split
  obtain ⟨c3, c4, rfl, k3, k4⟩ := h.split
  obtain ⟨cs', rfl, _⟩ := sparse_comments k0
  exact ⟨cs', c1, c2, c3, c4, _, _, _, _, rfl, sparse_opt k1 f1, sparse_opt k2 f2, sparse_opt k3 f3, g3, sparse_opt k4 f4⟩

theorem sparse_ids {d : Bool} {o : Bool} {idPl : Option Str} {b b' : List PoLine} (h : Sparse d b b') (f : EntryIds o idPl b) : EntryIds o idPl b' := by
  obtain ⟨b0, b5, b6, id, rfl, f0, f5, f6⟩ := f
  obtain ⟨c0, _, rfl, k0, h⟩ := h.split
  obtain ⟨c5, c6, rfl, k5, k6⟩ := h.split
  exact ⟨c0, c5, c6, id, rfl, sparse_head k0 f0, sparse_field k5 f5, sparse_opt k6 f6⟩

open Classical in
/-- The unit with the data of other comments. -/
noncomputable def withComments (cs : List (Char × Str)) (u : PoUnit) : PoUnit :=
  { u with
    flags := distinct (cs.flatMap flagItems)
    locations := cs.flatMap locationItems
    notes := cs.filterMap noteItem
    comments := cs.filterMap otherItem
    state := if c!"fuzzy" ∈ distinct (cs.flatMap flagItems) then .needsWork else if HasText u.message then .final else .empty }

theorem with_state (cs : List (Char × Str)) (u : PoUnit) : StateRule (withComments cs u) := by
  constructor <;> simp only [withComments] <;> repeat' split
  all_goals simp_all

theorem with_data (cs : List (Char × Str)) (u : PoUnit) : CommentData cs (withComments cs u) := ⟨rfl, rfl, rfl, rfl⟩

theorem sublist_flatMap {α β : Type} {l l' : List α} (f : α → List β) (h : l'.Sublist l) : (l'.flatMap f).Sublist (l.flatMap f) := by
  induction h with
  | slnil => simp
  | cons _ _ ih => simpa using ih.trans (List.sublist_append_right _ _)
  | cons_cons _ _ ih => simpa using ih

theorem with_fewer {cs cs' : List (Char × Str)} {u : PoUnit} (h : cs'.Sublist cs) (hd : CommentData cs u) : FewerRemarks u (withComments cs' u) where
  fields := ⟨rfl, rfl, rfl, rfl, rfl⟩
  notes := by rw [hd.notes]; exact h.filterMap _
  locations := by rw [hd.locations]; exact sublist_flatMap _ h
  comments := by rw [hd.comments]; exact h.filterMap _
  flags := by
    intro f hf
    rw [hd.flags, mem_distinct]
    exact (sublist_flatMap _ h).subset ((mem_distinct _ _).mp hf)
  state := with_state _ _

theorem sparse_entry {d : Bool} {forms : Option PluralForms} {b b' : List PoLine} {u : PoUnit} (h : Sparse d b b') (f : Entry forms b u) :
    ∃ u', Entry forms b' u' ∧ FewerRemarks u u' := by
  obtain ⟨cs, b1, b2, b3, b4, b5, b6, b7, pid, ppl, id, idPl, rfl, f1, f2, f3, g3, f4, f5, f6, f7, f8, f9, f10⟩ := f
  obtain ⟨c0, _, rfl, k0, h⟩ := h.split
  obtain ⟨c1, _, rfl, k1, h⟩ := h.split
  obtain ⟨c2, _, rfl, k2, h⟩ := h.split
  obtain ⟨c3, _, rfl, k3, h⟩ := h.split
  obtain ⟨c4, _, rfl, k4, h⟩ := h.split
  obtain ⟨c5, _, rfl, k5, h⟩ := h.split
  obtain ⟨c6, c7, rfl, k6, k7⟩ := h.split
  obtain ⟨cs', rfl, hcs⟩ := sparse_comments k0
  exact ⟨withComments (cs'.map Prod.snd) u, ⟨cs', c1, c2, c3, c4, c5, c6, c7, pid, ppl, id, idPl, rfl, sparse_opt k1 f1, sparse_opt k2 f2, sparse_opt k3 f3, g3, sparse_opt k4 f4,
    sparse_field k5 f5, sparse_opt k6 f6, sparse_texts k7 f7, f8, with_data _ _, with_state _ _⟩, with_fewer hcs f9⟩

theorem sparse_run {d : Bool} {forms : Option PluralForms} {l : List Item} {us : List PoUnit} {e : Option Err} (h : Run forms l us e) (he : e = none) {b b' : List PoLine}
    (hl : l = b.map .ok) (hk : Sparse d b b') : ∃ us', Run forms (b'.map .ok) us' none ∧ Each FewerRemarks us us' := by
  induction h generalizing b b' with
  | stop h =>
    subst he hl
    generalize hb : b.map Except.ok = l at h
    generalize he : (none : Option Err) = e at h
    cases h with
    | endsInHead h => cases map_ok_inj hb; exact ⟨[], .stop (.endsInHead (sparse_head hk h)), .nil⟩
    | endsAfterIds h => cases map_ok_inj hb; exact ⟨[], .stop (.endsAfterIds (sparse_ids hk h)), .nil⟩
    | _ => cases he
  | @entry block u rest us e h1 h2 h3 hr ih =>
    subst he
    obtain ⟨r, c, rfl, _⟩ := follows_run hr rfl .fresh
    rw [← List.map_append] at hl
    cases map_ok_inj hl
    obtain ⟨b1, b2, rfl, k1, k2⟩ := hk.split
    obtain ⟨u', h4, h6⟩ := sparse_entry k1 h1
    obtain ⟨us', h5, h7⟩ := ih rfl rfl k2
    refine ⟨u' :: us', ?_, .cons h6 h7⟩
    rw [List.map_append]
    exact .entry h4 (h6.fields.message ▸ h2) ((ends_iff h4).mpr (entryEnd_fresh (run_fresh h5 (.inr rfl)))) h5

/-- The same lines with other numbers. -/
theorem line_again {s : Str} {n : Nat} {ln : PoLine} (hc : Classified s n (some ln)) (hb : ln ≠ .blank) (n' : Nat) {d : Bool} {b b' : List PoLine} (h : Sparse d b b') :
    ∃ ln', Classified s n' (some ln') ∧ ln' ≠ .blank ∧ Sparse d (ln :: b) (ln' :: b') := by
  cases hc with
  | blank => exact absurd rfl hb
  | keyword h1 => exact ⟨_, .keyword h1, by simp, .message h⟩
  | continuation h1 => exact ⟨_, .continuation h1, by simp, .continuation h⟩
  | comment h1 h2 h3 => exact ⟨_, .comment h1 h2 h3, by simp, .comment h⟩

theorem comment_again {s : Str} (hc : CommentLine s) (n : Nat) : ∃ c t, Classified s n (some (.comment n c t)) := by
  obtain ⟨_, _, hc⟩ := hc
  cases hc with
  | comment h1 h2 h3 => exact ⟨_, _, .comment h1 h2 h3⟩

theorem fewer_lines {n : Nat} {rs rs' : List (Except IoErr Str)} {b : List PoLine} (hn : ∀ s, .ok s ∈ rs → '\n' ∉ s) (h : LineItems n rs (b.map .ok))
    (hc : FewerComments rs rs') (n' : Nat) : ∃ b', LineItems n' rs' (b'.map .ok) ∧ Sparse true b b' := by
  induction hc generalizing n n' b with
  | nil => generalize hl : b.map Except.ok = l at h; cases h; cases List.map_eq_nil_iff.mp hl; exact ⟨[], .nil, .nil⟩
  | keep _ ih =>
    generalize hl : b.map Except.ok = l at h
    cases h with
    | failed => cases b <;> simp at hl
    | unrecognised => cases b <;> simp at hl
    | blank hc h =>
      subst hl
      obtain ⟨b', h1, h2⟩ := ih (fun s hs => hn s (List.mem_cons_of_mem _ hs)) h (n' + 1)
      cases hc with
      | blank hw => exact ⟨b', .blank (.blank hw) h1, h2⟩
    | line hc hb h =>
      cases b with
      | nil => cases hl
      | cons x b =>
        simp only [List.map_cons, List.cons.injEq, Except.ok.injEq] at hl
        obtain ⟨rfl, rfl⟩ := hl
        obtain ⟨b', h1, h2⟩ := ih (fun s hs => hn s (List.mem_cons_of_mem _ hs)) h (n' + 1)
        obtain ⟨ln', h3, h4, h5⟩ := line_again hc hb n' h2
        exact ⟨ln' :: b', .line h3 h4 h1, h5⟩
  | drop hq _ ih =>
    have hs := hn _ (List.mem_cons_self ..)
    obtain ⟨c, t, hcm⟩ := comment_again hq n
    generalize hl : b.map Except.ok = l at h
    cases h with
    | unrecognised => cases b <;> simp at hl
    | blank hc _ => cases classified_unique hs hc hcm
    | line hc hb h =>
      cases classified_unique hs hc hcm
      cases b with
      | nil => cases hl
      | cons x b =>
        simp only [List.map_cons, List.cons.injEq, Except.ok.injEq] at hl
        obtain ⟨rfl, rfl⟩ := hl
        obtain ⟨b', h1, h2⟩ := ih (fun s hs => hn s (List.mem_cons_of_mem _ hs)) h n'
        exact ⟨b', h1, .drop rfl h2⟩

theorem fewer_run {forms : Option PluralForms} {n : Nat} {rs rs' : List (Except IoErr Str)} {us : List PoUnit} (hn : ∀ s, .ok s ∈ rs → '\n' ∉ s)
    (hn' : ∀ s, .ok s ∈ rs' → '\n' ∉ s) (h : Run forms (items n rs) us none) (hc : FewerComments rs rs') (n' : Nat) :
    ∃ us', Run forms (items n' rs') us' none ∧ Each FewerRemarks us us' := by
  obtain ⟨b, c, hb, _⟩ := follows_run h rfl .fresh
  have hl := items_lineItems hn n
  rw [hb] at hl h
  obtain ⟨b', h1, h2⟩ := fewer_lines hn hl hc n'
  rw [← h1.unique hn' (items_lineItems hn' n')]
  exact sparse_run h rfl rfl h2

/-- **C95** Removing comment lines after the header from an input that is read without error gives an input that is read without error, with the same header
data and the same units except for the data of comments. -/
theorem C95_headed {env : Env} {stream stream' : List Event} {hd rs rs' : List (Except IoErr Str)} {hdr : Header env.Lang} {us : List PoUnit}
    (h : rawLines (flatten stream) = hd ++ rs) (h' : rawLines (flatten stream') = hd ++ rs') (hh : HeaderLines hd) (hc : NoContinuation rs) (hr : FewerComments rs rs')
    (hy : Yields (parse env stream) hdr (results us none)) :
    ∃ hdr' us', SameHeader hdr' hdr ∧ Yields (parse env stream') hdr' (results us' none) ∧ Each FewerRemarks us us' := by
  have hn : ∀ s, .ok s ∈ rs → '\n' ∉ s := fun s hs => rawLines_no_nl (inp := flatten stream) (s := s) (by rw [h]; simp [hs])
  have hn' : ∀ s, .ok s ∈ rs' → '\n' ∉ s := fun s hs => rawLines_no_nl (inp := flatten stream') (s := s) (by rw [h']; simp [hs])
  obtain ⟨forms, us1, e1, hx, hrd⟩ := yields_reads hy
  obtain ⟨rfl, rfl⟩ := results_inj hx
  obtain ⟨block, u, t, e1, h1, h2, hcase⟩ := first_block h hh hc
  rcases hcase with ⟨e0, hf⟩ | ⟨h3, hf⟩
  · exact (not_rejects_reads (.first hf) hrd).elim
  · cases hrd with
    | nothing f => cases hf.unique f
    | plain f => cases hf.unique f
    | headed f r1 r2 r =>
      cases hf.unique f
      obtain ⟨us', hr', hu⟩ := fewer_run hn hn' r hr (1 + hd.length)
      have : ∃ hdr', SameHeader hdr' hdr ∧ Yields (parse env stream') hdr' (results us' none) := by
        refine reads_yields (forms := forms) (.headed (rest := items (1 + hd.length) rs') ?_ r1 r2 hr')
        have hi : streamItems stream' = block.map .ok ++ items (1 + hd.length) rs' := by
          rw [streamItems_code, h', items_append (by rw [e1]; simp), e1]
        rw [hi]
        exact .header h1 h2 ((ends_iff h1).mpr (entryEnd_fresh (run_fresh hr' (.inr rfl))))
      obtain ⟨hdr', hs, hy'⟩ := this
      exact ⟨hdr', us', hs, hy', hu⟩

/-- **C95** The same for an input without header. -/
theorem C95_plain {env : Env} {stream stream' : List Event} {hdr : Header env.Lang} {us : List PoUnit}
    (hf : ∀ ns cs t rest, ¬ First (streamItems stream) (.header ns cs t rest)) (hr : FewerComments (rawLines (flatten stream)) (rawLines (flatten stream')))
    (hy : Yields (parse env stream) hdr (results us none)) :
    ∃ hdr' us', SameHeader hdr' hdr ∧ Yields (parse env stream') hdr' (results us' none) ∧ Each FewerRemarks us us' := by
  have hn : ∀ s, .ok s ∈ rawLines (flatten stream) → '\n' ∉ s := fun s hs => rawLines_no_nl hs
  have hn' : ∀ s, .ok s ∈ rawLines (flatten stream') → '\n' ∉ s := fun s hs => rawLines_no_nl hs
  obtain ⟨forms, us1, e1, hx, hrd⟩ := yields_reads hy
  obtain ⟨rfl, rfl⟩ := results_inj hx
  rw [streamItems_code] at hrd hf
  obtain ⟨b, hb⟩ : ∃ (b : List PoLine), items 1 (rawLines (flatten stream)) = b.map .ok := by
    have : ∃ us', Run none (items 1 (rawLines (flatten stream))) us' none := by
      cases hrd with
      | nothing f => exact ⟨[], .stop (first_nothing f)⟩
      | plain f hrun =>
        obtain ⟨block, hl, hb, hsrc, hend⟩ := first_unit f
        rw [hl]
        exact ⟨_, .entry hb hsrc hend hrun⟩
      | headed f => exact (hf _ _ _ _ f).elim
    obtain ⟨us', hr⟩ := this
    obtain ⟨b, c, hb, _⟩ := follows_run hr rfl .fresh
    exact ⟨b, hb⟩
  have hl := items_lineItems hn 1
  rw [hb] at hl
  obtain ⟨b', h1, hk⟩ := fewer_lines hn hl hr 1
  have hb' : streamItems stream' = b'.map .ok := by rw [streamItems_code, ← h1.unique hn' (items_lineItems hn' 1)]
  rw [hb] at hrd
  cases hrd with
  | headed f => rw [hb] at hf; exact (hf _ _ _ _ f).elim
  | nothing f =>
    have : ∃ hdr', SameHeader hdr' (plainHeader env) ∧ Yields (parse env stream') hdr' (results [] none) := by
      refine reads_yields (forms := none) (.nothing ?_)
      rw [hb']
      generalize hx : b.map Except.ok = l at f
      generalize hy : FirstOut.nothing = y at f
      cases f with
      | comments h =>
        cases map_ok_inj hx
        obtain ⟨ds, rfl⟩ := all_comments h
        obtain ⟨cs', rfl, _⟩ := sparse_comments hk
        refine .comments ?_
        intro ln hln
        obtain ⟨d, _, rfl⟩ := List.mem_map.mp hln
        exact ⟨d, rfl⟩
      | cut h => cases map_ok_inj hx; exact .cut (sparse_ids hk h)
      | _ => cases hy
    obtain ⟨hdr', hs, hy'⟩ := this
    exact ⟨hdr', [], hs, hy', .nil⟩
  | plain f hrun =>
    obtain ⟨block, hl, he, hsrc, hend⟩ := first_unit f
    obtain ⟨r, c, rfl, _⟩ := follows_run hrun rfl .fresh
    rw [← List.map_append] at hl
    cases map_ok_inj hl
    obtain ⟨b1, b2, rfl, k1, k2⟩ := hk.split
    obtain ⟨u', h4, h6⟩ := sparse_entry k1 he
    obtain ⟨us', h5, h7⟩ := sparse_run hrun rfl rfl k2
    have : ∃ hdr', SameHeader hdr' (plainHeader env) ∧ Yields (parse env stream') hdr' (results (u' :: us') none) := by
      refine reads_yields (forms := none) (.plain (rest := b2.map .ok) ?_ h5)
      rw [hb', List.map_append]
      exact .unit h4 (h6.fields.message ▸ hsrc) ((ends_iff h4).mpr (entryEnd_fresh (run_fresh h5 (.inr rfl))))
    obtain ⟨hdr', hs, hy'⟩ := this
    exact ⟨hdr', u' :: us', hs, hy', .cons h6 h7⟩

/-! Without comment lines, no data of comments. -/

theorem bare_run {forms : Option PluralForms} {l : List Item} {us : List PoUnit} {e : Option Err} (h : Run forms l us e) (hl : ∀ n c s, .ok (.comment n c s) ∉ l) :
    ∀ u ∈ us, NoRemarks u := by
  induction h with
  | stop => simp
  | @entry block u rest us e h1 h2 h3 hr ih =>
    intro u' hu
    rcases List.mem_cons.mp hu with rfl | hu
    · obtain ⟨cs, b1, b2, b3, b4, b5, b6, b7, pid, ppl, id, idPl, rfl, _, _, _, _, _, _, _, _, _, hd, _⟩ := h1
      cases cs with
      | nil => exact ⟨hd.notes, hd.locations, hd.comments, hd.flags⟩
      | cons c cs => exact absurd (by simp [commentLine]) (hl c.1 c.2.1 c.2.2)
    · exact ih (fun n c s hm => hl n c s (List.mem_append_right _ hm)) u' hu

/-- **C95** Units of an input without comment lines after the header have no notes, locations, comments and flags. -/
theorem C95_none {env : Env} {stream : List Event} {hd rs : List (Except IoErr Str)} {hdr : Header env.Lang} {us : List PoUnit} {e : Option Err}
    (h : rawLines (flatten stream) = hd ++ rs) (hh : HeaderLines hd) (hc : NoContinuation rs) (hr : ∀ s, .ok s ∈ rs → ¬ CommentLine s)
    (hy : Yields (parse env stream) hdr (results us e)) : ∀ u ∈ us, NoRemarks u := by
  have hn : ∀ s, .ok s ∈ rs → '\n' ∉ s := fun s hs => rawLines_no_nl (inp := flatten stream) (s := s) (by rw [h]; simp [hs])
  obtain ⟨forms, _, hrun⟩ := after_header h hh hc hy
  refine bare_run hrun fun n c s hm => ?_
  obtain ⟨_, k, t, hk, hcl, _⟩ := (items_lineItems hn _).ok_at hm
  refine hr t (List.mem_of_getElem? hk) ?_
  cases hcl with
  | comment h1 h2 h3 => exact ⟨_, _, .comment h1 h2 h3⟩

/-! Inserting a comment line. -/

theorem lines_again {n : Nat} {rs : List (Except IoErr Str)} {b : List PoLine} (h : LineItems n rs (b.map .ok)) (n' : Nat) :
    ∃ b', LineItems n' rs (b'.map .ok) ∧ Sparse false b b' := by
  generalize hl : b.map Except.ok = l at h
  induction h generalizing n' b with
  | nil => cases List.map_eq_nil_iff.mp hl; exact ⟨[], .nil, .nil⟩
  | failed => cases b <;> simp at hl
  | unrecognised => cases b <;> simp at hl
  | blank hc _ ih =>
    obtain ⟨b', h1, h2⟩ := ih (n' + 1) hl
    cases hc with
    | blank hw => exact ⟨b', .blank (.blank hw) h1, h2⟩
  | line hc hb _ ih =>
    cases b with
    | nil => cases hl
    | cons x b =>
      simp only [List.map_cons, List.cons.injEq, Except.ok.injEq] at hl
      obtain ⟨rfl, hl⟩ := hl
      obtain ⟨b', h1, h2⟩ := ih (n' + 1) hl
      obtain ⟨ln', h3, h4, h5⟩ := line_again hc hb n' h2
      exact ⟨ln' :: b', .line h3 h4 h1, h5⟩

/-- The same header lines give the same header data. -/
theorem headed_same {env : Env} {stream stream' : List Event} {hd rs rs' : List (Except IoErr Str)} {hdr hdr' : Header env.Lang} {us us' : List PoUnit}
    {e e' : Option Err} (h : rawLines (flatten stream) = hd ++ rs) (h' : rawLines (flatten stream') = hd ++ rs') (hh : HeaderLines hd) (hc : NoContinuation rs)
    (hc' : NoContinuation rs') (hy : Yields (parse env stream) hdr (results us e)) (hy' : Yields (parse env stream') hdr' (results us' e')) : SameHeader hdr hdr' := by
  have key : ∀ {stream : List Event} {rs : List (Except IoErr Str)} {hdr : Header env.Lang} {us : List PoUnit} {e : Option Err},
      rawLines (flatten stream) = hd ++ rs → NoContinuation rs → Yields (parse env stream) hdr (results us e) →
      ∃ (block : List PoLine) (u : PoUnit) (t : Option Str), items 1 hd = block.map .ok ∧ Entry none block u ∧ u.message = .simple [] t ∧
        HeaderRule env u.notes u.comments (t.getD []) hdr := by
    intro stream rs hdr us e h hc hy
    obtain ⟨forms, us1, e1, hx, hrd⟩ := yields_reads hy
    obtain ⟨block, u, t, e1, h1, h2, hcase⟩ := first_block h hh hc
    rcases hcase with ⟨e0, hf⟩ | ⟨h3, hf⟩
    · exact (not_rejects_reads (.first hf) hrd).elim
    · cases hrd with
      | nothing f => cases hf.unique f
      | plain f => cases hf.unique f
      | headed f r1 r2 r => cases hf.unique f; exact ⟨block, u, t, e1, h1, h2, r1⟩
  obtain ⟨b1, u1, t1, i1, g1, m1, r1⟩ := key h hc hy
  obtain ⟨b2, u2, t2, i2, g2, m2, r2⟩ := key h' hc' hy'
  cases map_ok_inj (i1.symm.trans i2)
  cases g1.unique g2
  cases m1.symm.trans m2
  exact headerRule_unique r1 r2

theorem lines_append {n : Nat} {rs rs' : List (Except IoErr Str)} {b : List PoLine} {l : List Item} (h : LineItems n rs (b.map .ok)) (h' : LineItems (n + rs.length) rs' l) :
    LineItems n (rs ++ rs') (b.map .ok ++ l) := by
  generalize hl : b.map Except.ok = l' at h
  induction h generalizing b with
  | nil => simpa using h'
  | failed => cases b <;> simp at hl
  | unrecognised => cases b <;> simp at hl
  | @blank n s rs _ hc _ ih => exact .blank hc (ih (by rw [show n + 1 + rs.length = n + (Except.ok s :: rs).length by simp; omega]; exact h') hl)
  | @line n s rs _ _ hc hb _ ih =>
    cases b with
    | nil => cases hl
    | cons x b =>
      simp only [List.map_cons, List.cons.injEq, Except.ok.injEq] at hl
      obtain ⟨rfl, hl⟩ := hl
      exact .line hc hb (ih (by rw [show n + 1 + rs.length = n + (Except.ok s :: rs).length by simp; omega]; exact h') hl)

theorem follows_again {hi : Nat} {a c : Place} {b b' : List PoLine} (h : EachFollows hi a b c) (hs : Sparse false b b') : EachFollows hi a b' c := by
  induction h generalizing b' with
  | nil => cases hs; exact .nil
  | cons h _ ih =>
    cases h with
    | comment ha =>
      cases hs with
      | drop hd => cases hd
      | comment hs => exact .cons (.comment ha) (ih hs)
    | begins ha hk => cases hs with | message hs => exact .cons (.begins ha hk) (ih hs)
    | continues => cases hs with | continuation hs => exact .cons .continues (ih hs)
    | goesOn hg ht => cases hs with | message hs => exact .cons (.goesOn hg ht) (ih hs)

theorem sparse_symm {b b' : List PoLine} (h : Sparse false b b') : Sparse false b' b := by
  induction h with
  | nil => exact .nil
  | drop hd => cases hd
  | comment _ ih => exact .comment ih
  | message _ ih => exact .message ih
  | continuation _ ih => exact .continuation ih

theorem fresh_again {b b' : List PoLine} (h : BeginsFresh b) (hs : Sparse false b b') : BeginsFresh b' := by
  intro x tl hx
  subst hx
  cases hs with
  | drop hd => cases hd
  | comment => exact .inl ⟨_, _, _, rfl⟩
  | message =>
    rcases h _ _ rfl with ⟨_, _, _, h⟩ | ⟨_, _, _, _, h, hk⟩
    · cases h
    · cases h; exact .inr ⟨_, _, _, _, rfl, hk⟩
  | continuation =>
    rcases h _ _ rfl with ⟨_, _, _, h⟩ | ⟨_, _, _, _, h, hk⟩ <;> cases h

theorem word_not_value {k : FieldKind} (hk : MayBegin k) (j : Nat) : k.word ≠ valueKeyword j := by
  cases hk <;> exact fixed_not_value (by simp [FieldKind.word]) j

theorem begins_fresh {hi : Nat} {b : List PoLine} {c : Place} (h : EachFollows hi .fresh b c) : BeginsFresh b := by
  intro x tl hx
  subst hx
  cases h with
  | cons g _ =>
    cases g with
    | comment => exact .inl ⟨_, _, _, rfl⟩
    | begins _ hk => exact .inr ⟨_, _, _, _, rfl, word_not_value hk⟩

theorem fresh_border {hi : Nat} {a c : Place} {b : List PoLine} (ha : AtBorder a) (hb : BeginsFresh b) (h : EachFollows hi a b c) : ∃ c', EachFollows hi .fresh b c' := by
  cases h with
  | nil => exact ⟨_, .nil⟩
  | cons g h =>
    refine ⟨c, .cons ?_ h⟩
    cases g with
    | comment => exact .comment .fresh
    | begins _ hk => exact .begins .fresh hk
    | continues => rcases hb _ _ rfl with ⟨_, _, _, h⟩ | ⟨_, _, _, _, h, hk⟩ <;> cases h
    | goesOn hg ht =>
      cases ha with
      | text => cases hg
      | value =>
        cases hg with
        | @more _ _ j _ _ =>
          rcases hb _ _ rfl with ⟨_, _, _, h⟩ | ⟨_, _, _, _, h, hk⟩
          · cases h
          · cases h; exact absurd rfl (hk j)

/-- **C95** A comment line can be inserted in an input that is read without error, without making it an error, exactly where an entry may begin and the next line does
not go on with the entry before. -/
theorem C95_insert {env : Env} {stream stream' : List Event} {hd a b : List (Except IoErr Str)} {s : Str} {hdr hdr' : Header env.Lang} {us us' : List PoUnit}
    {e : Option Err} {forms : Option PluralForms} {la lb : List PoLine} {x : Place}
    (h : rawLines (flatten stream) = hd ++ (a ++ b)) (h' : rawLines (flatten stream') = hd ++ (a ++ .ok s :: b)) (hs : CommentLine s)
    (hh : HeaderLines hd) (hc : NoContinuation (a ++ b)) (hf : FormsRule env (hdr.properties.lookup (c!"Plural-Forms")) (.ok forms))
    (hy : Yields (parse env stream) hdr (results us none)) (hy' : Yields (parse env stream') hdr' (results us' e))
    (ha : LineItems (1 + hd.length) a (la.map .ok)) (hb : LineItems (1 + hd.length + a.length) b (lb.map .ok)) (hx : EachFollows (nplurals forms) .fresh la x) :
    e = none ↔ AtBorder x ∧ BeginsFresh lb := by
  have hn : ∀ t, .ok t ∈ a ++ b → '\n' ∉ t := fun t ht => rawLines_no_nl (inp := flatten stream) (s := t) (by rw [h]; exact List.mem_append_right _ ht)
  have hn' : ∀ t, .ok t ∈ a ++ .ok s :: b → '\n' ∉ t := fun t ht => rawLines_no_nl (inp := flatten stream') (s := t) (by rw [h']; exact List.mem_append_right _ ht)
  obtain ⟨c, t, hcl⟩ := comment_again hs (1 + hd.length + a.length)
  obtain ⟨lb', hb', hsp⟩ := lines_again hb (1 + hd.length + a.length + 1)
  have hl := lines_append ha hb
  have hl' := lines_append ha (.line hcl (by simp) hb')
  have hc' : NoContinuation (a ++ .ok s :: b) := by
    intro n l m p q tl hli heq
    obtain ⟨la', ha', _⟩ := lines_again ha n
    obtain ⟨c', t', hcl'⟩ := comment_again hs (n + a.length)
    obtain ⟨lb1, hb1, _⟩ := lines_again hb (n + a.length + 1)
    obtain ⟨lb2, hb2, _⟩ := lines_again hb (n + a.length)
    have hu := hli.unique hn' (lines_append ha' (.line hcl' (by simp) hb1))
    rw [heq] at hu
    cases la' with
    | nil => cases hu
    | cons y la' =>
      simp only [List.map_cons, List.cons_append, List.cons.injEq, Except.ok.injEq] at hu
      exact hc n _ m p q _ (lines_append ha' hb2) (by rw [← hu.1]; rfl)
  have hs' : ∃ z, EachFollows (nplurals forms) x lb z := by
    obtain ⟨b0, z, h1, h2⟩ := (C92_header h hh hc hy hf).mp rfl
    have := map_ok_inj ((List.map_append ..).trans (hl.unique hn h1))
    subst this
    obtain ⟨y, h3, h4⟩ := follows_split h2
    cases hx.unique h3
    exact ⟨z, h4⟩
  have hf' : FormsRule env (hdr'.properties.lookup (c!"Plural-Forms")) (.ok forms) := by
    rw [← (headed_same h h' hh hc hc' hy hy').properties]
    exact hf
  rw [C92_header h' hh hc' hy' hf']
  constructor
  · rintro ⟨b0, z, h1, h2⟩
    have := map_ok_inj ((show (la ++ PoLine.comment (1 + hd.length + a.length) c t :: lb').map Except.ok = _ by simp).trans (hl'.unique hn' h1))
    subst this
    obtain ⟨y, h3, h4⟩ := follows_split h2
    cases hx.unique h3
    cases h4 with
    | cons g h4 =>
      cases g with
      | comment hbd => exact ⟨hbd, fresh_again (begins_fresh h4) (sparse_symm hsp)⟩
  · rintro ⟨hbd, hfr⟩
    obtain ⟨z, hz⟩ := hs'
    obtain ⟨z', hz'⟩ := fresh_border hbd hfr hz
    exact ⟨la ++ .comment _ c t :: lb', z', by simpa using hl', hx.append (.cons (.comment hbd) (follows_again hz' hsp))⟩

/-! Examples. -/

theorem commentLine_text {s : Str} {c : Char} {t : Str} (hn : '\n' ∉ s) (h : items 1 [.ok s] = [.ok (.comment 1 c t)]) : CommentLine s := by
  have hl := items_lineItems (rs := [.ok s]) (by intro x hx; simp at hx; exact hx ▸ hn) 1
  rw [h] at hl
  cases hl with
  | blank _ h => cases h
  | line hc _ _ => cases hc with | comment h1 h2 h3 => exact ⟨_, _, .comment h1 h2 h3⟩

/-- A unit with comments, before and after, and with a comment inserted. -/
def remarkEntry : List Str := [c!"# x", c!"#, fuzzy", c!"msgid \"a\"", c!"msgstr \"b\"", c!"# end"]

def lessEntry : List Str := [c!"# x", c!"msgid \"a\"", c!"msgstr \"b\""]

def moreEntry : List Str := [c!"# x", c!"msgid \"a\"", c!"# in", c!"msgstr \"b\""]

theorem remark_less : FewerComments (remarkEntry.map .ok) (lessEntry.map .ok) :=
  .keep (.drop (commentLine_text (by decide) rfl) (.keep (.keep (.drop (commentLine_text (by decide) rfl) .nil))))

theorem less_yields : Yields (parse demoEnv (textStream (headLines (c!"X: y") ++ lessEntry))) ⟨[], [], [(c!"X", c!"y")], []⟩
    (results [{ unitAB (c!"a") (c!"b") with notes := [⟨.translator, c!"x"⟩] }] none) :=
  yields_text (env := demoEnv) (res := ⟨⟨[], [], [(c!"X", c!"y")], []⟩, none, [_], none⟩) (by decide) (by rfl)

-- `C95_headed`
example {hdr : Header demoEnv.Lang} {us : List PoUnit} (hy : Yields (parse demoEnv (textStream (headLines (c!"X: y") ++ remarkEntry))) hdr (results us none)) :
    ∃ hdr' us', SameHeader hdr' hdr ∧ Yields (parse demoEnv (textStream (headLines (c!"X: y") ++ lessEntry))) hdr' (results us' none) ∧ Each FewerRemarks us us' :=
  C95_headed (hd := (headLines (c!"X: y")).map .ok) (rs' := lessEntry.map .ok) (by rw [rawLines_text (by decide)]; rfl) (by rw [rawLines_text (by decide)]; rfl)
    (headerLines_demo _) (noContinuation_head (by decide) rfl) remark_less hy

example : Yields (parse demoEnv (textStream (headLines (c!"X: y") ++ remarkEntry))) ⟨[], [], [(c!"X", c!"y")], []⟩
    (results [{ unitAB (c!"a") (c!"b") with notes := [⟨.translator, c!"x"⟩], flags := [c!"fuzzy"], state := .needsWork }] none) :=
  yields_text (env := demoEnv) (res := ⟨⟨[], [], [(c!"X", c!"y")], []⟩, none, [_], none⟩) (by decide) (by rfl)

-- `C95_plain`
example : ∃ hdr us, SameHeader hdr (noHeader demoEnv) ∧ Yields (parse demoEnv (textStream lessEntry)) hdr (results us none) ∧
    Each FewerRemarks [{ unitAB (c!"a") (c!"b") with notes := [⟨.translator, c!"x"⟩], flags := [c!"fuzzy"], state := .needsWork }] us :=
  C95_plain (stream := textStream remarkEntry) (by
      intro ns cs t rest hf
      rw [streamItems_code, rawLines_text (by decide), first_iff (items_noBlank _ _)] at hf
      cases hf)
    (by rw [rawLines_text (by decide), rawLines_text (by decide)]; exact remark_less)
    (yields_text (env := demoEnv) (res := ⟨noHeader demoEnv, none, [_], none⟩) (by decide) (by rfl))

-- `C95_none`
example {hdr : Header demoEnv.Lang} {us : List PoUnit} {e : Option Err}
    (hy : Yields (parse demoEnv (textStream (headLines (c!"X: y") ++ [c!"msgid \"a\"", c!"msgstr \"b\""]))) hdr (results us e)) : ∀ u ∈ us, NoRemarks u :=
  C95_none (hd := (headLines (c!"X: y")).map .ok) (rs := [.ok (c!"msgid \"a\""), .ok (c!"msgstr \"b\"")]) (by rw [rawLines_text (by decide)]; rfl) (headerLines_demo _)
    (by
      intro n l m p s tl h hl
      subst hl
      have := h.unique (by simp) (items_lineItems (by simp) n)
      cases this)
    (by
      intro s hs hc
      obtain ⟨c, t, hc⟩ := comment_again hc 0
      simp only [List.mem_cons, Except.ok.injEq, List.not_mem_nil, or_false] at hs
      rcases hs with rfl | rfl
      · cases (LineItems.line hc (by simp) .nil).unique (by simp) (items_lineItems (rs := [.ok (c!"msgid \"a\"")]) (by simp) 0)
      · cases (LineItems.line hc (by simp) .nil).unique (by simp) (items_lineItems (rs := [.ok (c!"msgstr \"b\"")]) (by simp) 0))
    hy

-- `C95_insert`: no comment between an id and its translation
example {hdr : Header demoEnv.Lang} {us : List PoUnit} {e : Option Err}
    (hy : Yields (parse demoEnv (textStream (headLines (c!"X: y") ++ moreEntry))) hdr (results us e)) : e ≠ none := by
  have hl : ∀ (n : Nat) (ls : List Str), (∀ s ∈ ls, '\n' ∉ s) → LineItems n (ls.map .ok) (items n (ls.map .ok)) := fun n ls h =>
    items_lineItems (by intro s hs; simp only [List.mem_map, Except.ok.injEq, exists_eq_right] at hs; exact h s hs) n
  have := C95_insert (forms := none) (hd := (headLines (c!"X: y")).map .ok) (a := [c!"# x", c!"msgid \"a\""].map .ok) (b := [c!"msgstr \"b\""].map .ok) (s := c!"# in")
    (la := [.comment 3 ' ' (c!"x"), .message 4 [] (c!"msgid") (c!"a")]) (lb := [.message 5 [] (c!"msgstr") (c!"b")])
    (by rw [rawLines_text (by decide)]; rfl) (by rw [rawLines_text (by decide)]; rfl) (commentLine_text (by decide) rfl) (headerLines_demo _) (noContinuation_head (by decide) rfl)
    .absent less_yields hy (hl 3 [c!"# x", c!"msgid \"a\""] (by decide)) (hl 5 [c!"msgstr \"b\""] (by decide)) (.cons (.comment .fresh) (.cons (.begins (k := .id) .fresh .id) .nil))
  intro he
  cases (this.mp he).1

end Verif
