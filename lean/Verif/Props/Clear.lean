import Verif.Spec.Clear
import Verif.Props.Breaks

/-! C94: removing the previous texts. -/

namespace Verif
open Spec

/-- The second lines are the first without lines that have a bar in the marker, with other numbers. -/
inductive NoBars : List PoLine → List PoLine → Prop
  | nil : NoBars [] []
  | dropMessage {n p k s b b'} : '|' ∈ p → NoBars b b' → NoBars (.message n p k s :: b) b'
  | dropContinuation {n p s b b'} : '|' ∈ p → NoBars b b' → NoBars (.continuation n p s :: b) b'
  | comment {n n' c s b b'} : NoBars b b' → NoBars (.comment n c s :: b) (.comment n' c s :: b')
  | message {n n' p k s b b'} : '|' ∉ p → NoBars b b' → NoBars (.message n p k s :: b) (.message n' p k s :: b')
  | continuation {n n' p s b b'} : '|' ∉ p → NoBars b b' → NoBars (.continuation n p s :: b) (.continuation n' p s :: b')

/-- Keywords have a bar exactly if the marker has one. -/
def BarsAgree (b : List PoLine) : Prop := ∀ n p k s, .message n p k s ∈ b → (k.head? = some '|' ↔ '|' ∈ p)

theorem BarsAgree.left {a b : List PoLine} (h : BarsAgree (a ++ b)) : BarsAgree a := fun n p k s hm => h n p k s (List.mem_append.mpr (.inl hm))
theorem BarsAgree.right {a b : List PoLine} (h : BarsAgree (a ++ b)) : BarsAgree b := fun n p k s hm => h n p k s (List.mem_append.mpr (.inr hm))

theorem NoBars.split {a b c : List PoLine} (h : NoBars (a ++ b) c) : ∃ a' b', c = a' ++ b' ∧ NoBars a a' ∧ NoBars b b' := by
  induction a generalizing c with
  | nil => exact ⟨[], c, rfl, .nil, h⟩
  | cons x a ih =>
    cases h with
    | dropMessage hp h => obtain ⟨a', b', rfl, h1, h2⟩ := ih h; exact ⟨a', b', rfl, .dropMessage hp h1, h2⟩
    | dropContinuation hp h => obtain ⟨a', b', rfl, h1, h2⟩ := ih h; exact ⟨a', b', rfl, .dropContinuation hp h1, h2⟩
    | comment h => obtain ⟨a', b', rfl, h1, h2⟩ := ih h; exact ⟨_ :: a', b', rfl, .comment h1, h2⟩
    | message hp h => obtain ⟨a', b', rfl, h1, h2⟩ := ih h; exact ⟨_ :: a', b', rfl, .message hp h1, h2⟩
    | continuation hp h => obtain ⟨a', b', rfl, h1, h2⟩ := ih h; exact ⟨_ :: a', b', rfl, .continuation hp h1, h2⟩

theorem kept_continuations {p : Str} {cs : List (Nat × Str)} {b' : List PoLine} (h : NoBars (cs.map fun c => PoLine.continuation c.1 p c.2) b') :
    ('|' ∈ p → b' = []) ∧ ('|' ∉ p → ∃ cs' : List (Nat × Str), b' = (cs'.map fun c => PoLine.continuation c.1 p c.2) ∧ cs'.map Prod.snd = cs.map Prod.snd) := by
  induction cs generalizing b' with
  | nil => cases h; exact ⟨fun _ => rfl, fun _ => ⟨[], rfl, rfl⟩⟩
  | cons c cs ih =>
    cases h with
    | dropContinuation hp h => exact ⟨(ih h).1, fun hn => absurd hp hn⟩
    | @continuation _ n' _ _ _ _ hp h =>
      refine ⟨fun hn => absurd hn hp, fun _ => ?_⟩
      obtain ⟨cs', h1, h2⟩ := (ih h).2 hp
      exact ⟨(n', c.2) :: cs', by rw [h1]; rfl, by simp [h2]⟩

theorem kept_field {k : Str} {o : Bool} {b b' : List PoLine} {v : Str} (h : NoBars b b') (hg : BarsAgree b) (hk : k.head? ≠ some '|') (f : Field k o b v) :
    Field k o b' v := by
  obtain ⟨p, ⟨n, s, cs, rfl, rfl⟩, ho⟩ := f
  have hp : '|' ∉ p := fun hp => hk ((hg _ _ _ _ (List.mem_cons_self ..)).mpr hp)
  cases h with
  | dropMessage h => exact absurd h hp
  | @message _ n' _ _ _ _ _ _ h =>
    obtain ⟨cs', h1, h2⟩ := (kept_continuations h).2 hp
    exact ⟨p, ⟨n', s, cs', by rw [h1], by rw [h2]⟩, ho⟩

theorem kept_opt {k : Str} {o : Bool} {b b' : List PoLine} {v : Option Str} (h : NoBars b b') (hg : BarsAgree b) (hk : k.head? ≠ some '|') (f : OptField k o b v) :
    OptField k o b' v := by
  cases f with
  | none => cases h; exact .none
  | some f => exact .some (kept_field h hg hk f)

theorem gone_opt {k : Str} {o : Bool} {b b' : List PoLine} {v : Option Str} (h : NoBars b b') (hg : BarsAgree b) (hk : k.head? = some '|') (f : OptField k o b v) :
    b' = [] := by
  cases f with
  | none => cases h; rfl
  | some f =>
    obtain ⟨p, ⟨n, s, cs, rfl, rfl⟩, ho⟩ := f
    have hp : '|' ∈ p := (hg _ _ _ _ (List.mem_cons_self ..)).mp hk
    cases h with
    | dropMessage _ h => exact (kept_continuations h).1 hp
    | message h => exact absurd hp h

theorem kept_comments {cs : List (Nat × Char × Str)} {b' : List PoLine} (h : NoBars (cs.map commentLine) b') :
    ∃ cs' : List (Nat × Char × Str), b' = cs'.map commentLine ∧ cs'.map Prod.snd = cs.map Prod.snd := by
  induction cs generalizing b' with
  | nil => cases h; exact ⟨[], rfl, rfl⟩
  | cons c cs ih =>
    cases h with
    | @comment _ n' _ _ _ _ h =>
      obtain ⟨cs', rfl, h2⟩ := ih h
      exact ⟨(n', c.2) :: cs', rfl, by simp [h2]⟩

theorem kept_values {o : Bool} {hi lo : Nat} {b b' : List PoLine} {vs : List Str} (h : NoBars b b') (hg : BarsAgree b) (f : ValueFields o hi lo b vs) :
    ValueFields o hi lo b' vs := by
  induction f generalizing b' with
  | nil => cases h; exact .nil
  | cons h1 h2 f _ ih =>
    obtain ⟨b1, b2, rfl, g1, g2⟩ := h.split
    exact .cons h1 h2 (kept_field g1 hg.left (by simp [valueKeyword]) f) (ih g2 hg.right)

theorem kept_texts {forms : Option PluralForms} {o : Bool} {id : Str} {idPl : Option Str} {b b' : List PoLine} {m : Message} (h : NoBars b b') (hg : BarsAgree b)
    (f : TextFields forms o id idPl b m) : TextFields forms o id idPl b' m := by
  cases f with
  | simple f => exact .simple (kept_field h hg (by decide) f)
  | plural f hv => exact .plural (kept_values h hg f) hv

theorem kept_head {o : Bool} {b b' : List PoLine} (h : NoBars b b') (hg : BarsAgree b) (f : EntryHead o b) : EntryHead o b' := by
  obtain ⟨cs, b1, b2, b3, b4, _, _, _, _, rfl, f1, f2, f3, g3, f4⟩ := f
  obtain ⟨c0, _, rfl, k0, h⟩ := h.split
  obtain ⟨c1, _, rfl, k1, h⟩ := h.split
  obtain ⟨c2, _, rfl, k2, h⟩ := h.split
  obtain ⟨c3, c4, rfl, k3, k4⟩ := h.split
  obtain ⟨cs', rfl, _⟩ := kept_comments k0
  cases gone_opt k1 hg.right.left (by decide) f1
  cases gone_opt k2 hg.right.right.left (by decide) f2
  cases gone_opt k3 hg.right.right.right.left (by decide) f3
  exact ⟨cs', [], [], [], c4, none, none, none, _, rfl, .none, .none, .none, fun _ => rfl, kept_opt k4 hg.right.right.right.right (by decide) f4⟩

theorem kept_ids {o : Bool} {idPl : Option Str} {b b' : List PoLine} (h : NoBars b b') (hg : BarsAgree b) (f : EntryIds o idPl b) : EntryIds o idPl b' := by
  obtain ⟨b0, b5, b6, id, rfl, f0, f5, f6⟩ := f
  obtain ⟨c0, _, rfl, k0, h⟩ := h.split
  obtain ⟨c5, c6, rfl, k5, k6⟩ := h.split
  exact ⟨c0, c5, c6, id, rfl, kept_head k0 hg.left f0, kept_field k5 hg.right.left (by decide) f5, kept_opt k6 hg.right.right (by decide) f6⟩

theorem kept_entry {forms : Option PluralForms} {b b' : List PoLine} {u : PoUnit} (h : NoBars b b') (hg : BarsAgree b) (f : Entry forms b u) :
    Entry forms b' (clearPrevious u) := by
  obtain ⟨cs, b1, b2, b3, b4, b5, b6, b7, pid, ppl, id, idPl, rfl, f1, f2, f3, g3, f4, f5, f6, f7, f8, f9, f10⟩ := f
  obtain ⟨c0, _, rfl, k0, h⟩ := h.split
  obtain ⟨c1, _, rfl, k1, h⟩ := h.split
  obtain ⟨c2, _, rfl, k2, h⟩ := h.split
  obtain ⟨c3, _, rfl, k3, h⟩ := h.split
  obtain ⟨c4, _, rfl, k4, h⟩ := h.split
  obtain ⟨c5, _, rfl, k5, h⟩ := h.split
  obtain ⟨c6, c7, rfl, k6, k7⟩ := h.split
  obtain ⟨cs', rfl, hcs⟩ := kept_comments k0
  cases gone_opt k1 hg.right.left (by decide) f1
  cases gone_opt k2 hg.right.right.left (by decide) f2
  cases gone_opt k3 hg.right.right.right.left (by decide) f3
  have hg := hg.right.right.right.right
  refine ⟨cs', [], [], [], c4, c5, c6, c7, none, none, id, idPl, rfl, .none, .none, .none, fun _ => rfl, kept_opt k4 hg.left (by decide) f4,
    kept_field k5 hg.right.left (by decide) f5, kept_opt k6 hg.right.right.left (by decide) f6, kept_texts k7 hg.right.right.right f7, rfl, ?_, ?_⟩
  · rw [hcs]
    exact ⟨f9.flags, f9.locations, f9.notes, f9.comments⟩
  · exact ⟨f10.needsWork, f10.final⟩

theorem map_ok_inj {a b : List PoLine} (h : a.map (Except.ok (ε := Err)) = b.map .ok) : a = b :=
  (List.map_inj_right (fun _ _ h => by cases h; rfl)).mp h

theorem kept_run {forms : Option PluralForms} {l : List Item} {us : List PoUnit} {e : Option Err} (h : Run forms l us e) (he : e = none) {b b' : List PoLine}
    (hl : l = b.map .ok) (hg : BarsAgree b) (hk : NoBars b b') : Run forms (b'.map .ok) (us.map clearPrevious) none := by
  induction h generalizing b b' with
  | stop h =>
    subst he hl
    generalize hb : b.map Except.ok = l at h
    generalize he : (none : Option Err) = e at h
    cases h with
    | endsInHead h => cases map_ok_inj hb; exact .stop (.endsInHead (kept_head hk hg h))
    | endsAfterIds h => cases map_ok_inj hb; exact .stop (.endsAfterIds (kept_ids hk hg h))
    | _ => cases he
  | @entry block u rest us e h1 h2 h3 hr ih =>
    subst he
    obtain ⟨r, c, rfl, _⟩ := follows_run hr rfl .fresh
    rw [← List.map_append] at hl
    cases map_ok_inj hl
    obtain ⟨b1, b2, rfl, k1, k2⟩ := hk.split
    have h4 := kept_entry k1 hg.left h1
    have h5 := ih rfl rfl hg.right k2
    rw [List.map_append]
    exact .entry h4 h2 ((ends_iff h4).mpr (entryEnd_fresh (run_fresh h5 (.inr rfl)))) h5

theorem keyword_no_bar {k : Str} (h : IsKeyword k) : k.head? ≠ some '|' := by
  rcases h with rfl | rfl | rfl | rfl | ⟨ds, _, rfl⟩ <;> simp

theorem tagged_bar {m : Option Str} {k : Str} (h : IsKeyword k) : (taggedKeyword m k).head? = some '|' ↔ '|' ∈ m.getD [] := by
  unfold taggedKeyword
  split
  · simp [*]
  · simp [*, keyword_no_bar h]

/-- A line that is removed. -/
theorem line_gone {s : Str} {n : Nat} {ln : PoLine} (hn : '\n' ∉ s) (hc : Classified s n (some ln)) {m k : Option Str} {raw : Str} (hq : QuotedLine s m k raw)
    (hm : '|' ∈ m.getD []) {b b' : List PoLine} (h : NoBars b b') : NoBars (ln :: b) b' ∧ ln ≠ .blank := by
  cases k with
  | none =>
    cases classified_unique hn hc (.continuation hq)
    exact ⟨.dropContinuation hm h, by simp⟩
  | some k =>
    cases classified_unique hn hc (.keyword hq)
    exact ⟨.dropMessage hm h, by simp⟩

/-- A line that stays. -/
theorem line_kept {s : Str} {n : Nat} {ln : PoLine} (hc : Classified s n (some ln)) (hb : ln ≠ .blank) (hq : ∀ m k raw, QuotedLine s m k raw → '|' ∉ m.getD [])
    (n' : Nat) {b b' : List PoLine} (h : NoBars b b') : ∃ ln', Classified s n' (some ln') ∧ ln' ≠ .blank ∧ NoBars (ln :: b) (ln' :: b') := by
  cases hc with
  | blank => exact absurd rfl hb
  | keyword h1 => exact ⟨_, .keyword h1, by simp, .message (hq _ _ _ h1) h⟩
  | continuation h1 => exact ⟨_, .continuation h1, by simp, .continuation (hq _ _ _ h1) h⟩
  | comment h1 h2 h3 => exact ⟨_, .comment h1 h2 h3, by simp, .comment h⟩

theorem bars_lines {n : Nat} {rs : List (Except IoErr Str)} {b : List PoLine} (h : LineItems n rs (b.map .ok)) : BarsAgree b := by
  generalize hl : b.map Except.ok = l at h
  induction h generalizing b with
  | nil => cases List.map_eq_nil_iff.mp hl; intro _ _ _ _ hm; cases hm
  | failed => cases b <;> simp at hl
  | unrecognised => cases b <;> simp at hl
  | blank _ _ ih => exact ih hl
  | line hc _ _ ih =>
    cases b with
    | nil => cases hl
    | cons x b =>
      simp only [List.map_cons, List.cons.injEq, Except.ok.injEq] at hl
      obtain ⟨rfl, hl⟩ := hl
      intro n p k s hm
      rcases List.mem_cons.mp hm with rfl | hm
      · cases hc with
        | keyword h => exact tagged_bar (h.2.1 _ rfl)
      · exact ih hl n p k s hm

theorem cleared_lines {n : Nat} {rs rs' : List (Except IoErr Str)} {b : List PoLine} (hn : ∀ s, .ok s ∈ rs → '\n' ∉ s) (h : LineItems n rs (b.map .ok))
    (hc : Cleared rs rs') (n' : Nat) : ∃ b', LineItems n' rs' (b'.map .ok) ∧ NoBars b b' := by
  induction hc generalizing n n' b with
  | nil => generalize hl : b.map Except.ok = l at h; cases h; cases List.map_eq_nil_iff.mp hl; exact ⟨[], .nil, .nil⟩
  | failed => generalize hl : b.map Except.ok = l at h; cases h; cases b <;> simp at hl
  | previous hq hm _ ih =>
    have hs := hn _ (List.mem_cons_self ..)
    generalize hl : b.map Except.ok = l at h
    cases h with
    | unrecognised => cases b <;> simp at hl
    | blank hc _ => exact absurd rfl (line_gone hs hc hq hm .nil).2
    | line hc hb h =>
      cases b with
      | nil => cases hl
      | cons x b =>
        simp only [List.map_cons, List.cons.injEq, Except.ok.injEq] at hl
        obtain ⟨rfl, rfl⟩ := hl
        obtain ⟨b', h1, h2⟩ := ih (fun s hs => hn s (List.mem_cons_of_mem _ hs)) h n'
        exact ⟨b', h1, (line_gone hs hc hq hm h2).1⟩
  | other hq _ ih =>
    generalize hl : b.map Except.ok = l at h
    cases h with
    | unrecognised => cases b <;> simp at hl
    | blank hc h =>
      subst hl
      obtain ⟨b', h1, h2⟩ := ih (fun s hs => hn s (List.mem_cons_of_mem _ hs)) h (n' + 1)
      cases hc with
      | blank hw => exact ⟨b', .blank (.blank hw) h1, h2⟩
    | line hc hb h =>
      cases b with
      | nil => cases hl
      | cons x b =>
        simp only [List.map_cons, List.cons.injEq, Except.ok.injEq] at hl
        obtain ⟨rfl, rfl⟩ := hl
        obtain ⟨b', h1, h2⟩ := ih (fun s hs => hn s (List.mem_cons_of_mem _ hs)) h (n' + 1)
        obtain ⟨ln', h3, h4, h5⟩ := line_kept hc hb hq n' h2
        exact ⟨ln' :: b', .line h3 h4 h1, h5⟩

theorem cleared_run {forms : Option PluralForms} {n : Nat} {rs rs' : List (Except IoErr Str)} {us : List PoUnit} (hn : ∀ s, .ok s ∈ rs → '\n' ∉ s)
    (hn' : ∀ s, .ok s ∈ rs' → '\n' ∉ s) (h : Run forms (items n rs) us none) (hc : Cleared rs rs') (n' : Nat) :
    Run forms (items n' rs') (us.map clearPrevious) none := by
  obtain ⟨b, c, hb, _⟩ := follows_run h rfl .fresh
  have hl := items_lineItems hn n
  rw [hb] at hl h
  obtain ⟨b', h1, h2⟩ := cleared_lines hn hl hc n'
  rw [← h1.unique hn' (items_lineItems hn' n')]
  exact kept_run h rfl rfl (bars_lines hl) h2

/-- **C94** Removing the `#|` and `#~|` lines after the header from an input that is read without error gives an input that is read without error, with the same
header data and the same units without their previous contexts and messages. -/
theorem C94_headed {env : Env} {stream stream' : List Event} {hd rs rs' : List (Except IoErr Str)} {hdr : Header env.Lang} {us : List PoUnit}
    (h : rawLines (flatten stream) = hd ++ rs) (h' : rawLines (flatten stream') = hd ++ rs') (hh : HeaderLines hd) (hc : NoContinuation rs) (hr : Cleared rs rs')
    (hy : Yields (parse env stream) hdr (results us none)) :
    ∃ hdr', SameHeader hdr' hdr ∧ Yields (parse env stream') hdr' (results (us.map clearPrevious) none) := by
  have hn : ∀ s, .ok s ∈ rs → '\n' ∉ s := fun s hs => rawLines_no_nl (inp := flatten stream) (s := s) (by rw [h]; simp [hs])
  have hn' : ∀ s, .ok s ∈ rs' → '\n' ∉ s := fun s hs => rawLines_no_nl (inp := flatten stream') (s := s) (by rw [h']; simp [hs])
  obtain ⟨forms, us1, e1, hx, hrd⟩ := yields_reads hy
  obtain ⟨rfl, rfl⟩ := results_inj hx
  obtain ⟨block, u, t, e1, h1, h2, hcase⟩ := first_block h hh hc
  rcases hcase with ⟨e0, hf⟩ | ⟨h3, hf⟩
  · exact (not_rejects_reads (.first hf) hrd).elim
  · cases hrd with
    | nothing f => cases hf.unique f
    | plain f => cases hf.unique f
    | headed f r1 r2 r =>
      cases hf.unique f
      have hr' := cleared_run hn hn' r hr (1 + hd.length)
      refine reads_yields (forms := forms) (.headed (rest := items (1 + hd.length) rs') ?_ r1 r2 hr')
      have hi : streamItems stream' = block.map .ok ++ items (1 + hd.length) rs' := by
        rw [streamItems_code, h', items_append (by rw [e1]; simp), e1]
      rw [hi]
      exact .header h1 h2 ((ends_iff h1).mpr (entryEnd_fresh (run_fresh hr' (.inr rfl))))

/-- **C94** The same for an input without header. -/
theorem C94_plain {env : Env} {stream stream' : List Event} {hdr : Header env.Lang} {us : List PoUnit}
    (hf : ∀ ns cs t rest, ¬ First (streamItems stream) (.header ns cs t rest)) (hr : Cleared (rawLines (flatten stream)) (rawLines (flatten stream')))
    (hy : Yields (parse env stream) hdr (results us none)) :
    ∃ hdr', SameHeader hdr' hdr ∧ Yields (parse env stream') hdr' (results (us.map clearPrevious) none) := by
  have hn : ∀ s, .ok s ∈ rawLines (flatten stream) → '\n' ∉ s := fun s hs => rawLines_no_nl hs
  have hn' : ∀ s, .ok s ∈ rawLines (flatten stream') → '\n' ∉ s := fun s hs => rawLines_no_nl hs
  obtain ⟨forms, us1, e1, hx, hrd⟩ := yields_reads hy
  obtain ⟨rfl, rfl⟩ := results_inj hx
  rw [streamItems_code] at hrd hf
  obtain ⟨b, c, hb, hbr⟩ : ∃ (b : List PoLine) (us' : List PoUnit), items 1 (rawLines (flatten stream)) = b.map .ok ∧ Run none (b.map .ok) us' none := by
    have : ∃ us', Run none (items 1 (rawLines (flatten stream))) us' none := by
      cases hrd with
      | nothing f => exact ⟨[], .stop (first_nothing f)⟩
      | plain f hrun =>
        obtain ⟨block, hl, hb, hsrc, hend⟩ := first_unit f
        rw [hl]
        exact ⟨_, .entry hb hsrc hend hrun⟩
      | headed f => exact (hf _ _ _ _ f).elim
    obtain ⟨us', hr⟩ := this
    obtain ⟨b, c, hb, _⟩ := follows_run hr rfl .fresh
    exact ⟨b, us', hb, hb ▸ hr⟩
  have hl := items_lineItems hn 1
  rw [hb] at hl
  have hg := bars_lines hl
  obtain ⟨b', h1, hk⟩ := cleared_lines hn hl hr 1
  have hb' : streamItems stream' = b'.map .ok := by rw [streamItems_code, ← h1.unique hn' (items_lineItems hn' 1)]
  rw [hb] at hrd
  cases hrd with
  | headed f => rw [hb] at hf; exact (hf _ _ _ _ f).elim
  | nothing f =>
    refine reads_yields (forms := none) (.nothing ?_)
    rw [hb']
    generalize hx : b.map Except.ok = l at f
    generalize hy : FirstOut.nothing = y at f
    cases f with
    | comments h =>
      cases map_ok_inj hx
      obtain ⟨ds, rfl⟩ := all_comments h
      obtain ⟨cs', rfl, _⟩ := kept_comments hk
      refine .comments ?_
      intro ln hln
      obtain ⟨d, _, rfl⟩ := List.mem_map.mp hln
      exact ⟨d, rfl⟩
    | cut h => cases map_ok_inj hx; exact .cut (kept_ids hk hg h)
    | _ => cases hy
  | plain f hrun =>
    obtain ⟨block, hl, he, hsrc, hend⟩ := first_unit f
    obtain ⟨r, c, rfl, _⟩ := follows_run hrun rfl .fresh
    rw [← List.map_append] at hl
    cases map_ok_inj hl
    obtain ⟨b1, b2, rfl, k1, k2⟩ := hk.split
    have h4 := kept_entry k1 hg.left he
    have h5 := kept_run hrun rfl rfl hg.right k2
    refine reads_yields (forms := none) (.plain (rest := b2.map .ok) ?_ h5)
    rw [hb', List.map_append]
    exact .unit h4 hsrc ((ends_iff h4).mpr (entryEnd_fresh (run_fresh h5 (.inr rfl))))

/-- Whether the text of a line is removed. -/
def barredText (s : Str) : Bool :=
  match items 1 [.ok s] with
  | [.ok (.message _ p _ _)] => p.contains '|'
  | [.ok (.continuation _ p _)] => p.contains '|'
  | _ => false

theorem barred_iff {s : Str} (hn : '\n' ∉ s) : barredText s = true ↔ ∃ m k raw, QuotedLine s m k raw ∧ '|' ∈ m.getD [] := by
  have hn' : ∀ x, (Except.ok x : Except IoErr Str) ∈ [.ok s] → '\n' ∉ x := by intro x hx; simp at hx; exact hx ▸ hn
  have hl := items_lineItems hn' 1
  constructor
  · intro h
    unfold barredText at h
    split at h
    next heq =>
      rw [heq] at hl
      cases hl with
      | line hc _ _ => cases hc with | keyword hq => exact ⟨_, _, _, hq, by simpa using h⟩
      | blank _ h => cases h
    next heq =>
      rw [heq] at hl
      cases hl with
      | line hc _ _ => cases hc with | continuation hq => exact ⟨_, _, _, hq, by simpa using h⟩
      | blank _ h => cases h
    next => cases h
  · rintro ⟨m, k, raw, hq, hm⟩
    unfold barredText
    cases k with
    | none => rw [hl.unique hn' (.line (.continuation hq) (by simp) .nil)]; simpa using hm
    | some k => rw [hl.unique hn' (.line (.keyword hq) (by simp) .nil)]; simpa using hm

/-- The texts that stay. -/
theorem cleared_texts {ls : List Str} (hn : ∀ s ∈ ls, '\n' ∉ s) : Cleared (ls.map .ok) ((ls.filter fun s => !barredText s).map .ok) := by
  induction ls with
  | nil => exact .nil
  | cons s ls ih =>
    have h := ih fun x hx => hn x (List.mem_cons_of_mem _ hx)
    have hb := barred_iff (hn s (List.mem_cons_self ..))
    cases hx : barredText s with
    | true =>
      obtain ⟨m, k, raw, hq, hm⟩ := hb.mp hx
      simpa [hx] using Cleared.previous hq hm h
    | false =>
      simpa [hx] using Cleared.other (fun m k raw hq hm => by rw [hb.mpr ⟨m, k, raw, hq, hm⟩] at hx; cases hx) h

/-- **C94** Every list of lines can be cleared, in one way. -/
theorem C94_determined (rs : List (Except IoErr Str)) : ∃ rs', Cleared rs rs' ∧ ∀ rs'', Cleared rs rs'' → rs'' = rs' := by
  induction rs with
  | nil => exact ⟨[], .nil, by rintro _ ⟨⟩; rfl⟩
  | cons r rs ih =>
    obtain ⟨rs', h1, h2⟩ := ih
    cases r with
    | error e => exact ⟨_, .failed h1, by rintro _ (_ | _ | _ | h); rw [h2 _ h]⟩
    | ok s =>
      by_cases hq : ∃ m k raw, QuotedLine s m k raw ∧ '|' ∈ m.getD []
      · obtain ⟨m, k, raw, hq, hm⟩ := hq
        refine ⟨_, .previous hq hm h1, fun _ h => ?_⟩
        cases h with
        | previous _ _ h => exact h2 _ h
        | other ho _ => exact absurd hm (ho _ _ _ hq)
      · have hq' : ∀ m k raw, QuotedLine s m k raw → '|' ∉ m.getD [] := fun m k raw h hm => hq ⟨m, k, raw, h, hm⟩
        refine ⟨_, .other hq' h1, fun _ h => ?_⟩
        cases h with
        | previous h hm _ => exact absurd hm (hq' _ _ _ h)
        | other _ h => rw [h2 _ h]

/-- A unit with previous texts, before and after. -/
def prevEntry : List Str := [c!"# x", c!"#| msgctxt \"k\"", c!"#| msgid \"o\"", c!"#| \"p\"", c!"msgid \"a\"", c!"msgstr \"b\""]

def clearedEntry : List Str := [c!"# x", c!"msgid \"a\"", c!"msgstr \"b\""]

theorem prev_cleared : Cleared (prevEntry.map .ok) (clearedEntry.map .ok) := cleared_texts (ls := prevEntry) (by decide)

def prevUnit : PoUnit where
  context := none
  message := .simple (c!"a") (some (c!"b"))
  prevContext := some (c!"k")
  prevMessage := .simple (c!"op") none
  flags := []
  notes := [⟨.translator, c!"x"⟩]
  locations := []
  comments := []
  state := .final
  obsolete := false

theorem prev_yields : Yields (parse demoEnv (textStream (headLines (c!"X: y") ++ prevEntry))) ⟨[], [], [(c!"X", c!"y")], []⟩ (results [prevUnit] none) :=
  yields_text (env := demoEnv) (res := ⟨⟨[], [], [(c!"X", c!"y")], []⟩, none, [prevUnit], none⟩) (by decide) (by rfl)

-- `C94_headed`
example : ∃ hdr, SameHeader hdr ⟨[], [], [(c!"X", c!"y")], []⟩ ∧ Yields (parse demoEnv (textStream (headLines (c!"X: y") ++ clearedEntry))) hdr
    (results [{ prevUnit with prevContext := none, prevMessage := .simple [] none }] none) :=
  C94_headed (hd := (headLines (c!"X: y")).map .ok) (rs' := clearedEntry.map .ok) (by rw [rawLines_text (by decide)]; rfl)
    (by rw [rawLines_text (by decide)]; rfl)
    (headerLines_demo _) (noContinuation_head (by decide) rfl) prev_cleared prev_yields

-- `C94_plain`
example : ∃ hdr, SameHeader hdr (noHeader demoEnv) ∧ Yields (parse demoEnv (textStream clearedEntry)) hdr
    (results [{ prevUnit with prevContext := none, prevMessage := .simple [] none }] none) :=
  C94_plain (stream := textStream prevEntry) (by
      intro ns cs t rest hf
      rw [streamItems_code, rawLines_text (by decide), first_iff (items_noBlank _ _)] at hf
      cases hf)
    (by rw [rawLines_text (by decide), rawLines_text (by decide)]; exact prev_cleared)
    (yields_text (env := demoEnv) (res := ⟨noHeader demoEnv, none, [prevUnit], none⟩) (by decide) (by rfl))

-- `C94_determined`
example {rs : List (Except IoErr Str)} (h : Cleared (prevEntry.map .ok) rs) : rs = clearedEntry.map .ok := by
  obtain ⟨_, _, hu⟩ := C94_determined (prevEntry.map .ok)
  rw [hu _ h, hu _ prev_cleared]

end Verif
