import Verif.Lemmas.Lazy
import Verif.Lemmas.Progress
import Verif.Props.Layout

/-! C58: the reader reads no further than one line after the entry that comes next. -/

namespace Verif
open Spec

theorem after_nonempty {forms : Option PluralForms} {l l' : List Item} {us : List PoUnit} (h : After forms l us l') (hl : l' ≠ []) : l ≠ [] := by
  induction h with
  | refl => exact hl
  | entry _ _ _ _ ih =>
    intro h0
    rw [List.append_eq_nil_iff] at h0
    exact ih hl h0.2

theorem after_length {forms : Option PluralForms} {l l' : List Item} {us : List PoUnit} (h : After forms l us l') : l'.length ≤ l.length := by
  induction h with
  | refl => exact Nat.le_refl _
  | entry _ _ _ _ ih => rw [List.length_append]; omega

theorem ends_more {forms : Option PluralForms} {block : List PoLine} {a c : List Item} (h : EndsHere forms block a) (ha : a ≠ []) :
    EndsHere forms block (a ++ c) := by
  cases a with
  | nil => exact absurd rfl ha
  | cons z a => exact ends_prefix h

theorem after_more {forms : Option PluralForms} {l l' : List Item} {us : List PoUnit} (h : After forms l us l') (hl : l' ≠ []) (c : List Item) :
    After forms (l ++ c) us (l' ++ c) := by
  induction h with
  | refl => exact .refl
  | entry h1 h2 h3 h4 ih =>
    rw [List.append_assoc]
    exact .entry h1 h2 (ends_more h3 (after_nonempty h4 hl)) (ih hl)

theorem progress_more {env : Env} {l l' : List Item} {hdr : Header env.Lang} {forms : Option PluralForms} {us : List PoUnit}
    (h : Progress env l false hdr forms us l') (hl : l' ≠ []) (c : List Item) : Progress env (l ++ c) false hdr forms us (l' ++ c) := by
  cases h with
  | plain f a =>
    obtain ⟨block, rfl, h2, h3, h4⟩ := first_unit f
    rw [List.append_assoc]
    exact .plain (.unit h2 h3 (ends_more h4 (after_nonempty a hl))) (after_more a hl c)
  | headed f r1 r2 a =>
    have hne := after_nonempty a hl
    refine .headed (rest := _ ++ c) ?_ r1 r2 (after_more a hl c)
    cases f with
    | header h1 h2 h3 => rw [List.append_assoc]; exact .header h1 h2 (ends_more h3 hne)
    | noId h1 h2 h3 =>
      rw [List.append_assoc]
      refine .noId h1 (.inl (by simp [hne])) ?_
      rcases h3 with h3 | ⟨ln, tl, rfl, hp⟩
      · exact absurd h3 hne
      · exact .inr ⟨ln, tl ++ c, rfl, hp⟩

/-- The units that a reader on a list will give before `l'` is reached. -/
def Ahead {L : Type} (r : Reader (List Item) L) (us : List PoUnit) (l' : List Item) : Prop :=
  ∃ u us', us = u :: us' ∧ r.nextUnit = some (.ok u) ∧ After r.pluralForms r.lines us' l'

theorem after_entry {forms : Option PluralForms} {l l' : List Item} {u : PoUnit} {us : List PoUnit} (h : After forms l (u :: us) l') :
    ∃ rest, entry forms false l = (.ok (some u), rest) ∧ After forms rest us l' := by
  cases h with
  | entry h1 h2 h3 h4 => exact ⟨_, entry_complete h1 ((ends_iff h1).mp h3) (fun _ => (hasSource_iff _).mpr h2), h4⟩

theorem ahead_calls {L : Type} {l' : List Item} (k : Nat) : ∀ {r : Reader (List Item) L} {us : List PoUnit}, Ahead r us l' → k < us.length →
    ∃ r', Calls r ((us.take k).map (some ∘ .ok)) r' ∧ Ahead r' (us.drop k) l' := by
  induction k with
  | zero => intro r us h _; exact ⟨r, .nil, h⟩
  | succ k ih =>
    intro r us h hk
    obtain ⟨u, us', rfl, h1, h2⟩ := h
    cases us' with
    | nil => simp at hk
    | cons v us' =>
      obtain ⟨rest, h3, h4⟩ := after_entry h2
      have hn : r.next = (.ok (some (.ok u)), { r with lines := rest, nextUnit := some (.ok v) }) := by
        unfold Reader.next
        rw [h1]
        simp only [nextUnitM_list, h3, h1]
        rfl
      obtain ⟨r', i1, i2⟩ := ih (r := { r with lines := rest, nextUnit := some (.ok v) }) (us := v :: us') ⟨v, us', rfl, rfl, h4⟩ (by simpa using hk)
      exact ⟨r', .cons hn i1, i2⟩

theorem progress_new {env : Env} {l l' : List Item} {hdr : Header env.Lang} {forms : Option PluralForms} {us : List PoUnit} (hb : NoBlank l)
    (h : Progress env l false hdr forms us l') :
    ∃ r, Reader.new env l = .ok r ∧ SameHeader (headerOf r) hdr ∧ (us ≠ [] → Ahead r us l') := by
  unfold Reader.new
  simp only [nextUnitM_list]
  cases h with
  | plain f a =>
    have hf := (first_iff hb).mp f
    rcases he : entry none true l with ⟨(_ | u') | e | _, rest⟩ <;> rw [he] at hf <;> simp only [firstOut] at hf
    · cases hf
    · split at hf
      · cases hf
      · rename_i hem
        cases hf
        simp only [entryRes, Bool.not_eq_true] at hem ⊢
        rw [if_neg (by simp [hem])]
        exact ⟨_, rfl, ⟨rfl, rfl, fun _ => rfl, rfl⟩, fun _ => ⟨_, _, rfl, rfl, a⟩⟩
    · cases hf
    · cases hf
  | headed f r1 r2 a =>
    have hf := (first_iff hb).mp f
    rcases he : entry none true l with ⟨(_ | u') | e | _, rest⟩ <;> rw [he] at hf <;> simp only [firstOut] at hf
    · cases hf
    · split at hf
      · rename_i hem
        injection hf with e1 e2 e3 e4
        subst e1 e2 e3 e4
        have hs := headerRule_unique (headerRule_text env u'.notes u'.comments u'.message.getText) r1
        have hd := headerData_eq env u'
        rw [show (textProps u'.message.getText).lookup (c!"Plural-Forms") = hdr.properties.lookup (c!"Plural-Forms") from hs.properties _,
          (formsRule_iff _ _ _).mp r2] at hd
        have hp : ∃ q : Reader (List Item) env.Lang,
            parsePoHeader env ⟨rest, some (.ok u'), [], [], [], env.langInvariant, none⟩ = (.ok (), q) ∧ q.lines = rest ∧ q.pluralForms = forms ∧
            headerOf q = textHeader env u'.notes u'.comments u'.message.getText := by
          unfold headerData at hd
          unfold parsePoHeader
          simp only [List.nil_append] at hd ⊢
          generalize List.lookup (c!"Plural-Forms") (List.foldl (fun m kv => insertKV m kv.1 kv.2) [] (headerProps u'.message.getText)) = p at hd
          cases p with
          | none =>
            simp only [Except.map, Except.ok.injEq, Prod.mk.injEq] at hd
            exact ⟨_, rfl, rfl, hd.2, hd.1⟩
          | some s =>
            simp only at hd ⊢
            split at hd
            · rename_i hse
              simp only [hse, if_true]
              simp only [Except.map, Except.ok.injEq, Prod.mk.injEq] at hd
              exact ⟨_, rfl, rfl, hd.2, hd.1⟩
            · rename_i hse
              rw [if_neg hse]
              cases hpp : PluralForms.parse env s with
              | error e => rw [hpp] at hd; simp [Except.map] at hd
              | ok g =>
                rw [hpp] at hd
                simp only [Except.map, Except.ok.injEq, Prod.mk.injEq] at hd
                exact ⟨_, rfl, rfl, hd.2, hd.1⟩
        obtain ⟨q, q1, q2, q3, q4⟩ := hp
        simp only [entryRes]
        rw [if_pos hem, q1]
        simp only [q2, q3]
        refine ⟨_, rfl, ?_, ?_⟩
        · exact (show headerOf q = _ from q4) ▸ hs
        · intro hu
          cases us with
          | nil => exact absurd rfl hu
          | cons u us =>
            obtain ⟨rest', h3, h4⟩ := after_entry a
            simp only [h3]
            exact ⟨u, us, rfl, rfl, h4⟩
      · cases hf
    · cases hf
    · cases hf

theorem calls_rel {σ τ L : Type} [Src σ] [Src τ] {R : σ → τ → Prop}
    (hU : ∀ (L : Type) (first : Bool), Sim (ReaderRel (L := L) R) (readUnit first) (readUnit first)) {xs : List (Option (Except Err PoUnit))}
    {r : Reader σ L} {q q' : Reader τ L} (h : Calls q xs q') (hr : ReaderRel R r q) : ∃ r', Calls r xs r' ∧ ReaderRel R r' q' := by
  induction h generalizing r with
  | nil => exact ⟨r, .nil, hr⟩
  | @cons q x q1 xs q2 h1 h2 ih =>
    obtain ⟨g1, g2⟩ := sim_next hU r q hr
    rw [h1] at g1 g2
    obtain ⟨r', i1, i2⟩ := ih g2
    exact ⟨r', .cons (r' := r.next.2) (Prod.ext g1 rfl) i1, i2⟩

theorem flatten_more (pre post : List Event) : (∃ more f, flatten (pre ++ post) = ((flatten pre).1 ++ more, f)) := by
  induction pre with
  | nil => exact ⟨_, _, rfl⟩
  | cons e pre ih =>
    obtain ⟨more, f, ih⟩ := ih
    cases e with
    | interrupted => exact ⟨more, f, ih⟩
    | fail c => exact ⟨[], _, rfl⟩
    | data b bs => exact ⟨more, f, by simp [flatten, ih]⟩

theorem complete_more (pre post : List Event) : ∃ c, streamItems (pre ++ post) = items 1 (completeLines pre) ++ c := by
  obtain ⟨more, f, hf⟩ := flatten_more pre post
  obtain ⟨ls, h⟩ := byteLines_append (flatten pre).1 more
  have hy : ∃ ys, rawLines (flatten (pre ++ post)) = completeLines pre ++ ys := by
    rw [hf]
    unfold rawLines completeLines
    simp only
    rw [h, List.map_append, List.append_assoc]
    exact ⟨_, rfl⟩
  obtain ⟨ys, hy⟩ := hy
  rw [streamItems_code, hy]
  by_cases hne : ∃ e, .error e ∈ items 1 (completeLines pre)
  · obtain ⟨e, he⟩ := hne
    exact ⟨[], by rw [items_error he, List.append_nil]⟩
  · exact ⟨_, items_append fun e he => hne ⟨e, he⟩⟩

variable {env : Env}

/-- **C58** Let the complete lines in the beginning `pre` of a stream be the header, if any, the entries of the units `us`, and at least one more line.
Then `parse()` succeeds with these header data, and when fewer than `us.length` units have been asked for, nothing beyond `pre` has been read from the
stream, whatever `post` is (also if it fails); and if all lines of `pre` can be read, the stream has not been given up. -/
theorem C58_lazy {pre post : List Event} {b l' : List Item} {hdr : Header env.Lang} {forms : Option PluralForms} {us : List PoUnit}
    (hb : LineItems 1 (completeLines pre) b) (h : Progress env b false hdr forms us l') (hl : l' ≠ []) :
    ∃ r, parse env (pre ++ post) = .ok r ∧ SameHeader (headerOf r) hdr ∧
      ∀ k, k < us.length → ∃ r', Calls r ((us.take k).map (some ∘ .ok)) r' ∧ (∀ es, unread r' = some es → post <:+ es) ∧
        ((∀ e, .error e ∉ b) → unread r' ≠ none) := by
  have hn : ∀ s, .ok s ∈ completeLines pre → '\n' ∉ s := by
    intro s hs
    refine rawLines_no_nl (inp := ((flatten pre).1, none)) ?_
    unfold rawLines
    exact List.mem_append_left _ hs
  have hb := hb.unique hn (items_lineItems hn 1)
  subst hb
  obtain ⟨c, hc⟩ := complete_more pre post
  have hp := progress_more h hl c
  rw [← hc] at hp
  obtain ⟨q, q1, q2, q3⟩ := progress_new (by rw [streamItems_code]; exact items_noBlank _ _) hp
  have hU := fun (L : Type) (first : Bool) => sim_readUnit (L := L) (first := first) (lazy_srcRel post (items 1 (completeLines pre)) c.length)
  have h0 : LazyRel post (items 1 (completeLines pre)) c.length (⟨.new (pre ++ post) [], none⟩ : Peekable) (streamItems (pre ++ post)) := by
    constructor
    · show (LineIter.new (pre ++ post) []).polls = _
      rw [LineIter.new_polls, rawPolls, pollItems_some, streamItems_code]
    · intro _
      refine ⟨?_, by intro h; cases h⟩
      intro st hst
      cases hst
      refine ⟨pre, rfl, ?_, List.suffix_refl _⟩
      rw [hc, List.length_append]
      show _ ≤ c.length + (0 + (items 1 (completeLines pre)).length)
      omega
  have hnew := sim_new hU env _ _ h0
  rw [q1] at hnew
  generalize hr : Reader.new env (⟨.new (pre ++ post) [], none⟩ : Peekable) = x at hnew
  cases hnew with
  | @ok r _ hrel =>
    refine ⟨r, hr, by rw [headerOf_rel hrel]; exact q2, ?_⟩
    intro k hk
    obtain ⟨q', i1, u, us', i2, i3, i4⟩ := ahead_calls k (q3 (by rintro rfl; simp at hk)) hk
    obtain ⟨r', j1, j2⟩ := calls_rel hU i1 hrel
    have hlen := after_length i4
    rw [List.length_append] at hlen
    have := List.length_pos_iff.mpr hl
    obtain ⟨j3, j4⟩ := j2.lines.2 (by omega)
    refine ⟨r', j1, ?_, ?_⟩
    · intro es hes
      unfold unread at hes
      cases hi : r'.lines.iter.inner with
      | none => rw [hi] at hes; cases hes
      | some st =>
        rw [hi] at hes
        cases hes
        obtain ⟨es, he, _⟩ := j3 st hi
        exact ⟨es, he.symm⟩
    · intro hne hn
      obtain ⟨e, he⟩ := j4 (by simpa [unread] using hn)
      exact hne e he

/-! ### Concrete case -/

theorem byteLines_nl (a : List UInt8) : (byteLines (a ++ [10])).2 = [] := by
  induction a with
  | nil => rfl
  | cons c a ih =>
    rw [List.cons_append, byteLines]
    by_cases hc : c = 10
    · simp [hc, ih]
    · rw [if_neg hc]
      cases h : (byteLines (a ++ [10])).1 with
      | cons l ls => simp [ih]
      | nil =>
        exfalso
        have : (10 : UInt8) ∈ (a ++ [10]) := by simp
        clear ih hc
        induction a with
        | nil => simp [byteLines] at h
        | cons d a ih =>
          rw [List.cons_append, byteLines] at h
          by_cases hd : d = 10
          · simp [hd] at h
          · rw [if_neg hd] at h
            cases h' : (byteLines (a ++ [10])).1 with
            | nil => exact ih h' (by simp)
            | cons l ls => rw [h'] at h; simp at h

theorem completeLines_text {ls : List Str} (h : ∀ l ∈ ls, CleanLine l) : completeLines (textStream ls) = ls.map .ok := by
  have hr := rawLines_text h
  rw [textStream_flatten] at hr
  unfold completeLines
  rw [textStream_flatten]
  unfold rawLines at hr
  simp only at hr
  have : (byteLines (utf8 (ls.flatMap fun l => l ++ ['\n']))).2 = [] := by
    rcases List.eq_nil_or_concat ls with rfl | ⟨as, a, rfl⟩
    · rfl
    · rw [List.concat_eq_append, List.flatMap_append, utf8_append]
      simp only [List.flatMap_cons, List.flatMap_nil, List.append_nil]
      rw [utf8_append, ← List.append_assoc]
      exact byteLines_nl _
  rw [this] at hr
  simpa using hr

theorem rawLines_text_fail {ls : List Str} (h : ∀ l ∈ ls, CleanLine l) (c : Nat) :
    rawLines (flatten (textStream ls ++ [.fail c])) = ls.map .ok ++ [.error (.os c)] := by
  have hf : flatten (textStream ls ++ [.fail c]) = (utf8 (ls.flatMap fun l => l ++ ['\n']), some c) := by
    unfold textStream
    split
    · rename_i h; rw [h]; rfl
    · rename_i h; rw [h]; simp [flatten]
  have := completeLines_text h
  unfold completeLines at this
  rw [textStream_flatten] at this
  rw [hf, rawLines, this]

/-- Two entries and the first line of a third. -/
def lazyLines : List Str := [c!"msgid \"a\"", c!"msgstr \"b\"", c!"msgid \"c\"", c!"msgstr \"d\"", c!"msgid \"e\""]

-- whatever comes after these lines is not read by `parse()` and the first call of `next()`
example (post : List Event) : ∃ r, parse demoEnv (textStream lazyLines ++ post) = .ok r ∧ SameHeader (headerOf r) (plainHeader demoEnv) ∧
    ∀ k, k < 2 → ∃ r', Calls r (([unitAB (c!"a") (c!"b"), unitAB (c!"c") (c!"d")].take k).map (some ∘ .ok)) r' ∧
      (∀ es, unread r' = some es → post <:+ es) ∧ unread r' ≠ none := by
  have e1 := entry_plain none 1 2 (c!"a") (c!"b")
  have e2 := entry_plain none 3 4 (c!"c") (c!"d")
  have hn : ∀ s, .ok s ∈ completeLines (textStream lazyLines) → '\n' ∉ s := by
    rw [completeLines_text (by decide)]
    intro s hs
    obtain ⟨t, ht, he⟩ := List.mem_map.mp hs
    cases he
    clear hs
    revert s
    decide
  have hb := items_lineItems hn 1
  rw [show items 1 (completeLines (textStream lazyLines)) = [.message 1 [] (c!"msgid") (c!"a"), .message 2 [] (c!"msgstr") (c!"b")].map .ok ++
    ([.message 3 [] (c!"msgid") (c!"c"), .message 4 [] (c!"msgstr") (c!"d")].map .ok ++ [.ok (.message 5 [] (c!"msgid") (c!"e"))]) by
      rw [completeLines_text (by decide)]; rfl] at hb
  obtain ⟨r, h1, h2, h3⟩ := C58_lazy (env := demoEnv) (post := post) (l' := [.ok (.message 5 [] (c!"msgid") (c!"e"))])
    (us := [unitAB (c!"a") (c!"b"), unitAB (c!"c") (c!"d")]) hb
    (.plain (.unit e1 (by decide : c!"a" ≠ []) ((ends_iff e1).mpr (entryEnd_fresh (.inr ⟨_, _, rfl, .inr ⟨_, _, _, _, rfl, not_valueKeyword (by decide)⟩⟩))))
      (.entry e2 (by decide : c!"c" ≠ []) ((ends_iff e2).mpr (entryEnd_fresh (.inr ⟨_, _, rfl, .inr ⟨_, _, _, _, rfl, not_valueKeyword (by decide)⟩⟩))) .refl))
    (by simp)
  refine ⟨r, h1, h2, ?_⟩
  intro k hk
  obtain ⟨r', i1, i2, i3⟩ := h3 k hk
  exact ⟨r', i1, i2, i3 (by simp)⟩

-- without the line after the entry, `parse()` does read what follows
example : Fails (parse demoEnv (textStream [c!"msgid \"a\"", c!"msgstr \"b\""] ++ [.fail 5])) (.io 3 (.os 5)) := by
  have := parse_stream demoEnv (textStream [c!"msgid \"a\"", c!"msgstr \"b\""] ++ [.fail 5])
  have hi : streamItems (textStream [c!"msgid \"a\"", c!"msgstr \"b\""] ++ [.fail 5]) =
      items 1 [.ok (c!"msgid \"a\""), .ok (c!"msgstr \"b\""), .error (.os 5)] := by
    rw [streamItems_code, rawLines_text_fail (by decide)]
    rfl
  rw [hi, show readAll demoEnv (items 1 [.ok (c!"msgid \"a\""), .ok (c!"msgstr \"b\""), .error (.os 5)]) = .error (.io 3 (.os 5)) by rfl] at this
  exact this

end Verif
