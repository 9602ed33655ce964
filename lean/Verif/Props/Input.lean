import Verif.Lemmas.Texts
import Verif.Lemmas.EntryComplete

/-! C01, C02, C03, C04, C43: totality of reading, termination, line terminators, chunking. -/

namespace Verif
open Spec

/-- **C01** No input makes `parse()` or any number of calls of `next()` panic. -/
theorem C01_no_panic (env : Env) (stream : List Event) (k : Nat) : observe k (parse env stream) ≠ .panic := by
  have h := parse_stream env stream
  cases hr : readAll env (streamItems stream) with
  | error e =>
    rw [hr] at h
    rw [show parse env stream = .err e from h]
    simp [observe, Out.bind]
  | ok res =>
    rw [hr] at h
    rw [h k]
    simp

/-- **C02** `parse()` either returns an error, or a reader that yields finitely many units, then at most one error, then `None` for
ever, however often `next()` is called. -/
theorem C02_fused (env : Env) (stream : List Event) :
    (∃ e, Fails (parse env stream) e) ∨ ∃ hdr us err, Yields (parse env stream) hdr (results us err) := by
  have h := parse_stream env stream
  cases hr : readAll env (streamItems stream) with
  | error e => rw [hr] at h; exact .inl ⟨e, h⟩
  | ok res => rw [hr] at h; exact .inr ⟨_, _, _, h⟩

/-- `next()` after `None` or after an error gives `None` (the same fact, call by call). -/
theorem C02_after_end {env : Env} {stream : List Event} {hdr : Header env.Lang} {calls : List (Header env.Lang × Option (Except Err PoUnit))} {k : Nat}
    (h : observe k (parse env stream) = .ok (hdr, calls)) {i j : Nat} (hij : i < j) (hj : j < k)
    (hi : (calls[i]?.map Prod.snd) = some none ∨ ∃ e, (calls[i]?.map Prod.snd) = some (some (.error e))) :
    (calls[j]?.map Prod.snd) = some none := by
  rcases C02_fused env stream with ⟨e, he⟩ | ⟨hdr', us, err, hy⟩
  · rw [show parse env stream = .err e from he] at h
    simp [observe, Out.bind] at h
  · rw [hy k] at h
    simp only [Out.ok.injEq, Prod.mk.injEq] at h
    obtain ⟨rfl, rfl⟩ := h
    have hik : i < k := by omega
    simp only [List.getElem?_map, List.getElem?_range hik, List.getElem?_range hj, Option.map_some, Option.some.injEq] at hi ⊢
    have hlen : us.length ≤ i := by
      by_cases hl : i < us.length
      · simp only [results] at hi
        rw [List.getElem?_append_left (by simpa using hl)] at hi
        simp [hl] at hi
      · omega
    simp only [results]
    rw [List.getElem?_append_right (by simpa using by omega)]
    cases err with
    | none => simp
    | some e => simp; omega

theorem drain_length (forms : Option PluralForms) (k : Nat) (l : List Item) :
    (drainF forms k l).1.length + (drainF forms k l).2.toList.length ≤ l.length := by
  induction k generalizing l with
  | zero => simp [drainF]
  | succ k ih =>
    rw [drainF]
    split
    · rename_i u l' he
      have h1 := consumes_entry forms l u l' he
      have h2 := ih l'
      simp only [List.length_cons]; omega
    · rename_i e l' he
      cases l with
      | nil => simp [entry, parseComments_list, takeComments, afterField] at he
      | cons x l => simp
    · simp

/-- **C03** The reader yields at most as many results (units and error together) as the input has lines. -/
theorem C03_bounded {env : Env} {stream : List Event} {hdr : Header env.Lang} {xs : List (Except Err PoUnit)}
    (h : Yields (parse env stream) hdr xs) : xs.length ≤ (rawLines (flatten stream)).length := by
  have h' := parse_stream env stream
  cases hr : readAll env (streamItems stream) with
  | error e =>
    rw [hr] at h'
    have := h 0
    rw [show parse env stream = .err e from h'] at this
    simp [observe, Out.bind] at this
  | ok res =>
    rw [hr] at h'
    obtain ⟨rfl, rfl⟩ := h.unique h'
    have hi := items_length 1 (rawLines (flatten stream))
    have hd := fun f l => drain_length f (l.length + 1) l
    unfold readAll at hr
    unfold results
    simp only [List.length_append, List.length_map]
    refine Nat.le_trans ?_ hi
    rw [← streamItems_code]
    split at hr
    · rename_i u rest he
      have hle := (good_entry none true).le he
      split at hr
      · split at hr
        · cases hr
        · rename_i forms _
          cases hr
          have := hd forms rest
          simp only [drain] at *; omega
      · rename_i hne
        cases hr
        have := hd none rest
        have hlt : rest.length < (streamItems stream).length := by
          obtain ⟨block, hb, h | h⟩ := entry_sound he
          · have := List.length_pos_iff.mpr h.1.ne_nil
            rw [hb, List.length_append, List.length_map]; omega
          · obtain ⟨_, ⟨cs, b1, b2, b3, b4, b6, prevId, prevPl, idPl, _, _, _, _, _, _, _, _, hm, _⟩, _⟩ := h
            rw [hm] at hne
            exact absurd rfl hne
        simp only [drain, List.length_cons] at *; omega
    · cases hr
    · cases hr; simp

/-- **C43** What a user sees depends only on the bytes delivered and the final failure, not on the chunks and interruptions. -/
theorem C43_chunking (env : Env) {stream stream' : List Event} (h : flatten stream = flatten stream') (k : Nat) :
    observe k (parse env stream) = observe k (parse env stream') := by
  rw [observe_parse, observe_parse, streamItems, streamItems, h]

/-- Chunks may be cut, interrupted and joined anywhere: two streams of data and interruptions with the same bytes and the same last
event flatten to the same input. -/
theorem C43_flatten (es fs : List Event) (tail : List Event) (h : ∀ e ∈ es ++ fs, ∀ c, e ≠ .fail c)
    (hb : (flatten es).1 = (flatten fs).1) : flatten (es ++ tail) = flatten (fs ++ tail) := by
  have key : ∀ es : List Event, (∀ e ∈ es, ∀ c, e ≠ .fail c) →
      flatten (es ++ tail) = ((flatten es).1 ++ (flatten tail).1, (flatten tail).2) := by
    intro es
    induction es with
    | nil => intro _; simp [flatten]
    | cons e es ih =>
      intro h
      have ih := ih fun e he => h e (List.mem_cons_of_mem _ he)
      cases e with
      | data b bs => simp [flatten, ih]
      | interrupted => simpa [flatten] using ih
      | fail c => exact absurd rfl (h _ (List.mem_cons_self ..) c)
  rw [key es fun e he => h e (List.mem_append_left _ he), key fs fun e he => h e (List.mem_append_right _ he), hb]

/-- **C04** Two texts with the same lines, each terminated by LF or CRLF, the last one possibly unterminated, read the same. -/
theorem C04_terminators (env : Env) {ls : List Str} {t t' : Str} (h : Rendering ls t) (h' : Rendering ls t')
    {stream stream' : List Event} (hs : Delivers stream (utf8 t)) (hs' : Delivers stream' (utf8 t')) (k : Nat) :
    observe k (parse env stream) = observe k (parse env stream') := by
  rw [observe_parse, observe_parse, streamItems, streamItems, hs, hs', rawLines_rendering h, rawLines_rendering h']

/-! ### Concrete cases -/

/-- A catalogue without header: one unit, then an entry cut off by an unrecognised line. -/
def demoLines : List Str := [c!"msgid \"a\"", c!"msgstr \"b\"", c!"", c!"msgid \"c\"", c!"garbage"]

/-- The unit of `demoLines`. -/
def demoUnit : PoUnit := { PoUnit.default with message := .simple (c!"a") (some (c!"b")), state := .final }

example : Yields (parse demoEnv (textStream demoLines)) (noHeader demoEnv) (results [demoUnit] (some (.parse 6 (c!"garbage") []))) :=
  yields_text (res := ⟨noHeader demoEnv, none, [demoUnit], some (.parse 6 (c!"garbage") [])⟩) (by decide) (by rfl)

-- the hypothesis of `C03_bounded` is met: 2 results, 5 lines
example : (results [demoUnit] (some (.parse 6 (c!"garbage") []))).length = 2 ∧ (rawLines (flatten (textStream demoLines))).length = 5 := by
  refine ⟨rfl, ?_⟩
  rw [textStream_flatten, rawLines_rendering (rendering_lf (ls := demoLines) (by decide))]
  rfl

-- the hypotheses of `C04_terminators` are met: CRLF, LF and an unterminated last line
example : Rendering [c!"msgid \"a\"", c!"msgstr \"b\""] (c!"msgid \"a\"" ++ '\r' :: '\n' :: c!"msgstr \"b\"") ∧
    Rendering [c!"msgid \"a\"", c!"msgstr \"b\""] (c!"msgid \"a\"" ++ '\n' :: (c!"msgstr \"b\"" ++ '\n' :: [])) :=
  ⟨.crlf (by decide) (.last (by decide) (by decide)), .lf (by decide) (.lf (by decide) .nil)⟩

-- the hypothesis of `C43_chunking` is met
example : flatten [.data 109 [115], .interrupted, .data 103 [], .fail 5] = flatten [.interrupted, .data 109 [115, 103], .fail 5, .data 1 []] := rfl

end Verif
