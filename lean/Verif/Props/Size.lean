import Verif.Lemmas.Size
import Verif.Lemmas.Texts
import Verif.Props.Opaque

/-! C65: the delivered data are not larger than the input. -/

namespace Verif
open Spec

theorem block_comments_room (block : List PoLine) : room ((notesOf block).map Note.value) + room ((commentsOf block).map commentText) ≤ linesRoom block := by
  have h1 : ∀ block : List PoLine, ∃ cs : List (Nat × Char × Str), block.filterMap commentOf = cs.map Prod.snd ∧ linesRoom (cs.map commentLine) ≤ linesRoom block := by
    intro block
    induction block with
    | nil => exact ⟨[], rfl, Nat.le_refl _⟩
    | cons x block ih =>
      obtain ⟨cs, h1, h2⟩ := ih
      cases x with
      | comment n c s =>
        refine ⟨(n, c, s) :: cs, by rw [List.filterMap_cons]; simp [commentOf, h1], ?_⟩
        rw [List.map_cons, linesRoom_cons, linesRoom_cons]
        simp only [commentLine] at h2 ⊢
        omega
      | blank => exact ⟨cs, by rw [List.filterMap_cons]; simpa [commentOf] using h1, by rw [linesRoom_cons]; omega⟩
      | message => exact ⟨cs, by rw [List.filterMap_cons]; simpa [commentOf] using h1, by rw [linesRoom_cons]; omega⟩
      | continuation => exact ⟨cs, by rw [List.filterMap_cons]; simpa [commentOf] using h1, by rw [linesRoom_cons]; omega⟩
  obtain ⟨cs, h1, h2⟩ := h1 block
  have := comments_room cs
  simp only [commentsRoom] at this
  unfold notesOf commentsOf
  rw [h1]
  omega

theorem header_room {l rest : List Item} {ns : List Note} {cs : List Comment} {t : Str} (env : Env) (h : First l (.header ns cs t rest)) :
    room (headerTexts (textHeader env ns cs t)) + itemsRoom rest ≤ itemsRoom l := by
  cases h with
  | @header block u t _ h1 h2 h3 =>
    have h4 := entry_room h1
    have h5 := textProps_room (t.getD [])
    rw [itemsRoom_lines]
    simp only [unitTexts, headerTexts, textHeader, room_append, h2, messageTexts, room_cons] at *
    cases t with
    | none => rw [Option.getD_none, byteCount_nil] at h5; rw [Option.getD_none]; omega
    | some t => simp only [Option.getD_some, Option.toList_some, room_cons] at *; omega
  | @noId block _ h1 h2 h3 =>
    have h4 := block_comments_room block
    rw [itemsRoom_lines]
    simp only [headerTexts, textHeader, room_append]
    rw [show textProps [] = [] from rfl]
    simp only [List.flatMap_nil, room_nil]
    omega

/-- **C65** The texts of all delivered units and of the header data together, in UTF-8 and each with one byte more, and eleven bytes more for each unit, have
room in the bytes that the stream delivers. -/
theorem C65_room {env : Env} {stream : List Event} {hdr : Header env.Lang} {us : List PoUnit} {e : Option Err}
    (h : Yields (parse env stream) hdr (results us e)) :
    room (headerTexts hdr) + (11 * us.length + room (us.flatMap unitTexts)) ≤ (flatten stream).1.length := by
  have h1 := rawLines_bytes (flatten stream)
  have h2 := items_room ((stream_items stream _).mpr rfl)
  suffices room (headerTexts hdr) + (11 * us.length + room (us.flatMap unitTexts)) ≤ itemsRoom (streamItems stream) by omega
  clear h1 h2
  have hq := parse_stream env stream
  have hf := readAll_sound env (items_noBlank 1 (rawLines (flatten stream)))
  have hfst := first_sound (items_noBlank 1 (rawLines (flatten stream)))
  rw [← streamItems_code] at hf hfst
  have hno : ∀ {e}, ¬ Fails (parse env stream) e := by
    intro e hf
    have := h 0
    rw [show parse env stream = .err e from hf] at this
    simp [observe, Out.bind] at this
  have fin : ∀ {hd : Header env.Lang} {vs : List PoUnit} {x : Option Err}, Yields (parse env stream) hd (results vs x) →
      room (headerTexts hd) + (11 * vs.length + room (vs.flatMap unitTexts)) ≤ itemsRoom (streamItems stream) →
      room (headerTexts hdr) + (11 * us.length + room (us.flatMap unitTexts)) ≤ itemsRoom (streamItems stream) := by
    intro hd vs x y k
    obtain ⟨a1, a2⟩ := h.unique y
    obtain ⟨b1, b2⟩ := results_inj a2
    subst a1 b1 b2
    exact k
  have plain : room (headerTexts (noHeader env)) = 0 := rfl
  have hrest : ∀ {u rest}, entry none true (streamItems stream) = (.ok (some u), rest) → NoBlank rest := by
    intro u rest he
    obtain ⟨b, hl, _⟩ := entry_sound he
    have hb := items_noBlank 1 (rawLines (flatten stream))
    rw [← streamItems_code, hl] at hb
    exact hb.append
  unfold readAll at hq
  rcases he : entry none true (streamItems stream) with ⟨(_ | u) | e0 | _, rest⟩ <;> rw [he] at hq hfst
  · exact fin hq (by rw [plain]; exact Nat.zero_le _)
  · have hb := hrest he
    simp only at hq
    unfold firstOut at hfst
    simp only at hfst
    by_cases hem : u.message.isEmpty = true
    · rw [if_pos hem] at hq
      rw [if_pos hem] at hfst
      rw [headerData_eq] at hq
      have k1 := header_room env hfst
      cases hfm : textForms env ((textProps u.message.getText).lookup (c!"Plural-Forms")) with
      | error e1 => rw [hfm] at hq; exact (hno hq).elim
      | ok f =>
        rw [hfm] at hq
        have k2 := run_room (drain_run (forms := f) hb)
        exact fin hq (by simp only; omega)
    · rw [if_neg hem] at hq
      rw [if_neg hem] at hfst
      obtain ⟨block, g1, g2, _⟩ := first_unit hfst
      have k1 := entry_room g2
      have k2 := run_room (drain_run (forms := none) hb)
      refine fin hq ?_
      rw [plain, g1, itemsRoom_lines, List.flatMap_cons, room_append, List.length_cons]
      omega
  · exact (hno hq).elim
  · exact fin hq (by rw [plain]; exact Nat.zero_le _)

/-- **C65** In particular, the characters of every text of every unit are not more than the bytes of the input, and neither is eleven times the number of units. -/
theorem C65_bounds {env : Env} {stream : List Event} {hdr : Header env.Lang} {us : List PoUnit} {e : Option Err}
    (h : Yields (parse env stream) hdr (results us e)) :
    11 * us.length ≤ (flatten stream).1.length ∧ (∀ u ∈ us, ((unitTexts u).map List.length).sum ≤ (flatten stream).1.length) ∧
    ((headerTexts hdr).map List.length).sum ≤ (flatten stream).1.length := by
  have h0 := C65_room h
  have h1 : ∀ s : Str, s.length ≤ byteCount s := by
    intro s
    induction s with
    | nil => exact Nat.zero_le _
    | cons c s ih => have := byteCount_one c; rw [byteCount_cons, List.length_cons]; omega
  have h2 : ∀ l : List Str, (l.map List.length).sum ≤ room l := by
    intro l
    induction l with
    | nil => exact Nat.zero_le _
    | cons s l ih => have := h1 s; rw [room_cons, List.map_cons, List.sum_cons]; omega
  have h3 : ∀ (us : List PoUnit), ∀ u ∈ us, room (unitTexts u) ≤ room (us.flatMap unitTexts) := by
    intro us
    induction us with
    | nil => intro u hu; cases hu
    | cons v us ih =>
      intro u hu
      rw [List.flatMap_cons, room_append]
      rcases List.mem_cons.mp hu with rfl | hu
      · omega
      · have := ih u hu; omega
  refine ⟨by omega, fun u hu => ?_, ?_⟩
  · have := h2 (unitTexts u)
    have := h3 us u hu
    omega
  · have := h2 (headerTexts hdr)
    omega

/-! ### Concrete cases -/

set_option maxRecDepth 100000 in
-- an entry with comments: its texts take 21 bytes of 48
example : ∃ hdr us e, Yields (parse demoEnv (textStream [c!"#, a, b", c!"#: x:1 y:2", c!"#. é", c!"msgid \"é\"", c!"msgstr \"\\n\""])) hdr (results us e) ∧
    us.flatMap unitTexts = [c!"é", c!"\n", [], c!"a", c!"b", c!"é", c!"x:1", c!"y:2"] ∧ room (us.flatMap unitTexts) = 21 ∧
    (flatten (textStream [c!"#, a, b", c!"#: x:1 y:2", c!"#. é", c!"msgid \"é\"", c!"msgstr \"\\n\""])).1.length = 48 :=
  ⟨_, _, _, yields_text (env := demoEnv) (res := ⟨noHeader demoEnv, none, [{ unitAB (c!"é") (c!"\n") with
      flags := [c!"a", c!"b"], locations := [c!"x:1", c!"y:2"], notes := [⟨.developer, c!"é"⟩] }], none⟩) (by decide) (by rfl), by rfl, by decide, by rw [textStream_flatten]; decide⟩

-- the texts of a header: the key and the two values, joined
example : room (headerTexts (textHeader demoEnv [] [] (c!"a:b\na:c"))) = 6 := by decide

end Verif
