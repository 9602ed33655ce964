import Verif.Spec.Size
import Verif.Props.Units
import Verif.Props.Invariants

/-! The room that lines, entries and header texts take. -/

namespace Verif
open Spec

/-- The number of bytes of a text in UTF-8. -/
def byteCount (s : Str) : Nat := (utf8 s).length

theorem byteCount_nil : byteCount [] = 0 := rfl

theorem byteCount_append (a b : Str) : byteCount (a ++ b) = byteCount a + byteCount b := by simp [byteCount, utf8_append]

theorem byteCount_cons (c : Char) (s : Str) : byteCount (c :: s) = byteCount [c] + byteCount s := byteCount_append [c] s

theorem byteCount_one (c : Char) : 1 ≤ byteCount [c] := by
  have := encodeChar_ne_nil c
  simp only [byteCount, utf8, List.flatMap_cons, List.flatMap_nil, List.append_nil]
  cases h : String.utf8EncodeChar c with
  | nil => exact absurd h this
  | cons b bs => simp

theorem byteCount_drop (s : Str) (n : Nat) : byteCount (s.drop n) ≤ byteCount s := by
  conv => rhs; rw [← List.take_append_drop n s, byteCount_append]
  omega

theorem byteCount_dropWhile (s : Str) (p : Char → Bool) : byteCount (s.dropWhile p) ≤ byteCount s := by
  conv => rhs; rw [← List.takeWhile_append_dropWhile (p := p) (l := s), byteCount_append]
  omega

theorem byteCount_strip (s : Str) : byteCount (strip s) ≤ byteCount s := by
  obtain ⟨_, a, b, _, _, h⟩ := stripped_iff.mpr (strip_eq s)
  conv => rhs; rw [h, byteCount_append, byteCount_append]
  omega

theorem byteCount_trim (s : Str) : byteCount (trim s) ≤ byteCount s := by rw [← strip_eq]; exact byteCount_strip s

theorem byteCount_unesc (s : Str) : byteCount (unesc s) ≤ byteCount s := by
  have h1 : ∀ c d s t, byteCount [c] ≤ 1 → byteCount t ≤ byteCount s → byteCount (c :: t) ≤ byteCount ('\\' :: d :: s) := by
    intro c d s t hc h
    have := byteCount_one d
    rw [byteCount_cons, byteCount_cons '\\', byteCount_cons d, show byteCount ['\\'] = 1 from by decide]
    omega
  fun_induction unesc s with
  | case1 s ih => exact h1 _ _ _ _ (by decide) ih
  | case2 s ih => exact h1 _ _ _ _ (by decide) ih
  | case3 s ih => exact h1 _ _ _ _ (by decide) ih
  | case4 s ih => exact h1 _ _ _ _ (by decide) ih
  | case5 s ih => exact h1 _ _ _ _ (by decide) ih
  | case6 c s _ _ _ _ _ ih => rw [byteCount_cons, byteCount_cons c s]; omega
  | case7 => exact Nat.le_refl _

theorem room_nil : room [] = 0 := rfl

theorem room_cons (s : Str) (l : List Str) : room (s :: l) = byteCount s + 1 + room l := rfl

theorem room_append (a b : List Str) : room (a ++ b) = room a + room b := by simp [room]

theorem room_filter (p : Str → Bool) (l : List Str) : room (l.filter p) ≤ room l := by
  induction l with
  | nil => exact Nat.le_refl _
  | cons s l ih =>
    rw [List.filter_cons, room_cons]
    split
    · rw [room_cons]; omega
    · omega

theorem room_distinct (l : List Str) : room (distinct l) ≤ room l := by
  have key : ∀ (l acc : List Str), room (l.foldl (fun acc f => if f ∈ acc then acc else acc ++ [f]) acc) ≤ room acc + room l := by
    intro l
    induction l with
    | nil => intro acc; exact Nat.le_refl _
    | cons s l ih =>
      intro acc
      rw [List.foldl_cons, room_cons]
      refine Nat.le_trans (ih _) ?_
      split
      · omega
      · rw [room_append, room_cons, room_nil]; omega
  have := key l []
  rw [room_nil, Nat.zero_add] at this
  exact this

theorem room_strip (l : List Str) : room (l.map strip) ≤ room l := by
  induction l with
  | nil => exact Nat.le_refl _
  | cons s l ih =>
    have := byteCount_strip s
    rw [List.map_cons, room_cons, room_cons]
    omega

theorem room_cut {sep : Char → Prop} {s : Str} {ps : List Str} (h : Cut sep s ps) : room ps ≤ byteCount s + 1 := by
  induction h with
  | last => rw [room_cons, room_nil]; omega
  | @cons p c s ps _ _ _ ih =>
    have := byteCount_one c
    rw [room_cons, byteCount_append, byteCount_cons]
    omega

/-! ### Lines and entries -/

/-- The room of a line. -/
def lineRoom : PoLine → Nat
  | .blank => 0
  | .comment _ c s => 1 + byteCount s + if c = ' ' then 0 else byteCount [c]
  | .message _ _ _ s => 7 + byteCount s
  | .continuation _ _ s => byteCount s

/-- The room of lines. -/
def linesRoom (b : List PoLine) : Nat := (b.map lineRoom).sum

theorem linesRoom_append (a b : List PoLine) : linesRoom (a ++ b) = linesRoom a + linesRoom b := by simp [linesRoom]

theorem linesRoom_cons (x : PoLine) (b : List PoLine) : linesRoom (x :: b) = lineRoom x + linesRoom b := by simp [linesRoom]

theorem keyword_bytes {k : Str} (h : IsKeyword k) : 5 ≤ byteCount k := by
  rcases h with rfl | rfl | rfl | rfl | ⟨ds, _, rfl⟩
  · decide
  · decide
  · decide
  · decide
  · rw [byteCount_append, show byteCount (c!"msgstr[") = 7 from by decide]; omega

theorem line_room {s : Str} {n : Nat} {ln : PoLine} (h : Classified s n (some ln)) : lineRoom ln ≤ byteCount s := by
  cases h with
  | blank => exact Nat.zero_le _
  | @keyword m k raw h =>
    obtain ⟨_, hk, w1, w2, w3, w4, _, _, _, _, rfl⟩ := h
    have h1 := keyword_bytes (hk k rfl)
    have h2 := byteCount_unesc raw
    rw [byteCount_append, byteCount_append, byteCount_append, byteCount_append, byteCount_append, byteCount_cons, byteCount_append, byteCount_cons '"' w4,
      show byteCount ['"'] = 1 from by decide]
    simp only [Option.getD_some, lineRoom]
    omega
  | @continuation m raw h =>
    obtain ⟨_, hk, w1, w2, w3, w4, _, _, _, _, rfl⟩ := h
    have h2 := byteCount_unesc raw
    rw [byteCount_append, byteCount_append, byteCount_append, byteCount_append, byteCount_append, byteCount_cons, byteCount_append]
    simp only [lineRoom]
    omega
  | @comment w r _ h _ =>
    subst h
    rw [byteCount_append, byteCount_cons '#', show byteCount ['#'] = 1 from by decide]
    cases r with
    | nil => simp [lineRoom, byteCount_nil]
    | cons c r =>
      have := byteCount_dropWhile r isWhite
      rw [byteCount_cons c]
      show 1 + byteCount (r.dropWhile isWhite) + (if c = ' ' then 0 else byteCount [c]) ≤ _
      by_cases hc : c = ' '
      · rw [if_pos hc]; omega
      · rw [if_neg hc]; omega

/-- The room of items. -/
def itemsRoom (l : List Item) : Nat := (l.map fun x => match x with | .ok ln => lineRoom ln | .error _ => 0).sum

theorem itemsRoom_lines (b : List PoLine) (l : List Item) : itemsRoom (b.map .ok ++ l) = linesRoom b + itemsRoom l := by
  simp [itemsRoom, linesRoom, Function.comp_def]

/-- The bytes of lines. -/
def linesBytes (rs : List (Except IoErr Str)) : Nat := (rs.map fun x => match x with | .ok s => byteCount s | .error _ => 0).sum

theorem items_room {n : Nat} {rs : List (Except IoErr Str)} {l : List Item} (h : LineItems n rs l) : itemsRoom l ≤ linesBytes rs := by
  induction h with
  | nil => exact Nat.le_refl _
  | failed => simp [itemsRoom]
  | unrecognised => simp [itemsRoom]
  | blank _ _ ih => simp only [linesBytes, List.map_cons, List.sum_cons] at ih ⊢; omega
  | line h _ _ ih =>
    have := line_room h
    simp only [linesBytes, itemsRoom, List.map_cons, List.sum_cons] at ih ⊢
    omega

theorem lineText_room {l : List UInt8} {s : Str} (h : LineText l (.ok s)) : byteCount s ≤ l.length := by
  cases h with
  | lf => simp only [utf8_append, List.length_append, byteCount]; omega
  | crlf => simp only [utf8_append, List.length_append, byteCount]; omega
  | «open» => exact Nat.le_refl _

theorem lineText_bytes (l : List UInt8) : (match lineText l with | .ok s => byteCount s | .error _ => 0) ≤ l.length := by
  cases h : lineText l with
  | error => exact Nat.zero_le _
  | ok s => exact lineText_room (lineText_iff.mp h)

theorem byteLines_length (bs : List UInt8) : ((byteLines bs).1.map List.length).sum + (byteLines bs).2.length = bs.length := by
  induction bs with
  | nil => rfl
  | cons b bs ih =>
    rw [byteLines]
    split
    · simp only [List.map_cons, List.sum_cons, List.length_cons, List.length_nil]; omega
    · split
      · rename_i h; rw [h] at ih; simp at ih; simp [ih]
      · rename_i l ls h
        rw [h] at ih
        simp only [List.map_cons, List.sum_cons, List.length_cons] at ih ⊢
        omega

theorem rawLines_bytes (inp : List UInt8 × Option Nat) : linesBytes (rawLines inp) ≤ inp.1.length := by
  have h1 := byteLines_length inp.1
  have h2 : ∀ ls : List (List UInt8), linesBytes (ls.map lineText) ≤ (ls.map List.length).sum := by
    intro ls
    induction ls with
    | nil => exact Nat.le_refl _
    | cons l ls ih =>
      have := lineText_bytes l
      simp only [linesBytes, List.map_cons, List.sum_cons] at ih ⊢
      omega
  have h3 : ∀ a b, linesBytes (a ++ b) = linesBytes a + linesBytes b := by intro a b; simp [linesBytes]
  have h4 := h2 (byteLines inp.1).1
  unfold rawLines
  rw [h3]
  obtain ⟨bs, f⟩ := inp
  cases f with
  | some c => simp only [linesBytes, List.map_cons, List.map_nil, List.sum_cons, List.sum_nil] at *; omega
  | none =>
    simp only at *
    by_cases he : (byteLines bs).2 = []
    · rw [if_pos he]
      simp only [linesBytes, List.map_nil, List.sum_nil] at *
      omega
    · rw [if_neg he]
      have := lineText_bytes (byteLines bs).2
      simp only [linesBytes, List.map_cons, List.map_nil, List.sum_cons, List.sum_nil] at *
      omega

theorem field_room {kw : Str} {o : Bool} {b : List PoLine} {v : Str} (h : Field kw o b v) : 7 + byteCount v ≤ linesRoom b := by
  obtain ⟨p, ⟨n, s, cs, rfl, rfl⟩, _⟩ := h
  have : ∀ cs : List (Nat × Str), byteCount (cs.map Prod.snd).flatten = linesRoom (cs.map fun c => .continuation c.1 p c.2) := by
    intro cs
    induction cs with
    | nil => rfl
    | cons c cs ih => rw [List.map_cons, List.map_cons, List.flatten_cons, byteCount_append, linesRoom_cons, ih]; rfl
  rw [byteCount_append, this, linesRoom_cons]
  simp only [lineRoom]
  omega

theorem optField_room {kw : Str} {o : Bool} {b : List PoLine} {v : Option Str} (h : OptField kw o b v) : room v.toList ≤ linesRoom b := by
  cases h with
  | none => exact Nat.zero_le _
  | some h => have := field_room h; simp only [Option.toList_some, room_cons, room_nil]; omega

theorem valueFields_room {o : Bool} {hi lo : Nat} {b : List PoLine} {vs : List Str} (h : ValueFields o hi lo b vs) : 6 * vs.length + room vs ≤ linesRoom b := by
  induction h with
  | nil => exact Nat.zero_le _
  | cons _ _ h _ ih =>
    have := field_room h
    rw [linesRoom_append, room_cons, List.length_cons]
    omega

theorem textFields_room {forms : Option PluralForms} {o : Bool} {id : Str} {idPl : Option Str} {b6 b7 : List PoLine} {m : Message}
    (h6 : OptField (c!"msgid_plural") o b6 idPl) (h : TextFields forms o id idPl b7 m) :
    6 + room (messageTexts m) ≤ byteCount id + 1 + (linesRoom b6 + linesRoom b7) := by
  cases h with
  | simple h =>
    have := field_room h
    simp only [messageTexts, room_cons]
    split
    · simp only [Option.toList_none, room_nil]; omega
    · simp only [Option.toList_some, room_cons, room_nil]; omega
  | @plural pl _ vs h hne =>
    have h1 := valueFields_room h
    have h2 := optField_room h6
    simp only [Option.toList_some, room_cons, room_nil] at h2
    have : 1 ≤ vs.length := by cases vs with | nil => exact absurd rfl hne | cons => simp
    simp only [messageTexts, room_cons]
    omega

theorem previous_room (forms : Option PluralForms) {o : Bool} {b2 b3 : List PoLine} {prevId prevPl : Option Str} (h2 : OptField (c!"|msgid") o b2 prevId)
    (h3 : OptField (c!"|msgid_plural") o b3 prevPl) : room (messageTexts (previousMessage forms prevId prevPl)) ≤ 1 + (linesRoom b2 + linesRoom b3) := by
  have h2 := optField_room h2
  have h3 := optField_room h3
  cases prevId with
  | none => simp only [previousMessage, messageTexts, room_cons, byteCount_nil, Option.toList_none, room_nil]; omega
  | some id =>
    cases prevPl with
    | none => simp only [previousMessage, messageTexts, room_cons, Option.toList_some, Option.toList_none, room_nil] at *; omega
    | some pl => simp only [previousMessage, messageTexts, room_cons, Option.toList_some, room_nil] at *; omega

/-- The room of the data that come from comments. -/
def commentsRoom (flags : List Str) (notes : List Note) (locations : List Str) (comments : List Comment) : Nat :=
  room flags + room (notes.map Note.value) + room locations + room (comments.map commentText)

theorem comments_room (cs : List (Nat × Char × Str)) :
    commentsRoom ((cs.map Prod.snd).flatMap flagItems) ((cs.map Prod.snd).filterMap noteItem) ((cs.map Prod.snd).flatMap locationItems)
      ((cs.map Prod.snd).filterMap otherItem) ≤ linesRoom (cs.map commentLine) := by
  induction cs with
  | nil => exact Nat.zero_le _
  | cons c cs ih =>
    obtain ⟨n, c, s⟩ := c
    simp only [List.map_cons, List.flatMap_cons, List.filterMap_cons, linesRoom_cons, commentsRoom, room_append] at ih ⊢
    have hc := byteCount_one c
    simp only [commentLine, lineRoom]
    by_cases h1 : c = ','
    · subst h1
      have e : flagItems (',', s) = (cut (· = ',') s).map strip := by simp [flagItems]
      have hcut : room (cut (· = ',') s) ≤ byteCount s + 1 := by
        have := room_cut (cut_cut (· == ',') s)
        simpa using this
      have := room_strip (cut (· = ',') s)
      rw [e, show locationItems (',', s) = [] from by simp [locationItems], show noteItem (',', s) = none from by simp [noteItem],
        show otherItem (',', s) = none from by simp [otherItem], room_nil]
      simp only
      omega
    · by_cases h2 : c = ':'
      · subst h2
        have hcut := room_cut (cut_cut isWhite s)
        have : room (locationItems (':', s)) ≤ byteCount s + 1 := by
          unfold locationItems
          rw [if_pos rfl]
          exact Nat.le_trans (room_filter _ _) hcut
        rw [show flagItems (':', s) = [] from by simp [flagItems], show noteItem (':', s) = none from by simp [noteItem],
          show otherItem (':', s) = none from by simp [otherItem], room_nil]
        simp only
        omega
      · rw [show flagItems (c, s) = [] from by simp [flagItems, h1], show locationItems (c, s) = [] from by simp [locationItems, h2], room_nil]
        by_cases h3 : c = '.'
        · subst h3
          simp only [show noteItem ('.', s) = some ⟨.developer, s⟩ from by simp [noteItem], show otherItem ('.', s) = none from by simp [otherItem], List.map_cons, room_cons]
          omega
        · by_cases h4 : c = ' '
          · subst h4
            simp only [show noteItem (' ', s) = some ⟨.translator, s⟩ from by simp [noteItem], show otherItem (' ', s) = none from by simp [otherItem], List.map_cons, room_cons, if_true]
            omega
          · simp only [show noteItem (c, s) = none from by simp [noteItem, h3, h4], show otherItem (c, s) = some ⟨c, s⟩ from by simp [otherItem, h1, h2, h3, h4],
              List.map_cons, room_cons, commentText, byteCount_cons c s, if_neg h4]
            omega

theorem entry_room {forms : Option PluralForms} {block : List PoLine} {u : PoUnit} (h : Entry forms block u) : 11 + room (unitTexts u) ≤ linesRoom block := by
  obtain ⟨cs, b1, b2, b3, b4, b5, b6, b7, prevId, prevPl, id, idPl, rfl, h1, h2, h3, _, h4, h5, h6, h7, h8, hc, _⟩ := h
  have e1 := optField_room h1
  have e2 := previous_room forms h2 h3
  have e4 := optField_room h4
  have e5 := field_room h5
  have e6 := textFields_room h6 h7
  have e7 := comments_room cs
  have e8 := room_distinct ((cs.map Prod.snd).flatMap flagItems)
  simp only [commentsRoom] at e7
  simp only [unitTexts, room_append, linesRoom_append, hc.flags, hc.notes, hc.locations, hc.comments, h8]
  omega

theorem run_room {forms : Option PluralForms} {l : List Item} {us : List PoUnit} {e : Option Err} (h : Run forms l us e) :
    11 * us.length + room (us.flatMap unitTexts) ≤ itemsRoom l := by
  induction h with
  | stop => exact Nat.zero_le _
  | entry h _ _ _ ih =>
    have := entry_room h
    rw [itemsRoom_lines, List.flatMap_cons, room_append, List.length_cons]
    omega

/-! ### Header texts -/

/-- The room of properties with lists of values. -/
def pairsRoom (m : List (Str × List Str)) : Nat := (m.map fun p => byteCount p.1 + 1 + room p.2).sum

theorem pushKV_room (m : List (Str × List Str)) (k v : Str) : pairsRoom (pushKV m k v) ≤ pairsRoom m + (byteCount k + 1 + (byteCount v + 1)) := by
  induction m with
  | nil => simp [pushKV, pairsRoom, room_cons, room_nil]
  | cons p m ih =>
    rw [pushKV]
    split
    · simp only [pairsRoom, List.map_cons, List.sum_cons, room_append, room_cons, room_nil]; omega
    · simp only [pairsRoom, List.map_cons, List.sum_cons] at ih ⊢; omega

theorem pushKV_values (m : List (Str × List Str)) (k v : Str) (h : ∀ p ∈ m, p.2 ≠ []) : ∀ p ∈ pushKV m k v, p.2 ≠ [] := by
  induction m with
  | nil => simp [pushKV]
  | cons q m ih =>
    rw [pushKV]
    split
    · simp only [List.mem_cons, forall_eq_or_imp] at h ⊢
      exact ⟨by simp, h.2⟩
    · simp only [List.mem_cons, forall_eq_or_imp] at h ⊢
      exact ⟨h.1, ih h.2⟩

theorem pushLine_room (m : List (Str × List Str)) (line : Str) : pairsRoom (pushLine m line) ≤ pairsRoom m + (byteCount line + 1) := by
  unfold pushLine
  cases h : splitColon line with
  | none => simp only; omega
  | some p =>
    obtain ⟨rfl, _⟩ := splitColon_iff.mp h
    have h1 := pushKV_room m (trim p.1) (trim p.2)
    have h2 := byteCount_trim p.1
    have h3 := byteCount_trim p.2
    simp only
    rw [byteCount_append, byteCount_cons, show byteCount [':'] = 1 from by decide]
    omega

theorem pushLine_values (m : List (Str × List Str)) (line : Str) (h : ∀ p ∈ m, p.2 ≠ []) : ∀ p ∈ pushLine m line, p.2 ≠ [] := by
  unfold pushLine
  cases splitColon line with
  | none => exact h
  | some p => exact pushKV_values _ _ _ h

theorem pushLines_room (ls : List Str) (m : List (Str × List Str)) (h : ∀ p ∈ m, p.2 ≠ []) :
    pairsRoom (ls.foldl pushLine m) ≤ pairsRoom m + room ls ∧ ∀ p ∈ ls.foldl pushLine m, p.2 ≠ [] := by
  induction ls generalizing m with
  | nil => exact ⟨Nat.le_refl _, h⟩
  | cons l ls ih =>
    obtain ⟨h1, h2⟩ := ih (pushLine m l) (pushLine_values m l h)
    have := pushLine_room m l
    rw [List.foldl_cons, room_cons]
    exact ⟨by omega, h2⟩

theorem joinSp_room (vs : List Str) (h : vs ≠ []) : byteCount (joinSp vs) + 1 = room vs := by
  induction vs with
  | nil => exact absurd rfl h
  | cons v vs ih =>
    cases vs with
    | nil => rfl
    | cons w vs =>
      have := ih (by simp)
      rw [joinSp, byteCount_append, byteCount_cons, show byteCount [' '] = 1 from by decide, room_cons]
      · omega
      · simp

theorem textProps_room (text : Str) : room ((textProps text).flatMap fun p => [p.1, p.2]) ≤ byteCount text + 1 := by
  rw [textProps_eq, headerProps_eq]
  obtain ⟨h1, h2⟩ := pushLines_room (splitP (· == '\n') text) [] (by simp)
  have h3 : room (splitP (· == '\n') text) ≤ byteCount text + 1 := room_cut (cut_iff.mpr rfl)
  have key : ∀ m : List (Str × List Str), (∀ p ∈ m, p.2 ≠ []) → room ((m.map fun kl => (kl.1, joinSp kl.2)).flatMap fun p => [p.1, p.2]) = pairsRoom m := by
    intro m
    induction m with
    | nil => intro _; rfl
    | cons p m ih =>
      intro h
      have e := joinSp_room p.2 (h p (by simp))
      have e2 := ih fun q hq => h q (by simp [hq])
      simp only [List.map_cons, List.flatMap_cons, room_append, room_cons, room_nil, pairsRoom, List.sum_cons] at e2 ⊢
      omega
  rw [key _ h2]
  have : pairsRoom [] = 0 := rfl
  omega

end Verif
