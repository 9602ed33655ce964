import Verif.Props.Units
import Verif.Lemmas.Positions

/-! C03, C14: the lines of the input, with blank ones and those that are not read, cut into parts, one per unit. -/

namespace Verif
open Spec

/-- The lines of some items, and the rest. -/
theorem Spec.LineItems.split {n : Nat} {rs : List (Except IoErr Str)} {xs : List PoLine} {rest : List Item} (h : LineItems n rs (xs.map .ok ++ rest)) :
    ∃ a b, rs = a ++ b ∧ LineItems n a (xs.map .ok) ∧ LineItems (n + a.length) b rest := by
  generalize hl : xs.map .ok ++ rest = l at h
  induction h generalizing xs with
  | nil =>
    cases xs with
    | nil => cases rest with
      | nil => exact ⟨[], [], rfl, .nil, .nil⟩
      | cons => cases hl
    | cons => cases hl
  | @failed n e rs =>
    cases xs with
    | nil => simp only [List.map_nil, List.nil_append] at hl; subst hl; exact ⟨[], _, rfl, .nil, .failed⟩
    | cons => simp at hl
  | @unrecognised n s rs hc =>
    cases xs with
    | nil => simp only [List.map_nil, List.nil_append] at hl; subst hl; exact ⟨[], _, rfl, .nil, .unrecognised hc⟩
    | cons => simp at hl
  | @blank n s rs l hc h ih =>
    cases xs with
    | nil => simp only [List.map_nil, List.nil_append] at hl; subst hl; exact ⟨[], _, rfl, .nil, .blank hc h⟩
    | cons x xs =>
      obtain ⟨a, b, rfl, h1, h2⟩ := ih hl
      exact ⟨.ok s :: a, b, rfl, .blank hc h1, by rw [List.length_cons, Nat.add_comm a.length, ← Nat.add_assoc]; exact h2⟩
  | @line n s rs ln l hc hb h ih =>
    cases xs with
    | nil => simp only [List.map_nil, List.nil_append] at hl; subst hl; exact ⟨[], _, rfl, .nil, .line hc hb h⟩
    | cons x xs =>
      simp only [List.map_cons, List.cons_append, List.cons.injEq, Except.ok.injEq] at hl
      obtain ⟨rfl, hl⟩ := hl
      obtain ⟨a, b, rfl, h1, h2⟩ := ih hl
      exact ⟨.ok s :: a, b, rfl, .line hc hb h1, by rw [List.length_cons, Nat.add_comm a.length, ← Nat.add_assoc]; exact h2⟩

/-- The same for one list of items after the other. -/
theorem Spec.LineItems.parts {bs : List (List PoLine × PoUnit)} {n : Nat} {rs : List (Except IoErr Str)} {rest : List Item}
    (h : LineItems n rs ((bs.flatMap Prod.fst).map .ok ++ rest)) :
    ∃ (parts : List (List (Except IoErr Str))) (b : List (Except IoErr Str)), rs = parts.flatten ++ b ∧ parts.length = bs.length ∧ LineItems (n + parts.flatten.length) b rest ∧
      ∀ (i : Nat) (part : List (Except IoErr Str)) (p : List PoLine × PoUnit), parts[i]? = some part → bs[i]? = some p → LineItems (n + ((parts.take i).flatten).length) part (p.1.map .ok) := by
  induction bs generalizing n rs with
  | nil => exact ⟨[], rs, rfl, rfl, h, fun i part p h => by simp at h⟩
  | cons q bs ih =>
    rw [List.flatMap_cons, List.map_append, List.append_assoc] at h
    obtain ⟨a, b, rfl, h1, h2⟩ := h.split
    obtain ⟨parts, b, rfl, h3, h4, h5⟩ := ih h2
    refine ⟨a :: parts, b, by simp, by simp [h3], by simpa [Nat.add_assoc] using h4, fun i part p hp hq => ?_⟩
    cases i with
    | zero => cases hp; cases hq; simpa using h1
    | succ i => simpa [Nat.add_assoc] using h5 i part p hp hq

/-- **C14, C03** The lines of the input (all of them, blank ones included) are some lines before, one non-empty part for each unit, in order, and the lines after them.  The
lines of a part, with the numbers they have in the file, are read as an entry, and the unit is what the entry grammar says of it. -/
theorem C14_lines {env : Env} {stream : List Event} {hdr : Header env.Lang} {us : List PoUnit} {e : Option Err}
    (h : Yields (parse env stream) hdr (results us e)) :
    ∃ (forms : Option PluralForms) (before : List (Except IoErr Str)) (parts : List (List (Except IoErr Str))) (after : List (Except IoErr Str)),
      rawLines (flatten stream) = before ++ (parts.flatten ++ after) ∧ parts.length = us.length ∧
      FormsRule env (hdr.properties.lookup (c!"Plural-Forms")) (.ok forms) ∧
      ∀ (i : Nat) (part : List (Except IoErr Str)) (u : PoUnit), parts[i]? = some part → us[i]? = some u → part ≠ [] ∧
        ∃ block, LineItems (1 + before.length + ((parts.take i).flatten).length) part (block.map .ok) ∧ Entry forms block u := by
  obtain ⟨forms, head, blocks, tail, h1, rfl, h3, _, h5, _⟩ := C14_blocks h
  have hl := (stream_items stream _).mpr rfl
  rw [h1] at hl
  obtain ⟨a, b, hab, h6, h7⟩ := hl.split
  obtain ⟨parts, c, rfl, h8, _, h9⟩ := h7.parts
  refine ⟨forms, a, parts, c, hab, by simp [h8], h5, fun i part u hp hu => ?_⟩
  rw [List.getElem?_map] at hu
  cases hb : blocks[i]? with
  | none => rw [hb] at hu; cases hu
  | some p =>
    rw [hb] at hu; cases hu
    have hi := h9 i part p hp hb
    have he := (h3 p (List.mem_of_getElem? hb)).1
    refine ⟨?_, p.1, hi, he⟩
    rintro rfl
    have := he.ne_nil
    cases hq : p.1 with
    | nil => exact this hq
    | cons x xs => rw [hq] at hi; cases hi

-- two units of three lines each, with a comment and blank lines around
example : ∃ (forms : Option PluralForms) (before : List (Except IoErr Str)) (p q after : List (Except IoErr Str)),
    rawLines (flatten (textStream [c!"", c!"msgid \"a\"", c!"msgstr \"b\"", c!"", c!"# c", c!"msgid \"x\"", c!"msgstr \"y\"", c!""])) = before ++ (p ++ (q ++ after)) ∧
      p ≠ [] ∧ q ≠ [] ∧ ∃ block, LineItems (1 + before.length + p.length) q (block.map .ok) ∧
        Entry forms block { PoUnit.default with message := .simple (c!"x") (some (c!"y")), notes := [⟨.translator, c!"c"⟩], state := .final } := by
  obtain ⟨forms, before, parts, after, h1, h2, _, h3⟩ := C14_lines (us := [_, _]) (e := none) (yields_text (res := ⟨noHeader demoEnv, none,
    [{ PoUnit.default with message := .simple (c!"a") (some (c!"b")), state := .final }, { PoUnit.default with message := .simple (c!"x") (some (c!"y")), notes := [⟨.translator, c!"c"⟩], state := .final }], none⟩)
    (ls := [c!"", c!"msgid \"a\"", c!"msgstr \"b\"", c!"", c!"# c", c!"msgid \"x\"", c!"msgstr \"y\"", c!""]) (by decide) (by rfl))
  match parts, h2 with
  | [p, q], _ =>
    obtain ⟨h4, block, h5, h6⟩ := h3 1 q _ rfl rfl
    exact ⟨forms, before, p, q, after, by simpa using h1, (h3 0 p _ rfl rfl).1, h4, block, by simpa using h5, h6⟩

end Verif
