import Verif.Lemmas.Counter
import Verif.Lemmas.Resume
import Verif.Lemmas.Drain
import Verif.Props.Plural

/-! C82: the order in which a `HashMap` is iterated has no effect. -/

namespace Verif
open Spec

theorem eq_srcF {σ : Type} [Src σ] : SrcF (fun n => n) (Eq : σ → σ → Prop) where
  peek s t h := by
    subst h
    exact ⟨by cases (Src.peek s).1 <;> simp [renumItem_id], rfl⟩
  next s t h := by
    subst h
    exact ⟨by cases (Src.next s).1 <;> simp [renumItem_id], rfl⟩

/-- A catalogue with two header properties and a unit. -/
def twoPropLines : List Str := [c!"msgid \"\"", c!"msgstr \"A: 1\\nB: 2\"", c!"", c!"msgid \"a\"", c!"msgstr \"b\""]

/-- Its unit. -/
def twoPropUnit : PoUnit := { PoUnit.default with message := .simple (c!"a") (some (c!"b")), state := .final }

/-- **C82.** Whatever the order in which the map of header properties is iterated, `parse()` and the iteration give the same error, or the same
units and the same header data (the same map of properties). -/
theorem C82_order (env : Env) {order : List (Str × Str) → List (Str × Str)} (ho : ∀ l : List (Str × Str), l.Perm (order l)) (stream : List Event) (later : List (List Event)) :
    (∃ e, Fails (parseResuming env stream later) e ∧ Fails (parseIn order env stream later) e) ∨
    ∃ hdr hdr' us e, Yields (parseResuming env stream later) hdr (results us e) ∧ Yields (parseIn order env stream later) hdr' (results us e) ∧
      SameHeader hdr hdr' ∧ hdr.properties.Perm hdr'.properties := by
  obtain ⟨h1, h2⟩ := new_F eq_srcF rfl ho env (⟨.new stream later, none⟩ : Peekable) _ rfl
  rcases new_total env (⟨.new stream later, none⟩ : Peekable) with ⟨e, he⟩ | ⟨hdr, us, e, hy⟩
  · have := h1 e he
    rw [renumbered_id] at this
    exact .inl ⟨e, he, this⟩
  · obtain ⟨hdr', h3, h4, h5⟩ := h2 hdr us e hy
    have he : e.map (renumbered fun n => n) = e := by cases e <;> simp [renumbered_id]
    rw [he] at h5
    exact .inr ⟨hdr, hdr', us, e, hy, h5, h3, by rw [h4]; exact ho _⟩

-- a header with two properties, iterated backwards: the same unit, and the same properties in the other order
example : ∃ hdr', Yields (parseIn List.reverse demoEnv (textStream twoPropLines) []) hdr' (results [twoPropUnit] none) ∧
    ∀ k, hdr'.properties.lookup k = [(c!"A", c!"1"), (c!"B", c!"2")].lookup k := by
  have hy : Yields (parseResuming demoEnv (textStream twoPropLines) []) ⟨[], [], [(c!"A", c!"1"), (c!"B", c!"2")], demoEnv.langInvariant⟩ (results [twoPropUnit] none) :=
    yields_text (env := demoEnv) (res := ⟨⟨[], [], [(c!"A", c!"1"), (c!"B", c!"2")], demoEnv.langInvariant⟩, none, [twoPropUnit], none⟩) (by decide) (by rfl)
  rcases C82_order demoEnv (order := List.reverse) (fun l => (List.reverse_perm l).symm) (textStream twoPropLines) [] with ⟨e, h, _⟩ | ⟨hdr, hdr', us, e, h1, h2, h3, _⟩
  · have := hy 0
    rw [h] at this
    cases this
  · obtain ⟨rfl, he⟩ := hy.unique h1
    rw [← he] at h2
    exact ⟨hdr', h2, fun k => (h3.properties k).symm⟩

end Verif
