import Verif.Lemmas.Drain
import Verif.Lemmas.Utf8

/-! Reading texts: used for the concrete cases beside the theorems. -/

namespace Verif
open Spec

/-- The stream that delivers the lines `ls`, terminated by LF, in one chunk. -/
def textStream (ls : List Str) : List Event :=
  match utf8 (ls.flatMap fun l => l ++ ['\n']) with
  | [] => []
  | b :: bs => [.data b bs]

theorem textStream_flatten (ls : List Str) : flatten (textStream ls) = (utf8 (ls.flatMap fun l => l ++ ['\n']), none) := by
  unfold textStream
  split
  · rename_i h; rw [h]; rfl
  · rename_i h; rw [h]; simp [flatten]

theorem rendering_lf {ls : List Str} (h : ∀ l ∈ ls, CleanLine l) : Rendering ls (ls.flatMap fun l => l ++ ['\n']) := by
  induction ls with
  | nil => exact .nil
  | cons l ls ih =>
    rw [List.flatMap_cons, List.append_assoc]
    exact .lf (h l (by simp)) (ih fun l hl => h l (by simp [hl]))

theorem rendering_crlf {ls : List Str} (h : ∀ l ∈ ls, '\n' ∉ l) : Rendering ls (ls.flatMap fun l => l ++ ['\r', '\n']) := by
  induction ls with
  | nil => exact .nil
  | cons l ls ih =>
    rw [List.flatMap_cons, List.append_assoc]
    exact .crlf (h l (by simp)) (ih fun l hl => h l (by simp [hl]))

/-- Some stream delivers any given bytes. -/
theorem delivers_exists (bs : List UInt8) : ∃ stream, Delivers stream bs := by
  cases bs with
  | nil => exact ⟨[], rfl⟩
  | cons b bs => exact ⟨[.data b bs], by simp [Delivers, flatten]⟩

theorem streamItems_text (ls : List Str) (h : ∀ l ∈ ls, CleanLine l) : streamItems (textStream ls) = items 1 (ls.map .ok) := by
  rw [streamItems_code]
  rw [textStream_flatten, rawLines_rendering (rendering_lf h)]

theorem yields_text {env : Env} {ls : List Str} {res : Result env.Lang} (h : ∀ l ∈ ls, CleanLine l)
    (hr : readAll env (items 1 (ls.map .ok)) = .ok res) :
    Yields (parse env (textStream ls)) res.header (results res.units res.error) := by
  have := parse_stream env (textStream ls)
  rw [streamItems_text ls h, hr] at this
  exact this

theorem fails_text {env : Env} {ls : List Str} {e : Err} (h : ∀ l ∈ ls, CleanLine l)
    (hr : readAll env (items 1 (ls.map .ok)) = .error e) : Fails (parse env (textStream ls)) e := by
  have := parse_stream env (textStream ls)
  rw [streamItems_text ls h, hr] at this
  exact this

/-- A language library in which every text is a language range. -/
def demoEnv : Env := ⟨Str, some, some, [], fun s => s⟩

end Verif
