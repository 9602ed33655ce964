import Verif.Model.Program
import Verif.Props.Work
import Verif.Props.Messages

/-! C61: the example program of the documentation. -/

namespace Verif
open Spec

/-- What the program has to print for some units. -/
def Spec.listing (us : List PoUnit) : Str := us.flatMap fun u => c!" - " ++ u.message.getId ++ ['\n']

/-- The result of the program: success, or the error as an I/O error. -/
def Spec.outcome : Option Err → Except StdIo Unit
  | none => .ok ()
  | some e => .error (.other e)

theorem prints_calls {σ L : Type} [Src σ] {us : List PoUnit} {e : Option Err} {r r' : Reader σ L} (h : Calls r ((results us e).map some ++ [none]) r') :
    Prints r (listing us) (outcome e) := by
  induction us generalizing r with
  | nil =>
    cases e with
    | none => cases h with | cons h _ => exact .done h
    | some e => cases h with | cons h _ => exact .error h
  | cons u us ih =>
    cases h with
    | cons h h2 =>
      have := Prints.unit h (ih h2)
      rwa [show listing (u :: us) = c!" - " ++ u.message.getId ++ ['\n'] ++ listing us from rfl]

theorem Prints.unique {σ L : Type} [Src σ] {r : Reader σ L} {o o' : Str} {res res' : Except StdIo Unit} (h : Prints r o res) (h' : Prints r o' res') :
    o = o' ∧ res = res' := by
  induction h generalizing o' with
  | done h =>
    cases h' with
    | done h' => exact ⟨rfl, rfl⟩
    | unit h' => rw [h] at h'; cases h'
    | error h' => rw [h] at h'; cases h'
  | unit h _ ih =>
    cases h' with
    | done h' => rw [h] at h'; cases h'
    | unit h' g =>
      rw [h] at h'
      cases h'
      obtain ⟨rfl, rfl⟩ := ih g
      exact ⟨rfl, rfl⟩
    | error h' => rw [h] at h'; cases h'
  | error h =>
    cases h' with
    | done h' => rw [h] at h'; cases h'
    | unit h' => rw [h] at h'; cases h'
    | error h' => rw [h] at h'; cases h'; exact ⟨rfl, rfl⟩

theorem range_results (xs : List (Except Err PoUnit)) : (List.range (xs.length + 1)).map (fun i => xs[i]?) = xs.map some ++ [none] := by
  apply List.ext_getElem?
  intro i
  by_cases h : i < xs.length
  · rw [List.getElem?_map, List.getElem?_range (by omega), List.getElem?_append_left (by simpa using h), List.getElem?_map, List.getElem?_eq_getElem h]
    simp [List.getElem?_eq_getElem h]
  · by_cases h' : i = xs.length
    · subst h'
      rw [List.getElem?_map, List.getElem?_range (by omega), List.getElem?_append_right (by simp)]
      simp
    · rw [List.getElem?_eq_none (by simp; omega), List.getElem?_eq_none (by simp; omega)]

variable {env : Env} {stream : List Event}

/-- **C61** The program ends, with one output and one result. -/
theorem C61_ends (env : Env) (stream : List Event) : ∃ out res, Program env stream out res ∧ ∀ out' res', Program env stream out' res' → out' = out ∧ res' = res := by
  have key : ∃ out res, Program env stream out res := by
    rcases parse_spec env stream with ⟨e, h, _⟩ | ⟨hdr, forms, us, e, h, _⟩
    · exact ⟨_, _, .error h⟩
    · obtain ⟨q, h1, _, h2⟩ := yields_calls h
      obtain ⟨q', h3⟩ := h2 ((results us e).length + 1)
      rw [range_results] at h3
      exact ⟨_, _, .loop h1 (prints_calls h3)⟩
  obtain ⟨out, res, h⟩ := key
  refine ⟨out, res, h, fun out' res' h' => ?_⟩
  cases h with
  | error h1 =>
    cases h' with
    | error h2 => rw [h1] at h2; cases h2; exact ⟨rfl, rfl⟩
    | loop h2 => rw [h1] at h2; cases h2
  | loop h1 g =>
    cases h' with
    | error h2 => rw [h1] at h2; cases h2
    | loop h2 g' => rw [h1] at h2; cases h2; exact g'.unique g

/-- **C61** For a file that `parse()` accepts, it prints the ids of the units before the first error, in the order of the file, one after ` - ` on a line each; its
result is this error, or success if there is none. -/
theorem C61_output {hdr : Header env.Lang} {us : List PoUnit} {e : Option Err} (h : Yields (parse env stream) hdr (results us e)) (out : Str) (res : Except StdIo Unit) :
    Program env stream out res ↔ out = listing us ∧ res = outcome e := by
  have key : Program env stream (listing us) (outcome e) := by
    obtain ⟨q, h1, _, h2⟩ := yields_calls h
    obtain ⟨q', h3⟩ := h2 ((results us e).length + 1)
    rw [range_results] at h3
    exact .loop h1 (prints_calls h3)
  constructor
  · intro h'
    obtain ⟨o, r, _, h2⟩ := C61_ends env stream
    obtain ⟨e1, e2⟩ := h2 _ _ key
    obtain ⟨e3, e4⟩ := h2 _ _ h'
    exact ⟨e3.trans e1.symm, e4.trans e2.symm⟩
  · rintro ⟨rfl, rfl⟩
    exact key

/-- **C61** For a file that `parse()` refuses, nothing is printed and the result is the error. -/
theorem C61_refused {e : Err} (h : Fails (parse env stream) e) (out : Str) (res : Except StdIo Unit) :
    Program env stream out res ↔ out = [] ∧ res = .error (.other e) := by
  constructor
  · intro h'
    cases h' with
    | error h2 => rw [show parse env stream = .err e from h] at h2; cases h2; exact ⟨rfl, rfl⟩
    | loop h2 => rw [show parse env stream = .err e from h] at h2; cases h2
  · rintro ⟨rfl, rfl⟩
    exact .error h

/-- **C61** The conversion to an I/O error loses nothing: the error is found inside, its text is the same, and the I/O error behind it is the same. -/
theorem C61_convert (io : IoErr → Str) (e : Err) : e.toIo.getRef = some e ∧ e.toIo.display io = e.display io ∧ e.toIo.source = e.source ∧
    ∀ e', e'.toIo = e.toIo → e' = e := ⟨rfl, rfl, rfl, fun _ h => by cases h; rfl⟩

/-- **C61** The whole program: without an argument it says so and succeeds; if the file cannot be opened it prints nothing and its result is the error of the system; else it
does what was said for the bytes of the file, whatever the other arguments and files. -/
theorem C61_main (env : Env) (files : Str → Except IoErr (List Event)) (prog : Str) (args : List Str) (out err : Str) (res : Except StdIo Unit) :
    (Main env files [] out err res ↔ out = [] ∧ err = c!"No file specified\n" ∧ res = .ok ()) ∧
    (Main env files [prog] out err res ↔ out = [] ∧ err = c!"No file specified\n" ∧ res = .ok ()) ∧
    (∀ name e, files name = .error e → (Main env files (prog :: name :: args) out err res ↔ out = [] ∧ err = [] ∧ res = .error (.stream e))) ∧
    ∀ name stream, files name = .ok stream → (Main env files (prog :: name :: args) out err res ↔ err = [] ∧ Program env stream out res) := by
  refine ⟨⟨fun h => ?_, ?_⟩, ⟨fun h => ?_, ?_⟩, fun name e he => ⟨fun h => ?_, ?_⟩, fun name stream hs => ⟨fun h => ?_, ?_⟩⟩
  · cases h with
    | noName h => exact ⟨rfl, rfl, rfl⟩
    | noFile h _ => cases h
    | file h _ _ => cases h
  · rintro ⟨rfl, rfl, rfl⟩; exact .noName rfl
  · cases h with
    | noName h => exact ⟨rfl, rfl, rfl⟩
    | noFile h _ => cases h
    | file h _ _ => cases h
  · rintro ⟨rfl, rfl, rfl⟩; exact .noName rfl
  · cases h with
    | noName h => cases h
    | noFile h h2 => cases h; rw [he] at h2; cases h2; exact ⟨rfl, rfl, rfl⟩
    | file h h2 _ => cases h; rw [he] at h2; cases h2
  · rintro ⟨rfl, rfl, rfl⟩; exact .noFile rfl he
  · cases h with
    | noName h => cases h
    | noFile h h2 => cases h; rw [hs] at h2; cases h2
    | file h h2 h3 => cases h; rw [hs] at h2; cases h2; exact ⟨rfl, h3⟩
  · rintro ⟨rfl, h⟩; exact .file rfl hs h

/-- **C61** What the caller of the program can tell from an error: it has an error of this crate inside exactly if the file could be opened, and an I/O error behind it exactly if
reading failed. -/
theorem C61_tells {files : Str → Except IoErr (List Event)} {prog name : Str} {args : List Str} {out err : Str} {x : StdIo}
    (h : Main env files (prog :: name :: args) out err (.error x)) :
    (x.getRef = none ↔ ∃ e, files name = .error e) ∧ ∀ e, x.source = some e ↔ ∃ n, x.getRef = some (.io n e) := by
  have key : ∀ {stream : List Event}, Program env stream out (.error x) → ∃ e, x = .other e := by
    intro stream hp
    rcases parse_spec env stream with ⟨e, h, _⟩ | ⟨hdr, forms, us, e, h, _⟩
    · obtain ⟨_, hx⟩ := (C61_refused (show Fails (parse env stream) e from h) _ _).mp hp
      cases hx; exact ⟨_, rfl⟩
    · obtain ⟨_, hx⟩ := (C61_output h _ _).mp hp
      cases e with
      | none => cases hx
      | some e => cases hx; exact ⟨_, rfl⟩
  cases h with
  | noFile h h2 =>
    cases h
    exact ⟨⟨fun _ => ⟨_, h2⟩, fun _ => rfl⟩, fun e => ⟨fun h => by simp [StdIo.source] at h, fun ⟨n, h⟩ => by simp [StdIo.getRef] at h⟩⟩
  | file h h2 h3 =>
    cases h
    obtain ⟨e, rfl⟩ := key h3
    refine ⟨⟨fun h => by simp [StdIo.getRef] at h, fun ⟨e, he⟩ => by rw [h2] at he; cases he⟩, fun e' => ?_⟩
    cases e <;> simp [StdIo.source, StdIo.getRef, Err.source]

-- the demo catalogue
example : Main demoEnv (fun n => if n = c!"rich.po" then .ok (textStream richLines) else .error (.os 2)) [c!"prog", c!"rich.po", c!"other.po"]
    (c!" - one\n - gone\n") [] (.ok ()) :=
  ((C61_main demoEnv _ _ _ _ _ _).2.2.2 _ _ rfl).mpr ⟨rfl, (C61_output rich_yields _ _).mpr ⟨rfl, rfl⟩⟩
example : Program demoEnv (textStream richLines) (c!" - one\n - gone\n") (.ok ()) := (C61_output rich_yields _ _).mpr ⟨rfl, rfl⟩
set_option maxRecDepth 100000 in
example : Program demoEnv (textStream [c!"msgid \"a\"", c!"msgstr \"b\"", c!"", c!"msgid \"c\"", c!"msgid \"d\""]) (c!" - a\n")
    (.error (.other (.parse 5 (c!"") (c!"msgstr")))) :=
  (C61_output (us := [unitAB (c!"a") (c!"b")]) (e := some _) (yields_text (res := ⟨noHeader demoEnv, none, [unitAB (c!"a") (c!"b")], some (.parse 5 (c!"") (c!"msgstr"))⟩)
    (by decide) (by rfl)) _ _).mpr ⟨rfl, rfl⟩

-- `C61_tells`: a file that cannot be opened, and one with a bad line
example := C61_tells (((C61_main demoEnv (fun _ => .error (.os 2)) (c!"prog") [] [] [] (.error (.stream (.os 2)))).2.2.1 (c!"x.po") _ rfl).mpr ⟨rfl, rfl, rfl⟩)
example := C61_tells (((C61_main demoEnv (fun _ => .ok (textStream [c!"garbage"])) (c!"prog") [] [] [] (.error (.other (.parse 2 (c!"garbage") [])))).2.2.2 (c!"x.po") _ rfl).mpr
  ⟨rfl, (C61_refused (fails_text (by decide) (by rfl)) _ _).mpr ⟨rfl, rfl⟩⟩)

end Verif
