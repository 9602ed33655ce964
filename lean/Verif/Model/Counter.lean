import Verif.Model.Reader

/-! The line counter of src/po/line_iter.rs with `w` bits.

In `Model/Input` the counter `n` is a natural number.  Here it is a `usize` of `w` bits: `self.n += 1` (src/po/line_iter.rs:43) wraps in a release build.  In a
debug build it panics instead; `over` tells whether this has happened. -/

namespace Verif

/-- `LineIter`, src/po/line_iter.rs:5-9, with a counter of `w` bits. -/
structure CountIter (w : Nat) where
  n : Nat
  inner : Option BufSt
  over : Bool

/-- `LineIter::new`, src/po/line_iter.rs:12-18. -/
def CountIter.new (w : Nat) (events : List Event) (later : List (List Event)) : CountIter w := ⟨1, some ⟨[], events, later⟩, false⟩

/-- `LineIter::next`, src/po/line_iter.rs:24-55. -/
def CountIter.next {w : Nat} (it : CountIter w) : Option Item × CountIter w :=
  match _hi : it.inner with
  | none => (none, it)
  | some st =>
    match _h : linesNext st with
    | (none, st') => (none, { it with inner := some st' })
    | (some (.error e), _) => (some (.error (.io it.n e)), { it with inner := none })
    | (some (.ok line), st') =>
      let n := (it.n + 1) % 2 ^ w
      let over := it.over || decide (it.n + 1 = 2 ^ w)
      match parseLine line it.n with
      | some .blank => CountIter.next ⟨n, some st', over⟩
      | some p => (some (.ok p), ⟨n, some st', over⟩)
      | none => (some (.error (.parse n line [])), ⟨n, none, over⟩)
termination_by (it.inner.map BufSt.size).getD 0
decreasing_by
  rw [_hi]; exact linesNext_size _h

/-- `std::iter::Peekable`, as in `Model/Input`. -/
structure CountPeekable (w : Nat) where
  iter : CountIter w
  peeked : Option (Option Item)

/-- `Peekable::peek`. -/
def CountPeekable.peek {w : Nat} (p : CountPeekable w) : Option Item × CountPeekable w :=
  match p.peeked with
  | some v => (v, p)
  | none => ((p.iter.next).1, ⟨(p.iter.next).2, some (p.iter.next).1⟩)

/-- `Peekable::next`. -/
def CountPeekable.next {w : Nat} (p : CountPeekable w) : Option Item × CountPeekable w :=
  match p.peeked with
  | some v => (v, ⟨p.iter, none⟩)
  | none => ((p.iter.next).1, ⟨(p.iter.next).2, none⟩)

instance {w : Nat} : Src (CountPeekable w) where
  peek := CountPeekable.peek
  next := CountPeekable.next
  bound p := (p.iter.inner.map BufSt.size).getD 0 + (match p.peeked with | some (some _) => 1 | _ => 0)

/-- `PoParser::parse`, src/po/parser.rs:35-37, with a line counter of `w` bits. -/
def parseCount (w : Nat) (env : Env) (stream : List Event) (later : List (List Event)) : Out (Reader (CountPeekable w) env.Lang) :=
  Reader.new env ⟨.new w stream later, none⟩

end Verif
