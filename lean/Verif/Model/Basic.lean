/-!
Text and literals.

A Rust `String`/`&str` is a sequence of Unicode scalar values; the model uses `List Char` (Lean's `Char` is exactly a Unicode
scalar value).  `c!"abc"` is the list `['a', 'b', 'c']`.
-/

namespace Verif

/-- Rust `String` / `&str`: a sequence of Unicode scalar values. -/
abbrev Str := List Char

/-- `c!"abc"` elaborates to `['a', 'b', 'c']`, so that literals compute in the kernel without UTF-8 decoding. -/
syntax:max "c!" str : term

macro_rules
  | `(c! $s:str) => do
    let elems := s.getString.toList.toArray.map Lean.Syntax.mkCharLit
    `(([$elems,*] : List Char))

end Verif
