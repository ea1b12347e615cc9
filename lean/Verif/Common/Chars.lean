import Lean
/-!
Strings are modelled as lists of characters. `cs!"abc"` is notation for the list `['a', 'b', 'c']`
(a literal list is much cheaper for the kernel than `"abc".toList`).
-/
namespace Verif

/-- `cs!"abc"` is the list of the characters of the string literal. -/
macro:max "cs!" s:str : term => do
  let cs := s.getString.toList.map Lean.Syntax.mkCharLit
  `([$(cs.toArray),*])

/-- Strings as lists of characters (Rust `&str`). -/
abbrev Str := List Char

example : cs!"ab-c" = "ab-c".toList := by decide

end Verif
