/-
Event files as `gtdiffrsp` looks at them before it computes responses.
-/
namespace Verif.DiffHdr

/-- Names are character strings. -/
abbrev Name := List Char

/-- The name of a column: a word, or `DIFRSP` with a number. -/
inductive Col where
  | word (n : Name)
  | difrsp (i : Nat)
  deriving DecidableEq

/-- An event file: the keywords `PASS_VER` and `NDIFRSP` if they are there, the keywords
`DIFRSP<i>`, and the columns in their order (`β`: what is in a column). -/
structure File (β : Type) where
  pass : Option Name
  ndif : Option Nat
  label : Nat → Option Name
  cols : List (Col × β)

end Verif.DiffHdr
