/-
Types shared by the model and the specification of the reading and writing of HEALPix counts maps.
-/
namespace Verif.HpxIo

/-- Names of columns. -/
abbrev Name := List Char

/-- The table of a map: columns in their order, each with a value for each row. -/
structure Table (β : Type) where
  nrow : Nat
  cols : List (Name × List β)

end Verif.HpxIo
