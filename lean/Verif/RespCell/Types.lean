import Mathlib.Data.Real.Basic
/-
Sources at one event, as the model and the specification of the cached response see them.
-/
namespace Verif.RespCell

/-- A source at one event.  `point`: the value of the spectrum, the response of the instrument for the direction
of this source, the derivative of the spectrum by the parameter asked for, and the value of that parameter when
its name is "Prefactor".  `diffuse`: the flux density and its derivative, which come from the event.
`comp`: the value of its own spectrum, and its parts in the order of their names. -/
inductive Src where
  | point (spec resp dspec : ℝ) (pf : Option ℝ)
  | diffuse (dens ddens : ℝ)
  | comp (spec : ℝ) (parts : List Src)

/-- What is passed for the cached response: no pointer, or a cell, which may be empty. -/
abbrev Cell := Option (Option ℝ)

end Verif.RespCell
