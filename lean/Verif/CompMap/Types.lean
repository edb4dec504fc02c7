import Verif.AddMap.Model
import Mathlib.Data.Real.Basic

/-!
# Source maps of composite sources: types
-/

namespace Verif.CompMap

/-- A source of a composite source: one the source map of which exists, or a composite source the
map of which is yet to be made.  The latter has a number of additional energies at either end
(`config.edisp_bins()` if it uses energy dispersion, otherwise none) and the values of its spectrum
at the energies of its map. -/
inductive Src
  | leaf (s : AddMap.SMap ℝ)
  | comp (bins : ℕ) (spec : List ℝ) (parts : List Src)

end Verif.CompMap
