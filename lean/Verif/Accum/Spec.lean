import Verif.Accum.Model
/- Specification: plain sums of the values since the last `total`. -/
namespace Verif.Accum

/-- The value of each `total` call: the sum of the values added since the previous
`total` (`cur` is the sum so far). -/
noncomputable def sums : ℝ → List Call → List ℝ
  | _, [] => []
  | cur, .add v :: cs => sums (cur + v) cs
  | cur, .total :: cs => cur :: sums 0 cs

/-- The first value ever added is zero. -/
def FirstAddZero : List Call → Prop
  | [] => False
  | .add v :: _ => v = 0
  | .total :: cs => FirstAddZero cs

end Verif.Accum
