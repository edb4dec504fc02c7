import Verif.SrcMap.Types2
/-
The parameters a source has, and had when they were latched.
-/
namespace Verif.SrcMap.Spectrum.Spec

/-- The parameters the source has after some events. -/
def current (v : List ℝ) : List Op → List ℝ
  | [] => v
  | .setPars u :: os => current u os
  | _ :: os => current v os

/-- The parameters change at no point of the history. -/
def Constant (ops : List Op) : Prop := ∀ v, Op.setPars v ∉ ops

/-- The parameters of the source at the last point of the history where they were latched
(`setValues true` always, `specVals` when it was forced). -/
def latched (l v : List ℝ) : List Op → List ℝ
  | [] => l
  | .setPars u :: os => latched l u os
  | .setValues true :: os => latched v v os
  | .specVals true true :: os => latched v v os
  | _ :: os => latched l v os

end Verif.SrcMap.Spectrum.Spec
