import Verif.RespCell.Types
/-
`fluxDensity` and `fluxDensityDeriv` of point, diffuse and composite sources, with the cell of the cached
response that is passed to them.

Simplifications.  The sums of `Kahan_Accumulator` are exact.  Energy dispersion is not used.  The event is fixed;
the exceptions for unknown parameters are in Verif.Merge and Verif.PixResp.
-/
namespace Verif.RespCell

/-- The response used, and the cell afterwards: PointSource.cxx:106-117, 130-140, 188-199. -/
def respond (resp : ℝ) : Cell → ℝ × Cell
  | none => (resp, none)
  | some (some r) => (r, some (some r))
  | some none => (resp, some (some resp))

mutual
/-- `fluxDensity`: PointSource.cxx:76-119 and 121-142, DiffuseSource.cxx:132-157, CompositeSource.cxx:88-100 and
102-116: the cell is passed on to every part. -/
def flux : Src → Cell → ℝ × Cell
  | .point spec resp _ _, c => (spec * (respond resp c).1, (respond resp c).2)
  | .diffuse d _, c => (d, c)
  | .comp spec parts, c => ((fluxes parts c).1 * spec, (fluxes parts c).2)
/-- The loop over the parts, CompositeSource.cxx:93-96 and 109-112. -/
def fluxes : List Src → Cell → ℝ × Cell
  | [], c => (0, c)
  | s :: l, c =>
    let (v, c1) := flux s c
    let (w, c2) := fluxes l c1
    (v + w, c2)
end

/-- `fluxDensityDeriv` of a point source, PointSource.cxx:154-204: for "Prefactor" the flux density divided by the
value, unless that is zero. -/
noncomputable def pointDeriv (spec resp dspec : ℝ) (pf : Option ℝ) (c : Cell) : ℝ × Cell :=
  match pf with
  | some p =>
    if p = 0 then ((respond resp c).1 * dspec, (respond resp c).2)
    else (spec * (respond resp c).1 / p, (respond resp c).2)
  | none => ((respond resp c).1 * dspec, (respond resp c).2)

mutual
/-- `fluxDensityDeriv`: PointSource.cxx:154-204, DiffuseSource.cxx:159-196, CompositeSource.cxx:118-135 and
137-156. -/
noncomputable def fluxDeriv : Src → Cell → ℝ × Cell
  | .point spec resp dspec pf, c => pointDeriv spec resp dspec pf c
  | .diffuse _ d, c => (d, c)
  | .comp spec parts, c =>
    let (pos, neg, c1) := fluxDerivs parts c
    ((pos - neg) * spec, c1)
/-- The loop over the parts, CompositeSource.cxx:125-131 and 146-152: the sums of the positive and of the
negative derivatives. -/
noncomputable def fluxDerivs : List Src → Cell → ℝ × ℝ × Cell
  | [], c => (0, 0, c)
  | s :: l, c =>
    let (v, c1) := fluxDeriv s c
    let (p, n, c2) := fluxDerivs l c1
    if 0 < v then (v + p, n, c2) else (p, -v + n, c2)
end

/-- One call with the cell of the source: the flux density or a derivative, with the spectrum of the moment. -/
inductive Call where
  | density (spec : ℝ)
  | deriv (spec dspec : ℝ) (pf : Option ℝ)

/-- Calls for a point source one after the other, all with the same cell (LogLike.cxx:131-140, 190-199). -/
noncomputable def calls (resp : ℝ) : List Call → Cell → List ℝ × Cell
  | [], c => ([], c)
  | .density spec :: l, c =>
    let (v, c1) := flux (.point spec resp 0 none) c
    let (vs, c2) := calls resp l c1
    (v :: vs, c2)
  | .deriv spec dspec pf :: l, c =>
    let (v, c1) := fluxDeriv (.point spec resp dspec pf) c
    let (vs, c2) := calls resp l c1
    (v :: vs, c2)

end Verif.RespCell
