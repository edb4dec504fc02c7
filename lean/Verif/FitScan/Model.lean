import Verif.FitUtils.Model
/-
The selection of energy bins in the fit cache, FitScanner.cxx.
-/
namespace Verif.FitScan
open Verif.FitUtils

/-- The part of `FitScanCache` that deals with energy bins. -/
structure Cache where
  /-- `m_data` -/
  data : List ℝ
  /-- `m_modelWrapper.nPixels(i)`, one per energy bin -/
  npix : List Nat
  /-- `m_useReduced` -/
  useReduced : Bool
  /-- `m_energyBinStopIdxs` -/
  stops : List Nat
  /-- `m_nonZeroBins` -/
  nonZero : List Int
  /-- `m_dataRed` -/
  dataRed : List ℝ
  /-- `m_firstBin` -/
  firstBin : Nat
  /-- `m_lastBin` -/
  lastBin : Nat

/-- Loop body of `setEnergyBinStopIdxs`, FitScanner.cxx:1694-1697; state: `sum` and the vector. -/
def stopsBody (npix : List Nat) (i : Nat) (s : Nat × List Nat) : Res (Nat × List Nat) := do
  let n ← vget npix i
  let sum := s.1 + n
  let v ← vset s.2 (i + 1) sum
  .ok (sum, v)

/-- `setEnergyBinStopIdxs`, FitScanner.cxx:1690-1699; `old` is the vector before. -/
def setEnergyBinStopIdxs (npix old : List Nat) : Res (List Nat) := do
  let v := vresize old (npix.length + 1) 0
  let v ← vset v 0 0
  let s ← loop (stopsBody npix) 0 npix.length (0, v)
  .ok s.2

/-- `reduceModels`, the part on the data, FitScanner.cxx:1639-1650. -/
noncomputable def reduceModels (c : Cache) : Res Cache :=
  if !c.useReduced then .ok c
  else do
    let e ← extractNonZeroBinsByLayer c.data c.stops
    .ok { c with stops := e.stops, nonZero := e.nonZero, dataRed := e.dataRed }

/-- The first bin, FitScanner.cxx:1174. -/
def firstIdx (c : Cache) (first : Nat) : Res Nat := if first = 0 then .ok 0 else vget c.stops (first - 1)

/-- The bin after the last one, FitScanner.cxx:1175; an index -1 is outside the vector. -/
def lastIdx (c : Cache) (last : Nat) : Res Nat := if last = 0 then .ub else vget c.stops (last - 1)

/-- `setEnergyBins`, FitScanner.cxx:1169-1183. -/
def setEnergyBins (c : Cache) (first last : Nat) : Res Cache := do
  let a ← firstIdx c first
  let b ← lastIdx c last
  .ok { c with firstBin := a, lastBin := b }

/-- `setEnergyBin`, FitScanner.cxx:1164-1167. -/
def setEnergyBin (c : Cache) (energyBin : Int) : Res Cache :=
  if energyBin < 0 then setEnergyBins c 0 c.npix.length
  else setEnergyBins c energyBin.toNat (energyBin.toNat + 1)

/-- `setCache`, the part on energy bins, FitScanner.cxx:1054-1058. -/
noncomputable def setCache (c : Cache) : Res Cache := do
  let stops ← setEnergyBinStopIdxs c.npix c.stops
  let c ← reduceModels { c with stops := stops }
  setEnergyBin c (-1)

/-- The elements of a vector from `begin() + first` to `begin() + last`, `last = 0` meaning
the end, as in FitScanner.cxx:1369-1374.  (The iterators must lie in the vector.) -/
def selected (c : Cache) (v : List ℝ) : Res (List ℝ) :=
  slice v c.firstBin (if c.lastBin = 0 then v.length else c.lastBin)

/-- The data vector used in fits, FitScanner.cxx:1341, 1369. -/
def fitData (c : Cache) : List ℝ := if c.useReduced then c.dataRed else c.data

/-- `fillModelCounts`, FitScanner.cxx:1877-1889; `redModel` is the reduced model of the
source, `start` the variable of that name. -/
def fillModelCounts (redModel : List ℝ) : Nat → List Nat → Res (List ℝ)
  | _, [] => .ok []
  | start, stop :: rest => do
    let v ← slice redModel start stop
    let l ← fillModelCounts redModel stop rest
    .ok (v.foldl (· + ·) 0 :: l)

end Verif.FitScan
