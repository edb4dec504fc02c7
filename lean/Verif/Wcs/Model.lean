import Verif.Basic
import Mathlib.Algebra.Order.Floor.Ring
import Mathlib.Algebra.Order.Archimedean.Real.Basic
import Mathlib.Analysis.SpecialFunctions.Pow.Real
/-
Values of a map of the sky, src/WcsMap2.cxx and src/ProjMap.cxx.

Numbers are reals; a position is the result of the projection, pixel coordinates that start
at one, or `none` if the projection throws.  The image is `image[k][j][i]`, energy plane, row
and column.
-/
namespace Verif.Wcs

/-- What is used of a map. -/
structure Map where
  periodic : Bool
  interp : Bool
  enforce : Bool
  naxes : Nat
  n1 : Nat
  n2 : Nat
  image : List (List (List ℝ))
  energies : List ℝ

/-- `static_cast<int>` of a floating point number: towards zero. -/
noncomputable def trunc (x : ℝ) : ℤ := if 0 ≤ x then ⌊x⌋ else ⌈x⌉

/-- `my_round`, WcsMap2.cxx:58-64. -/
noncomputable def myRound (x : ℝ) : ℤ :=
  let xint := trunc x
  if 0.5 ≤ x - xint then xint + 1 else xint

/-- `std::fmod`. -/
noncomputable def fmod (x n : ℝ) : ℝ := x - n * trunc (x / n)

/-- `m_image[k].at(j).at(i)`: `operator[]` outside is undefined, `at` throws; a negative index
becomes a huge one. -/
def Map.at (m : Map) (k : Nat) (j i : ℤ) : Res ℝ :=
  match m.image[k]? with
  | none => .ub
  | some plane =>
    if j < 0 then .throws
    else match plane[j.toNat]? with
      | none => .throws
      | some row =>
        if i < 0 then .throws
        else match row[i.toNat]? with
          | none => .throws
          | some v => .ok v

/-- `m_image[k].at(j).back()`. -/
def Map.back (m : Map) (k : Nat) (j : ℤ) : Res ℝ :=
  match m.image[k]? with
  | none => .ub
  | some plane =>
    if j < 0 then .throws
    else match plane[j.toNat]? with
      | none => .throws
      | some row =>
        match row.getLast? with
        | none => .ub
        | some v => .ok v

/-- `check_energy_index`, ProjMap.cxx:168-173. -/
def Map.checkIndex (m : Map) (k : Nat) : Res Unit :=
  if m.energies.length < k then .throws else .ok ()

/-- `pixelValue`, WcsMap2.cxx:819-834. -/
noncomputable def Map.pixelValue (m : Map) (x y : ℝ) (k : Nat) : Res ℝ := do
  m.checkIndex k
  let ix := myRound x - 1
  let iy := myRound y - 1
  if (!m.periodic && (decide (ix < 0) || decide ((m.n1 : ℤ) ≤ ix))) || decide (iy < 0) || decide ((m.n2 : ℤ) ≤ iy) then
    .ok 0
  else
    let ix := if ix < 0 ∧ -1 ≤ ix then 0 else ix
    m.at k iy ix

/-- The part of `operator()` with the four neighbours, WcsMap2.cxx:521-540. -/
noncomputable def Map.bilinear (m : Map) (x y : ℝ) (k : Nat) : Res ℝ := do
  let ix := trunc x
  let iy := trunc y
  let tt := x - ix
  let uu := y - iy
  let y1 ← if m.periodic && decide (ix = 0) then m.back k (iy - 1) else m.at k (iy - 1) (ix - 1)
  let y4 ← if m.periodic && decide (ix = 0) then m.back k iy else m.at k iy (ix - 1)
  let y2 ← m.at k (iy - 1) ix
  let y3 ← m.at k iy ix
  .ok ((1 - tt) * (1 - uu) * y1 + tt * (1 - uu) * y2 + tt * uu * y3 + (1 - tt) * uu * y4)

open Classical in
/-- `operator()(dir, k)`, WcsMap2.cxx:477-541. -/
noncomputable def Map.plane (m : Map) (p : Option (ℝ × ℝ)) (k : Nat) : Res ℝ := do
  m.checkIndex k
  match p with
  | none => .ok 0
  | some (x, y) =>
    let x := if m.periodic then fmod x m.n1 else x
    if (!m.periodic && (decide (x < 0.5) || decide ((m.n1 : ℝ) + 0.5 < x))) || decide (y < 0.5) ||
        decide ((m.n2 : ℝ) + 0.5 < y) then
      .ok 0
    else if !m.interp then m.pixelValue x y k
    else if !m.periodic && (decide (trunc x < 1) || decide ((m.n1 : ℤ) ≤ trunc x)) then m.pixelValue x y k
    else if decide (trunc y < 1) || decide ((m.n2 : ℤ) ≤ trunc y) then m.pixelValue x y k
    else m.bilinear x y k

open Classical in
/-- `insideMap`, WcsMap2.cxx:837-850; a projection that throws is passed on. -/
noncomputable def Map.inside (m : Map) (p : Option (ℝ × ℝ)) : Res Bool :=
  match p with
  | none => .throws
  | some (x, y) =>
    .ok (!((!m.periodic && (decide (x < 0.5) || decide ((m.n1 : ℝ) + 0.5 < x))) || decide (y < 0.5) ||
      decide ((m.n2 : ℝ) + 0.5 < y)))

/-- `ProjMap::interpolatePowerLaw`, ProjMap.cxx:184-226.  Where the program divides by zero the
result is `ub`. -/
noncomputable def powerLaw (x x1 x2 y1 y2 : ℝ) : Res ℝ :=
  if y1 = 0 ∧ y2 = 0 then .ok 0
  else if y1 = 0 ∨ y2 = 0 then
    if (x < x1 ∧ y1 = 0) ∨ (x2 < x ∧ y2 = 0) then .ok 0
    else if x2 - x1 = 0 then .ub
    else .ok ((x - x1) / (x2 - x1) * (y2 - y1) + y1)
  else if x1 ≤ 0 ∨ x2 ≤ 0 ∨ y1 ≤ 0 ∨ y2 ≤ 0 then .throws
  else if Real.log (x2 / x1) = 0 then .ub
  else .ok (y1 * (x / x1) ^ (Real.log (y2 / y1) / Real.log (x2 / x1)))

/-- `check_energy`, ProjMap.cxx:175-180. -/
noncomputable def Map.checkEnergy (m : Map) (e : ℝ) : Res Unit :=
  match m.energies.head?, m.energies.getLast? with
  | some f, some b => if m.enforce ∧ (e < f ∨ b < e) then .throws else .ok ()
  | _, _ => if m.enforce then .ub else .ok ()

/-- The energy plane of `operator()(dir, energy)`, WcsMap2.cxx:548-563; the count of
extrapolations is left out. -/
noncomputable def Map.energyIndex (m : Map) (e : ℝ) : Nat :=
  if m.naxes = 3 ∧ 1 < m.energies.length then
    let u := open Classical in m.energies.findIdx (fun b => decide (e < b))
    let k := u - 1
    if m.energies.length - 2 < k then m.energies.length - 2 else k
  else 0

/-- `operator()(dir, energy)`, WcsMap2.cxx:543-573, for the values of the planes at the
direction. -/
noncomputable def Map.value (m : Map) (p : Option (ℝ × ℝ)) (energy : ℝ) : Res ℝ :=
  match m.energies.head? with
  | none => .ub
  | some front => do
    let e := if energy < 0 then front else energy
    m.checkEnergy e
    let k := m.energyIndex e
    let y1 ← m.plane p k
    match m.energies[k]? with
    | none => .ub
    | some ek =>
      if e = ek then .ok y1
      else do
        let y2 ← m.plane p (k + 1)
        match m.energies[k + 1]? with
        | none => .ub
        | some ek1 => powerLaw e ek ek1 y1 y2

end Verif.Wcs
