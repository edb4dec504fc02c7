import Mathlib.Data.List.Sort
import Mathlib.Analysis.Real.Pi.Bounds
import Mathlib.Analysis.SpecialFunctions.Sqrt
import Verif.Basic
import Verif.FindSrc.Types
/-
Model of gtfindsrc, src/gtfindsrc/gtfindsrc.cxx.

The other sources of the model (type `B`), spectra (`S`), the log-likelihood, the optimizer
and the sky are arbitrary.  The simplex method (optimizers::Amoeba) is not modelled: the
points it asks for are an arbitrary list.  `sep` is `SkyDir::difference`, in radians;
`place` gives the right ascension and declination of a point, `SkyDir(ra, dec)` or
`SkyDir(l, b, GALACTIC)`.
-/
namespace Verif.FindSrc

open Verif

variable {B S : Type}

/-- What does not change during a run. -/
structure Setup (B S : Type) where
  fit : Tol → B → ℝ × ℝ → S → Option (B × S)
  logLike : B → ℝ × ℝ → S → ℝ
  sep : ℝ × ℝ → ℝ × ℝ → ℝ
  cel : ℝ × ℝ → ℝ × ℝ
  gal : ℝ × ℝ → ℝ × ℝ
  offset : ℝ

/-- The state of `LikeFunc`: the other sources, the spectrum of the source in the model and
`m_testPoints`. -/
structure St (B S : Type) where
  others : B
  spec : S
  points : List Pt

/-- The direction of the source, gtfindsrc.cxx:246-250. -/
def place (e : Setup B S) (o : Opts) (c : ℝ × ℝ) : ℝ × ℝ := if o.gal then e.gal c else e.cel c

/-- The fit, gtfindsrc.cxx:252-254.  The source that is added is a clone of the test source, so
that the fit starts with the spectrum of the latter.  The kind of tolerance is the default of
the constructor, as it is not given at gtfindsrc.cxx:341-342. -/
def refit (e : Setup B S) (o : Opts) (s₀ : S) (b : B) (p : ℝ × ℝ) : Res (B × S) :=
  if o.reopt then
    match e.fit .abs b p s₀ with
    | some r => .ok r
    | none => .throws
  else .ok (b, s₀)

/-- Whether the last two points are closer than the accuracy, gtfindsrc.cxx:266-270. -/
noncomputable def close (e : Setup B S) (o : Opts) (ps : List Pt) : Bool :=
  open Classical in
  match ps.reverse with
  | q :: p :: _ :: _ => decide (e.sep p.at' q.at' * 180 / Real.pi < o.accuracy)
  | _ => false

/-- `LikeFunc::operator()`, gtfindsrc.cxx:244-272. -/
noncomputable def eval (e : Setup B S) (o : Opts) (s₀ : S) (st : St B S) (c : ℝ × ℝ) :
    Res (St B S) := do
  let r ← refit e o s₀ st.others (place e o c)
  .ok ⟨r.1, r.2, st.points ++ [⟨c, -e.logLike r.1 (place e o c) r.2 - e.offset + 1⟩]⟩

/-- `findMin`, gtfindsrc.cxx:354-358: the points are tried until the exception of
gtfindsrc.cxx:269. -/
noncomputable def search (e : Setup B S) (o : Opts) (s₀ : S) : List (ℝ × ℝ) → St B S → Res (St B S)
  | [], st => .ok st
  | c :: cs, st => do
    let st' ← eval e o s₀ st c
    if close e o st'.points then .ok st' else search e o s₀ cs st'

/-- `compare` of `sortPoints`, with equal values in the order in which they were tried:
gtfindsrc.cxx:277-279, 306-309. -/
def Above (x y : Pt) : Prop := y.value ≤ x.value

open Classical in
/-- `sortPoints`, gtfindsrc.cxx:277-279: `std::stable_sort`, from highest to lowest. -/
noncomputable def sortPoints (ps : List Pt) : List Pt := ps.insertionSort Above

/-- The points with values close to the lowest, gtfindsrc.cxx:419-430: squared separations and
values. -/
noncomputable def nearby (e : Setup B S) (p : Pt) (ps : List Pt) : List (ℝ × ℝ) :=
  open Classical in
  (ps.filter (fun z => decide (z.value < p.value + 2))).map
    (fun z => (e.sep p.at' z.at' * e.sep p.at' z.at', z.value))

/-- The sums of gtfindsrc.cxx:424-428. -/
def sumBy (f : ℝ × ℝ → ℝ) (l : List (ℝ × ℝ)) : ℝ := l.foldl (fun a z => a + f z) 0

/-- `errEst`, gtfindsrc.cxx:409-439; `p` is the last point. -/
noncomputable def errEst (e : Setup B S) (p : Pt) (ps : List Pt) : Res ℝ :=
  let l := nearby e p ps
  let num := (l.length : ℝ) * sumBy (fun z => z.1 * z.2) l - sumBy (fun z => z.2) l * sumBy (fun z => z.1) l
  let den := (l.length : ℝ) * sumBy (fun z => z.1 * z.1) l - sumBy (fun z => z.1) l * sumBy (fun z => z.1) l
  open Classical in
  if den = 0 ∨ num = 0 ∨ num / den ≤ 0 then .throws
  else .ok (180 / Real.pi / Real.sqrt (2 * (num / den)) * 1.51)

/-- The radius that is reported: zero after an exception, gtfindsrc.cxx:365-370. -/
noncomputable def radius (e : Setup B S) (p : Pt) (ps : List Pt) : ℝ :=
  match errEst e p ps with
  | .ok r => r
  | _ => 0

/-- `setParam` of RA and DEC, gtfindsrc.cxx:403-404, with the bounds of
SkyDirFunction.cxx:32, 35; `Parameter::setValue` throws outside. -/
noncomputable def setPosition (c : ℝ × ℝ) : Res (ℝ × ℝ) :=
  open Classical in
  if (-360 ≤ c.1 ∧ c.1 ≤ 360) ∧ (-90 ≤ c.2 ∧ c.2 ≤ 90) then .ok c else .throws

/-- The source in the model at the end, gtfindsrc.cxx:360-362, 400-405. -/
noncomputable def finish (o : Opts) (c : ℝ × ℝ) (s : S) : Res (Option ((ℝ × ℝ) × S)) :=
  if o.target then do
    let p ← setPosition c
    .ok (some (p, s))
  else .ok none

/-- The results for the points tried, gtfindsrc.cxx:360-406. -/
noncomputable def report (e : Setup B S) (o : Opts) (st : St B S) : Res (Out B S) :=
  match (sortPoints st.points).getLast? with
  | none => .ub
  | some p => do
    let src ← finish o p.at' st.spec
    .ok ⟨sortPoints st.points, radius e p (sortPoints st.points), p.at',
      p.value + e.offset - 1, st.others, src⟩

/-- `fitPosition`, gtfindsrc.cxx:319-407, for the other sources `b`, the spectrum `s₀` of the
test source and the points that the simplex method asks for. -/
noncomputable def fitPosition (e : Setup B S) (o : Opts) (b : B) (s₀ : S) (cs : List (ℝ × ℝ)) :
    Res (Out B S) := do
  let st ← search e o s₀ cs ⟨b, s₀, []⟩
  report e o st

end Verif.FindSrc
