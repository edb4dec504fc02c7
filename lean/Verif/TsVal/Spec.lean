import Verif.TsVal.Types
/-
Specification of the test statistics of gtlike, without reference to the code.
-/
namespace Verif.TsVal.Spec

variable {κ D : Type}

/-- Whether a source has a free parameter. -/
def HasFree (s : Src D) : Prop := ∃ p ∈ s.pars, p.free = true

/-- The parameter `q` is `p` up to its value, which is the same if it is fixed. -/
def SamePar (p q : Par) : Prop :=
  q.lo = p.lo ∧ q.hi = p.hi ∧ q.free = p.free ∧ (p.free = false → q.value = p.value)

/-- The source `t` is `s` up to the values of free parameters. -/
def SameSrc (s t : Src D) : Prop :=
  t.kind = s.kind ∧ t.norm = s.norm ∧ List.Forall₂ SamePar s.pars t.pars

/-- The source model `m'` is `m` up to the values of free parameters. -/
def Variant (m m' : Mod κ D) : Prop :=
  List.Forall₂ (fun x y => y.1 = x.1 ∧ SameSrc x.2 y.2) m m'

/-- All the parameters are within their bounds. -/
def InBounds (m : Mod κ D) : Prop := ∀ x ∈ m, ∀ p ∈ x.2.pars, p.lo ≤ p.value ∧ p.value ≤ p.hi

/-- The null hypothesis: the source model without a source. -/
def null [DecidableEq κ] (m : Mod κ D) (n : κ) : Mod κ D := m.filter (fun x => x.1 ≠ n)

/-- The sources are in order of their names. -/
def Ordered [LinearOrder κ] (m : Mod κ D) : Prop := m.Pairwise (fun x y => x.1 < y.1)

/-- The values of the free parameters, in order. -/
def freeVals (m : Mod κ D) : List ℝ :=
  m.flatMap (fun x => (x.2.pars.filter (fun p => p.free)).map (fun p => p.value))

/-- The log-likelihoods that the null hypothesis can have: those of all the values of its
free parameters. -/
def NullValues [DecidableEq κ] (S : Setup κ D) (m : Mod κ D) (n : κ) : Set ℝ :=
  {v | ∃ m', Variant (null m n) m' ∧ S.value m' = some v}

/-- The source `n` is a point source at `d` with a free parameter. -/
def Tested (m : Mod κ D) (n : κ) (d : D) : Prop :=
  ∃ s, (n, s) ∈ m ∧ s.kind = .point d ∧ HasFree s

/-- Whether a source is rescaled when the one at `d` is left out: its normalisation is free
and it is not a point source too far away. -/
def Scaled (S : Setup κ D) (d : D) (s : Src D) : Prop :=
  (∃ p, s.pars[s.norm]? = some p ∧ p.free = true) ∧
  (∀ e, s.kind = .point e → S.sep d e < 20)

/-- A source with its normalisation multiplied by a number. -/
def rescale (c : ℝ) (s : Src D) : Src D :=
  { s with pars := s.pars.modify s.norm (fun p => { p with value := p.value * c }) }

/-- The predicted counts of a source model. -/
def total (S : Setup κ D) (m : Mod κ D) : ℝ := (m.map (fun x => S.npred x.2)).sum

/-- The predicted counts are proportional to the normalisation. -/
def Linear (S : Setup κ D) : Prop :=
  ∀ (c : ℝ) (s : Src D), s.norm < s.pars.length → S.npred (rescale c s) = c * S.npred s

end Verif.TsVal.Spec
