import Verif.Snap.Types
/-
Which differences between two models count as changes.
-/
namespace Verif.Snap.Spec

variable {κ : Type}

/-- Two numbers agree up to `1e-5` of the sum of their sizes. -/
def Close (a b : ℝ) : Prop := |a - b| ≤ (|a| + |b|) * 1e-5

/-- No prior on either side, or priors whose parameters have the same names and
agreeing values. -/
def SamePrior : Option (Prior κ) → Option (Prior κ) → Prop
  | none, none => True
  | some a, some b => List.Forall₂ (fun x y => x.1 = y.1 ∧ Close x.2 y.2) a.pars b.pars
  | _, _ => False

/-- The parameters agree: value, free or fixed, prior. -/
def SamePar (p q : Par κ) : Prop :=
  Close (p.value * p.scale) (q.value * q.scale) ∧ p.free = q.free ∧ SamePrior p.prior q.prior

/-- A parameter of one list and its namesake in the other agree. -/
def SameOpt : Option (Par κ) → Option (Par κ) → Prop
  | none, none => True
  | some p, some q => SamePar p q
  | _, _ => False

/-- The two lists name the same parameters. -/
def SameNames (l1 l2 : List (κ × Par κ)) : Prop :=
  ∀ n, n ∈ l1.map Prod.fst ↔ n ∈ l2.map Prod.fst

/-- Every parameter has a namesake on the other side that agrees with it. -/
def SamePars [BEq κ] (l1 l2 : List (κ × Par κ)) : Prop :=
  ∀ n, SameOpt (l1.lookup n) (l2.lookup n)

/-- The parameters of all functions other than the spectrum. -/
def spatial (s : Src κ) : List (κ × Par κ) := s.funcs.flatMap fun f => f.2.pars

/-- The names of the parameters of a source are distinct: among the spectral
parameters and among the others. -/
def Distinct (s : Src κ) : Prop :=
  (s.spec.pars.map Prod.fst).Nodup ∧ ((spatial s).map Prod.fst).Nodup

/-- The spectra are of one kind and have the same parameters. -/
def SameSpecType (s t : Src κ) : Prop :=
  s.spec.kind = t.spec.kind ∧ SameNames s.spec.pars t.spec.pars

/-- The sources have the same functions (by key: position or spatial distribution)
with the same parameters.  The kinds of these functions are not compared. -/
def SameSpatType (s t : Src κ) : Prop :=
  s.funcs.map Prod.fst = t.funcs.map Prod.fst ∧ SameNames (spatial s) (spatial t)

/-- Nothing that is compared differs. -/
def Same [BEq κ] (s t : Src κ) : Prop :=
  SamePar s.norm t.norm ∧ s.spec.kind = t.spec.kind ∧ SamePars s.spec.pars t.spec.pars ∧
    s.funcs.map Prod.fst = t.funcs.map Prod.fst ∧ SamePars (spatial s) (spatial t)

/-- A model: sources with names in increasing order (a map), each with distinct
parameter names. -/
def IsModel [LT κ] (m : List (κ × Src κ)) : Prop :=
  (m.map Prod.fst).Pairwise (· < ·) ∧ ∀ n s, (n, s) ∈ m → Distinct s

/-- The source `n` of the old model is gone. -/
def Removed (old new : List (κ × Src κ)) (n : κ) : Prop :=
  n ∈ old.map Prod.fst ∧ n ∉ new.map Prod.fst

/-- The source `n` is in both models, as `s` and as `t`. -/
def Both (old new : List (κ × Src κ)) (n : κ) (s t : Src κ) : Prop :=
  (n, s) ∈ old ∧ (n, t) ∈ new

/-- The source `n` of the new model, `t`, is not in the old one. -/
def Added (old new : List (κ × Src κ)) (n : κ) (t : Src κ) : Prop :=
  (n, t) ∈ new ∧ n ∉ old.map Prod.fst

/-- The source `n` of the old model is gone or differs in the new one. -/
def Changed [BEq κ] (old new : List (κ × Src κ)) (n : κ) : Prop :=
  Removed old new n ∨ ∃ s t, Both old new n s t ∧ ¬ Same s t

end Verif.Snap.Spec
