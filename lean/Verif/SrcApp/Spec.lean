import Verif.SrcApp.Types
/-
What a user expects of a run of gtsrcmaps.
-/
namespace Verif.SrcApp.Spec
open Verif Verif.MapFile

variable {φ ν ι π : Type}

/-- The sources for which maps are asked: those of the model, without the point sources if `ptsrc`
is off. -/
def Asked (e : Env φ ν ι π) (p : Pars φ) (n : ν) : Prop :=
  n ∈ e.srcs ∧ (p.ptsrc = true ∨ e.kind n ≠ .point)

/-- The output file is new or may be replaced. -/
def Writable (p : Pars φ) (files : φ → Option (File ν ι π)) : Prop :=
  p.clobber = true ∨ files p.out = none

/-- The output: the counts, and for each source asked for the map computed for it. -/
def Computed (e : Env φ ν ι π) (p : Pars φ) (F : File ν ι π) : Prop :=
  F.counts = true ∧ ∀ n, Asked e p n → F.map n = some (e.own n)

/-- As the program's parameters say: maps that come with the counts map are taken over, the others are
computed, and the other extensions are copied if that is asked for. -/
def TakenOver (e : Env φ ν ι π) (p : Pars φ) (C F : File ν ι π) : Prop :=
  (p.copyall = false → F.counts = true) ∧ (p.copyall = true → F.counts = C.counts) ∧
  (∀ n i, Asked e p n → C.map n = some i → F.map n = some i) ∧
  (∀ n, Asked e p n → C.map n = none → F.map n = some (e.own n)) ∧
  (∀ n, ¬ Asked e p n → F.map n = if p.copyall then C.map n else none)

end Verif.SrcApp.Spec
