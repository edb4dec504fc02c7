import Verif.WcsCopy.Types

/-!
# Copying the projection to the extensions: what is expected

Independent of the program.
-/

namespace Verif.WcsCopy.Spec

variable {ν δ : Type}

/-- The keywords of the projection which are to agree. -/
def IsWcs (k : String) : Prop :=
  k ∈ ["CTYPE1", "CTYPE2", "CTYPE3"] ∨ k ∈ ["CRPIX1", "CRPIX2", "CRPIX3"] ∨
  k ∈ ["CRVAL1", "CRVAL2", "CRVAL3"] ∨ k ∈ ["CDELT1", "CDELT2", "CDELT3"] ∨
  k ∈ ["CROTA2", "EQUINOX", "RADESYS"]

/-- The names which the program takes for tables. -/
def Reserved (n : String) : Prop := n ∈ ["", "GTI", "EBOUNDS", "ENERGIES", "EVENTS"]

/-- The first part of the file with its identifier is number `i`. -/
def FirstOfName (fl : File ν δ) (i : Nat) : Prop :=
  ∀ (j : Nat) (u v : Hdu ν δ), j < i → fl[j]? = some u → fl[i]? = some v → u.id ≠ v.id

end Verif.WcsCopy.Spec
