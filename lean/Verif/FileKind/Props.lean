import Verif.FileKind.Model
import Verif.FileKind.Spec
import Mathlib.Tactic.Common
import Mathlib.Tactic.NormNum
import Mathlib.Tactic.Linarith
import Mathlib.Tactic.Ring
import Mathlib.Algebra.Order.Field.Basic
set_option linter.unusedSimpArgs false
set_option linter.unusedVariables false
/-
C165: the kind of a map file.
-/
namespace Verif.FileKind
open Verif Spec

theorem isHealpix_exact : isHealpix (some "HEALPIX") = true := by decide

/-- What `projection` answers for a file with an empty primary image. -/
theorem projection_small {f : File} {n : Nat} (hp : f.primary = some n) (hn : n < 2) {e : String} (he : e ≠ "") :
    projection f e = match f.ext e with
      | none => .throws
      | some (.table p) => if isHealpix p then .ok .hpx else .ok .unknown
      | some (.image _) => .ok .unknown := by
  unfold projection
  rw [hp]
  simp only []
  rw [if_neg (by omega), if_neg he]
  rfl

theorem projection_big {f : File} {n : Nat} (hp : f.primary = some n) (hn : 2 ≤ n) (e : String) :
    projection f e = .ok .wcs := by
  unfold projection
  rw [hp]
  simp only []
  rw [if_pos hn]

/-- Reading a map from the primary image or from an extension. -/
theorem read_wcs (f : File) {e : String} (he : e ≠ "") :
    (projection f e >>= recognised) = .ok .wcs ↔ Primary f := by
  cases hp : f.primary with
  | none =>
    unfold projection Primary
    rw [hp]
    constructor
    · intro h
      cases h
    · rintro ⟨n, h, _⟩
      cases h
  | some n =>
    by_cases hn : 2 ≤ n
    · rw [projection_big hp hn]
      exact ⟨fun _ => ⟨n, hp, hn⟩, fun _ => rfl⟩
    · rw [projection_small hp (by omega) he]
      constructor
      · intro h
        cases hx : f.ext e with
        | none => rw [hx] at h; cases h
        | some u =>
          rw [hx] at h
          cases u with
          | image k => cases h
          | table p =>
            simp only [] at h
            by_cases hq : isHealpix p = true
            · rw [if_pos hq] at h
              cases h
            · rw [if_neg hq] at h
              cases h
      · rintro ⟨k, h, hk⟩
        rw [hp] at h
        cases h
        exact absurd hk hn

theorem read_hpx (f : File) {e : String} (he : e ≠ "") :
    (projection f e >>= recognised) = .ok .hpx ↔
      (∃ n, f.primary = some n ∧ n < 2) ∧ ∃ s : String, f.ext e = some (.table (some s)) ∧
        "HEALPIX".toList <+: s.toList := by
  cases hp : f.primary with
  | none =>
    unfold projection
    rw [hp]
    constructor
    · intro h
      cases h
    · rintro ⟨⟨n, h, _⟩, _⟩
      cases h
  | some n =>
    by_cases hn : 2 ≤ n
    · rw [projection_big hp hn]
      constructor
      · intro h
        cases h
      · rintro ⟨⟨k, h, hk⟩, _⟩
        cases h
        omega
    · rw [projection_small hp (by omega) he]
      constructor
      · intro h
        refine ⟨⟨n, rfl, by omega⟩, ?_⟩
        cases hx : f.ext e with
        | none => rw [hx] at h; cases h
        | some u =>
          rw [hx] at h
          cases u with
          | image k => cases h
          | table p =>
            simp only [] at h
            by_cases hq : isHealpix p = true
            · cases p with
              | none => cases hq
              | some s => exact ⟨s, rfl, List.isPrefixOf_iff_prefix.mp hq⟩
            · rw [if_neg hq] at h
              cases h
      · rintro ⟨_, s, hs, hq⟩
        rw [hs]
        simp only []
        have hb : isHealpix (some s) = true := List.isPrefixOf_iff_prefix.mpr hq
        rw [if_pos hb]
        rfl

/-- A file is read as an image of counts exactly if its primary image is a map, as an image of exposures
likewise. -/
theorem C165_picture (f : File) :
    (readCountsMap f = .ok .wcs ↔ Primary f) ∧ (readExposure f = .ok .wcs ↔ Primary f) :=
  ⟨read_wcs f (by decide), read_wcs f (by decide)⟩

/-- A file with HEALPix pixels in the extension for counts or for exposures is read as such. -/
theorem C165_healpix (f : File) :
    (Healpix f "SKYMAP" → readCountsMap f = .ok .hpx) ∧
    (Healpix f "HPXEXPOSURES" → readExposure f = .ok .hpx) := by
  have key : ∀ e : String, e ≠ "" → Healpix f e → (projection f e >>= recognised) = .ok .hpx := by
    rintro e he ⟨hp, u, hu, hx⟩
    refine (read_hpx f he).mpr ⟨hp, "HEALPIX", ?_, List.prefix_rfl⟩
    cases u with
    | image n => exact hx.elim
    | table p => rw [hu, show p = some "HEALPIX" from hx]
  exact ⟨key _ (by decide), key _ (by decide)⟩

/-- Everything else is refused, except tables whose keyword only begins with `HEALPIX`. -/
theorem C165_refused_partial (f : File) (h1 : ¬ Primary f) (h2 : ¬ Healpix f "SKYMAP")
    (h3 : ∀ s : String, f.ext "SKYMAP" = some (.table (some s)) → "HEALPIX".toList <+: s.toList → s = "HEALPIX") :
    readCountsMap f = .throws := by
  have hw : ¬ readCountsMap f = .ok .wcs := fun h => h1 ((C165_picture f).1.mp h)
  have hh : ¬ readCountsMap f = .ok .hpx := by
    intro h
    obtain ⟨hp, s, hs, hq⟩ := (read_hpx f (e := "SKYMAP") (by decide)).mp h
    exact h2 ⟨hp, _, hs, by rw [h3 s hs hq]; rfl⟩
  unfold readCountsMap at hw hh ⊢
  cases hp : projection f "SKYMAP" with
  | throws => rfl
  | ub =>
    exfalso
    unfold projection at hp
    split at hp
    · cases hp
    · split at hp
      · cases hp
      · split at hp
        · cases hp
        · split at hp <;> cases hp
        · cases hp
  | ok m =>
    rw [hp] at hw hh
    cases m with
    | wcs => exact absurd rfl hw
    | hpx => exact absurd rfl hh
    | unknown => rfl

/-- A table that is not in HEALPix pixels is read as if it were when its keyword begins with the word. -/
theorem C165_prefix_violates : ∃ f, ¬ Primary f ∧ ¬ Healpix f "SKYMAP" ∧ readCountsMap f = .ok .hpx := by
  refine ⟨⟨some 0, fun _ => some (.table (some "HEALPIX_MOC"))⟩, ?_, ?_, ?_⟩
  · rintro ⟨n, h, hn⟩
    cases h
    omega
  · rintro ⟨_, u, hu, hx⟩
    cases hu
    exact absurd (Option.some.inj hx) (by decide)
  · exact (read_hpx _ (e := "SKYMAP") (by decide)).mpr ⟨⟨0, rfl, by omega⟩, _, rfl, by decide⟩

/-- A map in an extension of a file whose primary image is empty is opened if it is in HEALPix pixels; one
that is an image never is. -/
theorem C165_extension_partial {f : File} {n : Nat} (hp : f.primary = some n) (hn : n < 2) {e : String}
    (he : e ≠ "") : (Holds f e .hpx → libraryMap f e = .ok .hpx) ∧
      (Holds f e .wcs → libraryMap f e = .throws) := by
  constructor
  · rintro ⟨u, hu, h | ⟨hx, _⟩⟩
    · cases h.2
    · unfold libraryMap
      rw [projection_small hp hn he, hu]
      cases u with
      | image k => exact hx.elim
      | table p =>
        rw [show p = some "HEALPIX" from hx]
        simp only [if_pos isHealpix_exact]
        rfl
  · rintro ⟨u, hu, ⟨hx, _⟩ | h⟩
    · unfold libraryMap
      rw [projection_small hp hn he, hu]
      cases u with
      | image k => rfl
      | table p => exact hx.elim
    · cases h.2

/-- Behind a primary image that is a map it is the other way round: a HEALPix table in an extension is
refused, an image is opened. -/
theorem C165_behind_violates {f : File} (h : Primary f) {e : String} (he : e ≠ "") :
    (Holds f e .hpx → libraryMap f e = .throws) ∧ (Holds f e .wcs → libraryMap f e = .ok .wcs) := by
  obtain ⟨n, hp, hn⟩ := h
  have h0 : libraryMap f e = openWcs f e := by
    unfold libraryMap
    rw [projection_big hp hn]
    rfl
  rw [h0]
  unfold openWcs
  rw [if_neg he]
  constructor
  · rintro ⟨u, hu, h | ⟨hx, _⟩⟩
    · cases h.2
    · rw [hu]
      cases u with
      | image k => exact hx.elim
      | table p => rfl
  · rintro ⟨u, hu, ⟨hx, _⟩ | h⟩
    · rw [hu]
      cases u with
      | image k =>
        simp only []
        rw [if_pos (show k ≥ 2 from hx)]
      | table p => exact hx.elim
    · cases h.2

theorem flagged_wcs (lon lat : Axis) : flagged .wcs lon lat = true ↔
    360 ≤ |lon.cdelt * lon.n| ∧ 180 ≤ |lat.cdelt * lat.n| := by
  unfold flagged allSky
  exact decide_eq_true_iff

/-- The check of an exposure map passes exactly if both files are recognised and, for an image of counts, the
walk along its edge passes, for HEALPix counts, the exposure is in HEALPix pixels or at least 360 by 180
degrees in size. -/
theorem C165_check (cmap emap : File) (walk : Res Unit) (lon lat : Axis) :
    checkExposure cmap emap walk lon lat = .ok () ↔
      ∃ c e, readCountsMap cmap = .ok c ∧ readExposure emap = .ok e ∧
        ((c = .wcs ∧ walk = .ok ()) ∨
          (c = .hpx ∧ (e = .hpx ∨ (360 ≤ |lon.cdelt * lon.n| ∧ 180 ≤ |lat.cdelt * lat.n|)))) := by
  have hrec : ∀ f m, readExposure f = .ok m → m = .wcs ∨ m = .hpx := by
    intro f m h
    cases m with
    | wcs => exact .inl rfl
    | hpx => exact .inr rfl
    | unknown =>
      exfalso
      unfold readExposure at h
      cases hp : projection f "HPXEXPOSURES" with
      | throws => rw [hp] at h; cases h
      | ub => rw [hp] at h; cases h
      | ok k =>
        rw [hp] at h
        cases k <;> cases h
  unfold checkExposure
  cases hc : readCountsMap cmap with
  | throws => exact ⟨(fun h => by cases h), (fun ⟨_, _, h, _⟩ => by cases h)⟩
  | ub => exact ⟨(fun h => by cases h), (fun ⟨_, _, h, _⟩ => by cases h)⟩
  | ok c =>
    rw [Res.bind_ok]
    cases he : readExposure emap with
    | throws => exact ⟨(fun h => by cases h), (fun ⟨_, _, _, h, _⟩ => by cases h)⟩
    | ub => exact ⟨(fun h => by cases h), (fun ⟨_, _, _, h, _⟩ => by cases h)⟩
    | ok e =>
      rw [Res.bind_ok]
      constructor
      · intro h
        refine ⟨c, e, rfl, rfl, ?_⟩
        cases c with
        | wcs => exact .inl ⟨rfl, h⟩
        | unknown => cases h
        | hpx =>
          refine .inr ⟨rfl, ?_⟩
          rcases hrec _ _ he with rfl | rfl
          · simp only [] at h
            by_cases hs : flagged .wcs lon lat = true
            · exact .inr ((flagged_wcs lon lat).mp hs)
            · rw [if_neg hs] at h
              cases h
          · exact .inl rfl
      · rintro ⟨c', e', h1, h2, h⟩
        cases h1
        cases h2
        rcases h with ⟨rfl, hw⟩ | ⟨rfl, h | h⟩
        · exact hw
        · rw [h]
          rfl
        · simp only []
          rcases hrec _ _ he with rfl | rfl
          · rw [if_pos ((flagged_wcs lon lat).mpr h)]
          · rfl

/-- An exposure map of that size need not cover the sky: shifted in latitude, it passes although a pole is
not on it. -/
theorem C165_sky_violates {cmap emap : File} (hc : readCountsMap cmap = .ok .hpx)
    (he : readExposure emap = .ok .wcs) (walk : Res Unit) {lon lat : Axis}
    (h1 : 360 ≤ |lon.cdelt * lon.n|) (hd : 0 < lat.cdelt) (h2 : lat.cdelt * lat.n = 180)
    (h3 : lat.crval < lat.cdelt * (lat.crpix - 1 / 2) - 90) :
    checkExposure cmap emap walk lon lat = .ok () ∧ ¬ Covers lat 90 := by
  constructor
  · refine (C165_check cmap emap walk lon lat).mpr ⟨.hpx, .wcs, hc, he, .inr ⟨rfl, .inr ⟨h1, ?_⟩⟩⟩
    rw [h2, abs_of_nonneg (by norm_num)]
  · rintro ⟨_, hb⟩
    have e1 : (90 - lat.crval) / lat.cdelt ≤ lat.n + 1 / 2 - lat.crpix := by linarith
    rw [div_le_iff₀ hd] at e1
    have : (lat.n + 1 / 2 - lat.crpix) * lat.cdelt = lat.cdelt * lat.n - lat.cdelt * (lat.crpix - 1 / 2) := by ring
    rw [this, h2] at e1
    linarith

/-- A file of HEALPix counts. -/
def exCounts : File := ⟨some 0, fun e => if e = "SKYMAP" then some (.table (some "HEALPIX")) else none⟩
/-- A file with an image of exposures. -/
def exExposure : File := ⟨some 3, fun _ => none⟩

theorem ex_counts : readCountsMap exCounts = .ok .hpx :=
  (C165_healpix exCounts).1 ⟨⟨0, rfl, by omega⟩, _, rfl, rfl⟩

theorem ex_exposure : readExposure exExposure = .ok .wcs :=
  (C165_picture exExposure).2.mpr ⟨3, rfl, by omega⟩

example : readCountsMap ⟨some 0, fun _ => none⟩ = .throws := by
  refine C165_refused_partial _ ?_ ?_ ?_
  · rintro ⟨n, h, hn⟩
    cases h
    omega
  · rintro ⟨_, u, hu, _⟩
    cases hu
  · intro s hs
    cases hs

example : libraryMap ⟨some 0, fun _ => some (.image 3)⟩ "FLUX" = .throws :=
  (C165_extension_partial (n := 0) rfl (by omega) (by decide)).2 ⟨.image 3, rfl, .inl ⟨by show 2 ≤ 3; omega, rfl⟩⟩

example : libraryMap ⟨some 2, fun _ => some (.table (some "HEALPIX"))⟩ "SKYMAP" = .throws :=
  (C165_behind_violates ⟨2, rfl, by omega⟩ (by decide)).1 ⟨_, rfl, .inr ⟨rfl, rfl⟩⟩

example : checkExposure exCounts exExposure .throws ⟨0, 180.5, 1, 360⟩ ⟨-20, 90.5, 1, 180⟩ = .ok () ∧
    ¬ Covers ⟨-20, 90.5, 1, 180⟩ 90 :=
  C165_sky_violates ex_counts ex_exposure .throws (by norm_num) (by norm_num) (by norm_num) (by norm_num)

end Verif.FileKind
