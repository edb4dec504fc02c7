import Verif.MapEdge.Lemmas
import Mathlib.Analysis.Real.Pi.Bounds
import Mathlib.Algebra.Order.Archimedean.Real.Basic
import Mathlib.Algebra.Order.Floor.Semiring
import Mathlib.Tactic.FieldSimp
set_option linter.unusedSimpArgs false
set_option linter.unusedVariables false
/-
Properties of the edge of a counts map.
-/
namespace Verif.MapEdge
open Verif Spec

variable {δ : Type} {proj : Pos → Res δ} {nx ny : Nat}

/-- The boundary directions are those of the corners of the pixels at the edge, each of them and no
other. -/
theorem C162_boundary (h : ∀ c, EdgeCorner nx ny c → ∃ d, proj c = .ok d) :
    ∃ l, boundary proj nx ny = .ok l ∧ l.length = 2 * (nx + 1) + 2 * (ny + 1) ∧
      ∀ d, d ∈ l ↔ ∃ c, EdgeCorner nx ny c ∧ proj c = .ok d := by
  obtain ⟨a, a1, a2, a3⟩ := mapM_mem (f := fun y => proj ⟨((0 : Nat) : ℝ) + 1 / 2, y⟩) (axis ny)
    (fun y hy => h _ (corner_col (.inl rfl) hy))
  obtain ⟨b, b1, b2, b3⟩ := mapM_mem (f := fun y => proj ⟨(nx : ℝ) + 1 / 2, y⟩) (axis ny)
    (fun y hy => h _ (corner_col (.inr rfl) hy))
  obtain ⟨c, c1, c2, c3⟩ := mapM_mem (f := fun x => proj ⟨x, ((0 : Nat) : ℝ) + 1 / 2⟩) (axis nx)
    (fun x hx => h _ (corner_row (.inl rfl) hx))
  obtain ⟨d, d1, d2, d3⟩ := mapM_mem (f := fun x => proj ⟨x, (ny : ℝ) + 1 / 2⟩) (axis nx)
    (fun x hx => h _ (corner_row (.inr rfl) hx))
  refine ⟨a ++ b ++ c ++ d, ?_, ?_, ?_⟩
  · rw [boundary_eq, a1, Res.bind_ok, b1, Res.bind_ok, c1, Res.bind_ok, d1, Res.bind_ok]
  · simp only [List.length_append, a2, b2, c2, d2, axis_length]
    omega
  · intro q
    simp only [List.mem_append, a3, b3, c3, d3]
    constructor
    · rintro (((⟨y, hy, hq⟩ | ⟨y, hy, hq⟩) | ⟨x, hx, hq⟩) | ⟨x, hx, hq⟩)
      · exact ⟨_, corner_col (.inl rfl) hy, hq⟩
      · exact ⟨_, corner_col (.inr rfl) hy, hq⟩
      · exact ⟨_, corner_row (.inl rfl) hx, hq⟩
      · exact ⟨_, corner_row (.inr rfl) hx, hq⟩
    · rintro ⟨_, ⟨i, j, hi, hj, (rfl | rfl | rfl | rfl), rfl⟩, hq⟩
      · exact .inl (.inl (.inl ⟨_, mem_axis.mpr ⟨j, hj, rfl⟩, hq⟩))
      · exact .inl (.inl (.inr ⟨_, mem_axis.mpr ⟨j, hj, rfl⟩, hq⟩))
      · exact .inl (.inr ⟨_, mem_axis.mpr ⟨i, hi, rfl⟩, hq⟩)
      · exact .inr ⟨_, mem_axis.mpr ⟨i, hi, rfl⟩, hq⟩

/-- One corner at the edge that is not on the sky: the map has no boundary. -/
theorem boundary_throws (hu : ∀ c, proj c ≠ .ub) {c : Pos} (hc : EdgeCorner nx ny c) (ht : proj c = .throws) :
    boundary proj nx ny = .throws := by
  rw [boundary_eq]
  obtain ⟨i, j, hi, hj, hij, rfl⟩ := hc
  rcases mapM_cases (f := fun y => proj ⟨((0 : Nat) : ℝ) + 1 / 2, y⟩) (axis ny) (fun _ _ => hu _) with ⟨a, ha⟩ | ha
  swap
  · rw [ha]; rfl
  rw [ha, Res.bind_ok]
  rcases mapM_cases (f := fun y => proj ⟨(nx : ℝ) + 1 / 2, y⟩) (axis ny) (fun _ _ => hu _) with ⟨b, hb⟩ | hb
  swap
  · rw [hb]; rfl
  rw [hb, Res.bind_ok]
  rcases mapM_cases (f := fun x => proj ⟨x, ((0 : Nat) : ℝ) + 1 / 2⟩) (axis nx) (fun _ _ => hu _) with ⟨c, hc⟩ | hc
  swap
  · rw [hc]; rfl
  rw [hc, Res.bind_ok]
  rcases mapM_cases (f := fun x => proj ⟨x, (ny : ℝ) + 1 / 2⟩) (axis nx) (fun _ _ => hu _) with ⟨d, hd⟩ | hd
  swap
  · rw [hd]; rfl
  exfalso
  rcases hij with rfl | rfl | rfl | rfl
  · rw [mapM_throws _ (fun _ _ => hu _) ⟨_, mem_axis.mpr ⟨j, hj, rfl⟩, ht⟩] at ha; cases ha
  · rw [mapM_throws _ (fun _ _ => hu _) ⟨_, mem_axis.mpr ⟨j, hj, rfl⟩, ht⟩] at hb; cases hb
  · rw [mapM_throws (f := fun x => proj ⟨x, ((0 : Nat) : ℝ) + 1 / 2⟩) _ (fun _ _ => hu _) ⟨_, mem_axis.mpr ⟨i, hi, rfl⟩, ht⟩] at hc; cases hc
  · rw [mapM_throws (f := fun x => proj ⟨x, (j : ℝ) + 1 / 2⟩) _ (fun _ _ => hu _) ⟨_, mem_axis.mpr ⟨i, hi, rfl⟩, ht⟩] at hd; cases hd

/-- The radius of the correction, in degrees, is the least angle from the source to a corner at the
edge. -/
theorem C162_radius (f : δ → ℝ) (h : ∀ c, EdgeCorner nx ny c → ∃ d, proj c = .ok d) :
    ∃ r, maxPsfRadius proj nx ny f = .ok r ∧ Least proj nx ny (fun d => f d * 180 / Real.pi) r := by
  obtain ⟨l, h1, h2, h3⟩ := C162_boundary h
  cases l with
  | nil => simp at h2
  | cons a l =>
    obtain ⟨k1, k2, k3⟩ := least_spec f l (f a)
    refine ⟨least f (f a) l * 180 / Real.pi, ?_, ?_, ?_⟩
    · unfold maxPsfRadius
      rw [h1, Res.bind_ok]
      rfl
    · intro c d hc hd
      have hm := (h3 d).mpr ⟨c, hc, hd⟩
      have hle : least f (f a) l ≤ f d := by
        rcases List.mem_cons.mp hm with rfl | hm
        · exact k1
        · exact k2 d hm
      have := Real.pi_pos
      apply div_le_div_of_nonneg_right _ this.le
      linarith
    · rcases k3 with k3 | ⟨d, hd, k3⟩
      · obtain ⟨c, hc, hcd⟩ := (h3 a).mp List.mem_cons_self
        exact ⟨c, a, hc, hcd, by rw [k3]⟩
      · obtain ⟨c, hc, hcd⟩ := (h3 d).mp (List.mem_cons_of_mem _ hd)
        exact ⟨c, d, hc, hcd, by rw [k3]⟩

/-- The radius of a map around its middle, in degrees: no pixel is further away, and some pixel is as
far, unless the map is empty or all pixels are at the middle. -/
theorem C162_far (pixels : List δ) (f : δ → ℝ) :
    0 ≤ maxRadius pixels f ∧ (∀ d ∈ pixels, f d * 180 / Real.pi ≤ maxRadius pixels f) ∧
      (maxRadius pixels f = 0 ∨ ∃ d ∈ pixels, maxRadius pixels f = f d * 180 / Real.pi) := by
  obtain ⟨h1, h2, h3⟩ := most_spec f pixels 0
  have hp := Real.pi_pos
  unfold maxRadius
  refine ⟨by positivity, ?_, ?_⟩
  · intro d hd
    apply div_le_div_of_nonneg_right _ hp.le
    have := h2 d hd
    linarith
  · rcases h3 with h3 | ⟨d, hd, h3⟩
    · left
      rw [h3]
      simp
    · exact .inr ⟨d, hd, by rw [h3]⟩

/-- A single corner of an edge pixel that is not on the sky, as in all maps of the whole sky in an
Aitoff projection, makes the maps of all point sources fail, even if no correction is to be made and
the radius is not needed. -/
theorem C162_whole_sky_violates (hu : ∀ c, proj c ≠ .ub) {c : Pos} (hc : EdgeCorner nx ny c) (ht : proj c = .throws)
    (f : δ → ℝ) : prepare proj nx ny f false = .throws := by
  unfold prepare maxPsfRadius
  rw [boundary_throws hu hc ht]
  rfl

/-- If all corners at the edge are on the sky, maps can be made, and the radius is used exactly if the
correction is to be made. -/
theorem C162_prepare_partial (f : δ → ℝ) (h : ∀ c, EdgeCorner nx ny c → ∃ d, proj c = .ok d) (apply : Bool) :
    ∃ r, prepare proj nx ny f apply = .ok (if apply then some r else none) ∧
      Least proj nx ny (fun d => f d * 180 / Real.pi) r := by
  obtain ⟨r, h1, h2⟩ := C162_radius f h
  refine ⟨r, ?_, h2⟩
  unfold prepare
  rw [h1, Res.bind_ok]

/-- The nearest lattice point of an axis. -/
theorem near {n : Nat} {v : ℝ} (h1 : 1 / 2 ≤ v) (h2 : v ≤ n + 1 / 2) :
    ∃ j : Nat, j ≤ n ∧ (v - (j + 1 / 2)) ^ 2 ≤ (1 / 2) ^ 2 := by
  have h0 : (0 : ℝ) ≤ v := by linarith
  have hf1 : (⌊v⌋₊ : ℝ) ≤ v := Nat.floor_le h0
  have hf2 : v < (⌊v⌋₊ : ℝ) + 1 := Nat.lt_floor_add_one v
  by_cases hle : ⌊v⌋₊ ≤ n
  · refine ⟨⌊v⌋₊, hle, ?_⟩
    apply sq_le_sq'
    · linarith
    · linarith
  · refine ⟨n, le_refl n, ?_⟩
    have : (n : ℝ) + 1 ≤ ⌊v⌋₊ := by exact_mod_cast (by omega : n + 1 ≤ ⌊v⌋₊)
    linarith

/-- The root of two squares. -/
theorem root_le {u w : ℝ} (hu : 0 ≤ u) (hw : w ^ 2 ≤ (1 / 2) ^ 2) : Real.sqrt (u ^ 2 + w ^ 2) ≤ u + 1 / 2 := by
  rw [Real.sqrt_le_iff]
  constructor
  · linarith
  · nlinarith

/-- In a flat map the circle of the correction around a source in the map leaves it by at most half a
pixel: its radius, in pixels, is at most the distance to any of the four sides and one half.  Partial: it
should be at most the distance, see `C162_outside_violates`. -/
theorem C162_margin_partial {k : ℝ} (hk : 0 < k) {s : Pos} (hs : InMap nx ny s) :
    ∃ r, maxPsfRadius (fun c => .ok c) nx ny (flat k s) = .ok r ∧
      r ≤ k * (s.x - 1 / 2 + 1 / 2) * 180 / Real.pi ∧ r ≤ k * ((nx : ℝ) + 1 / 2 - s.x + 1 / 2) * 180 / Real.pi ∧
      r ≤ k * (s.y - 1 / 2 + 1 / 2) * 180 / Real.pi ∧ r ≤ k * ((ny : ℝ) + 1 / 2 - s.y + 1 / 2) * 180 / Real.pi := by
  obtain ⟨r, h1, h2, _⟩ := C162_radius (proj := fun c => .ok c) (nx := nx) (ny := ny) (flat k s) (fun c _ => ⟨c, rfl⟩)
  obtain ⟨hx1, hx2, hy1, hy2⟩ := hs
  obtain ⟨j, hj, hjd⟩ := near hy1 hy2
  obtain ⟨i, hi, hid⟩ := near hx1 hx2
  have hp := Real.pi_pos
  have key : ∀ {c : Pos} {u : ℝ}, EdgeCorner nx ny c → Real.sqrt ((s.x - c.x) ^ 2 + (s.y - c.y) ^ 2) ≤ u →
      r ≤ k * u * 180 / Real.pi := by
    intro c u hc hu
    refine le_trans (h2 c c hc rfl) ?_
    apply div_le_div_of_nonneg_right _ hp.le
    unfold flat
    nlinarith [mul_le_mul_of_nonneg_left hu hk.le]
  refine ⟨r, h1, ?_, ?_, ?_, ?_⟩
  · apply key (c := ⟨((0 : Nat) : ℝ) + 1 / 2, j + 1 / 2⟩) ⟨0, j, by omega, hj, by omega, rfl⟩
    have := root_le (u := s.x - 1 / 2) (w := s.y - (j + 1 / 2)) (by linarith) hjd
    simpa using this
  · apply key (c := ⟨(nx : ℝ) + 1 / 2, j + 1 / 2⟩) ⟨nx, j, by omega, hj, by omega, rfl⟩
    have := root_le (u := (nx : ℝ) + 1 / 2 - s.x) (w := s.y - (j + 1 / 2)) (by linarith) hjd
    refine le_trans (le_of_eq ?_) this
    congr 1
    ring
  · apply key (c := ⟨(i : ℝ) + 1 / 2, ((0 : Nat) : ℝ) + 1 / 2⟩) ⟨i, 0, hi, by omega, by omega, rfl⟩
    have := root_le (u := s.y - 1 / 2) (w := s.x - (i + 1 / 2)) (by linarith) hid
    refine le_trans (le_of_eq ?_) this
    congr 1
    simp
    ring
  · apply key (c := ⟨(i : ℝ) + 1 / 2, (ny : ℝ) + 1 / 2⟩) ⟨i, ny, hi, by omega, by omega, rfl⟩
    have := root_le (u := (ny : ℝ) + 1 / 2 - s.y) (w := s.x - (i + 1 / 2)) (by linarith) hid
    refine le_trans (le_of_eq ?_) this
    congr 1
    ring

/-- A natural number is not one half off another. -/
theorem off_half (a b : Nat) : (1 / 2) ^ 2 ≤ ((a : ℝ) - (b + 1 / 2)) ^ 2 := by
  rcases Nat.lt_or_ge b a with h | h
  · have : (b : ℝ) + 1 ≤ a := by exact_mod_cast h
    nlinarith
  · have : (a : ℝ) ≤ b := by exact_mod_cast h
    nlinarith

/-- The circle of the correction leaves the map: a source `m` pixels from the left side, at the middle of
a row of pixels and not closer to the other sides, has a radius of more than `m` pixels, so that there are
positions within the radius that are not in the map. -/
theorem C162_outside_violates {k : ℝ} (hk : 0 < k) {m q : Nat} (hx : 2 * m ≤ nx) (hy1 : m + 1 ≤ q) (hy2 : q + m ≤ ny) :
    ∃ r o, maxPsfRadius (fun c => .ok c) nx ny (flat k ⟨(m : ℝ) + 1 / 2, q⟩) = .ok r ∧
      InMap nx ny ⟨(m : ℝ) + 1 / 2, q⟩ ∧ ¬ InMap nx ny o ∧
      flat k ⟨(m : ℝ) + 1 / 2, q⟩ o * 180 / Real.pi < r := by
  obtain ⟨r, h1, _, c, d, hc, hd, hr⟩ := C162_radius (proj := fun c => .ok c) (nx := nx) (ny := ny)
    (flat k ⟨(m : ℝ) + 1 / 2, q⟩) (fun c _ => ⟨c, rfl⟩)
  cases hd
  have hp := Real.pi_pos
  have hxr : 2 * (m : ℝ) ≤ nx := by exact_mod_cast hx
  have hy1r : (m : ℝ) + 1 ≤ q := by exact_mod_cast hy1
  have hy2r : (q : ℝ) + m ≤ ny := by exact_mod_cast hy2
  have hm0 : (0 : ℝ) ≤ m := Nat.cast_nonneg m
  have hfar : (m : ℝ) < Real.sqrt (((m : ℝ) + 1 / 2 - c.x) ^ 2 + ((q : ℝ) - c.y) ^ 2) := by
    apply Real.lt_sqrt_of_sq_lt
    obtain ⟨i, j, hi, hj, hij, rfl⟩ := hc
    have hoff := off_half q j
    have hpos := sq_nonneg ((m : ℝ) + 1 / 2 - ((i : ℝ) + 1 / 2))
    simp only
    rcases hij with rfl | rfl | rfl | rfl
    · simp only [Nat.cast_zero]
      nlinarith
    · nlinarith
    · simp only [Nat.cast_zero]
      nlinarith
    · nlinarith
  -- a position beyond the left side
  set R := Real.sqrt (((m : ℝ) + 1 / 2 - c.x) ^ 2 + ((q : ℝ) - c.y) ^ 2) with hR
  refine ⟨r, ⟨(m : ℝ) + 1 / 2 - (m + R) / 2, q⟩, h1, ?_, ?_, ?_⟩
  · refine ⟨by simp only; linarith, by simp only; linarith, by simp only; linarith, by simp only; linarith⟩
  · rintro ⟨h, _⟩
    simp only at h
    linarith
  · rw [hr]
    have hval : flat k ⟨(m : ℝ) + 1 / 2, q⟩ ⟨(m : ℝ) + 1 / 2 - (m + R) / 2, q⟩ = k * ((m + R) / 2) := by
      unfold flat
      simp only
      rw [show ((m : ℝ) + 1 / 2 - ((m : ℝ) + 1 / 2 - (m + R) / 2)) ^ 2 + ((q : ℝ) - q) ^ 2 = ((m + R) / 2) ^ 2 by ring,
        Real.sqrt_sq (by linarith)]
    have hval2 : flat k ⟨(m : ℝ) + 1 / 2, q⟩ c = k * R := rfl
    rw [hval]
    simp only [hval2]
    apply div_lt_div_of_pos_right _ hp
    have : k * ((m + R) / 2) < k * R := mul_lt_mul_of_pos_left (by linarith) hk
    linarith

/-- A map of 20 times 20 pixels and a source four pixels from the left side. -/
example : (0 : ℝ) < 1 / 100 ∧ 2 * 4 ≤ 20 ∧ 4 + 1 ≤ 10 ∧ 10 + 4 ≤ 20 ∧ InMap 20 20 ⟨((4 : Nat) : ℝ) + 1 / 2, ((10 : Nat) : ℝ)⟩ := by
  refine ⟨by norm_num, by omega, by omega, by omega, ?_⟩
  refine ⟨?_, ?_, ?_, ?_⟩ <;> norm_num

open Classical in
/-- A projection without the lower left corner. -/
noncomputable def toyProj : Pos → Res Pos := fun c => if c.x = 1 / 2 ∧ c.y = 1 / 2 then .throws else .ok c

example : (∀ c, toyProj c ≠ .ub) ∧ EdgeCorner 3 3 ⟨((0 : Nat) : ℝ) + 1 / 2, ((0 : Nat) : ℝ) + 1 / 2⟩ ∧
    toyProj ⟨((0 : Nat) : ℝ) + 1 / 2, ((0 : Nat) : ℝ) + 1 / 2⟩ = .throws ∧ toyProj ⟨2, 2⟩ = .ok ⟨2, 2⟩ := by
  refine ⟨?_, ⟨0, 0, by omega, by omega, by omega, rfl⟩, ?_, ?_⟩
  · intro c
    unfold toyProj
    split <;> intro h <;> cases h
  · unfold toyProj
    rw [if_pos (by norm_num)]
  · unfold toyProj
    rw [if_neg (by norm_num)]

/-- The corners of a map of one pixel. -/
example : EdgeCorner 1 1 ⟨((0 : Nat) : ℝ) + 1 / 2, ((1 : Nat) : ℝ) + 1 / 2⟩ ∧ ¬ EdgeCorner 2 2 ⟨1 + 1 / 2, 1 + 1 / 2⟩ := by
  refine ⟨⟨0, 1, by omega, by omega, by omega, rfl⟩, ?_⟩
  rintro ⟨i, j, _, _, h, hc⟩
  have hx : (1 : ℝ) + 1 / 2 = (i : ℝ) + 1 / 2 := congrArg Pos.x hc
  have hy : (1 : ℝ) + 1 / 2 = (j : ℝ) + 1 / 2 := congrArg Pos.y hc
  have hi : i = 1 := by
    have : (i : ℝ) = 1 := by linarith
    exact_mod_cast this
  have hj : j = 1 := by
    have : (j : ℝ) = 1 := by linarith
    exact_mod_cast this
  omega

end Verif.MapEdge
