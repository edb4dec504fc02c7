import Verif.MapOut.Model
import Verif.Edisp.Props
set_option linter.unusedSectionVars false
set_option linter.unusedVariables false
/-
C36: the model map and the vector it is put in.
-/
namespace Verif.MapOut
open Verif.Edisp Verif.Vec
open scoped BigOperators

variable {K : Type} [Field K] [LinearOrder K]

/-- Source maps for the same binning: `nb` energy bins of `npix` pixels. -/
def Binning (nb npix : Nat) (maps : List (SrcMap K)) : Prop :=
  ∀ s ∈ maps, s.Ok ∧ s.nebins = nb ∧ s.npix = npix

theorem val_vresize (l : List K) (n i : Nat) (hi : i < n) : val (vresize l n 0) i = val l i := by
  unfold val vresize
  by_cases h : i < l.length
  · rw [List.getElem?_append_left (by rw [List.length_take]; omega), List.getElem?_take, if_pos hi]
  · rw [List.getElem?_append_right (by rw [List.length_take]; omega), List.getElem?_eq_none (not_lt.mp h)]
    simp only [List.length_take, Option.getD_none]
    rw [List.getElem?_replicate]
    split <;> rfl

/-- What the sources contribute. -/
theorem fill_ok {nb npix : Nat} (useMask : Bool) {maps : List (SrcMap K)} (h : Binning nb npix maps) :
    ∃ c : Nat → K, ∀ out : List K, out.length = nb * npix →
      ∃ r, fill useMask maps out = .ok r ∧ r.length = nb * npix ∧ ∀ i < nb * npix, val r i = val out i + c i := by
  classical
  induction maps with
  | nil => exact ⟨fun _ => 0, fun out ho => ⟨out, rfl, ho, fun i _ => (add_zero _).symm⟩⟩
  | cons s ss ih =>
    obtain ⟨c, hc⟩ := ih (fun t ht => h t (List.mem_cons_of_mem _ ht))
    obtain ⟨h1, h2, h3⟩ := h s List.mem_cons_self
    refine ⟨fun i => (if s.Masked useMask (i / npix) (i % npix) then 0 else s.pix s.specWts (i / npix) (i % npix)) + c i,
      fun out ho => ?_⟩
    obtain ⟨o1, g1, g2, g3⟩ := updateModelMap_ok h1 useMask (map := out) (by rw [ho, h2, h3])
    obtain ⟨r, k1, k2, k3⟩ := hc o1 (by rw [g2, ho])
    refine ⟨r, by simp only [fill]; rw [g1, Res.bind_ok, k1], k2, fun i hi => ?_⟩
    have hn : 0 < npix := by
      rcases Nat.eq_zero_or_pos npix with hz | hz
      · rw [hz] at hi; omega
      · exact hz
    have e : i / npix * npix + i % npix = i := by rw [Nat.mul_comm]; exact Nat.div_add_mod i npix
    have := g3 (i / npix) (i % npix) (by rw [h2]; exact Nat.div_lt_of_lt_mul (by rw [Nat.mul_comm]; exact hi))
      (by rw [h3]; exact Nat.mod_lt _ hn)
    rw [h3, e] at this
    rw [k3 i hi, this, add_assoc]

/-- The result is what the vector held (padded with zeros) plus the map. -/
theorem C36_accumulates {nb npix : Nat} (useMask : Bool) {maps : List (SrcMap K)} (h : Binning nb npix maps) (out : List K) :
    ∃ fresh r, computeModelMap (nb * npix) maps useMask [] = .ok fresh ∧
      computeModelMap (nb * npix) maps useMask out = .ok r ∧ fresh.length = nb * npix ∧ r.length = nb * npix ∧
      ∀ i < nb * npix, val r i = val out i + val fresh i := by
  obtain ⟨c, hc⟩ := fill_ok useMask h
  obtain ⟨f, f1, f2, f3⟩ := hc (vresize [] (nb * npix) 0) (vresize_length _ _ _)
  obtain ⟨r, r1, r2, r3⟩ := hc (vresize out (nb * npix) 0) (vresize_length _ _ _)
  refine ⟨f, r, f1, r1, f2, r2, fun i hi => ?_⟩
  rw [r3 i hi, f3 i hi, val_vresize _ _ _ hi, val_vresize _ _ _ hi, val_nil, zero_add]

theorem fill_append (useMask : Bool) (l1 l2 : List (SrcMap K)) (out : List K) :
    fill useMask (l1 ++ l2) out = (fill useMask l1 out >>= fill useMask l2) := by
  induction l1 generalizing out with
  | nil => rfl
  | cons s l1 ih =>
    simp only [List.cons_append, fill]
    cases updateModelMap s useMask out with
    | ok o => simp only [Res.bind_ok]; exact ih o
    | throws => rfl
    | ub => rfl

/-- The map of several sources is the sum of their maps. -/
theorem C36_additive {nb npix : Nat} (useMask : Bool) {l1 l2 : List (SrcMap K)} (h1 : Binning nb npix l1)
    (h2 : Binning nb npix l2) :
    ∃ m1 m2 m, computeModelMap (nb * npix) l1 useMask [] = .ok m1 ∧ computeModelMap (nb * npix) l2 useMask [] = .ok m2 ∧
      computeModelMap (nb * npix) (l1 ++ l2) useMask [] = .ok m ∧ m.length = nb * npix ∧
      ∀ i < nb * npix, val m i = val m1 i + val m2 i := by
  obtain ⟨m1, -, f1, -, f3, -, -⟩ := C36_accumulates useMask h1 []
  obtain ⟨m2, m, g1, g2, -, g4, g5⟩ := C36_accumulates useMask h2 m1
  refine ⟨m1, m2, m, f1, g1, ?_, g4, g5⟩
  unfold computeModelMap at f1 g2 ⊢
  rw [fill_append, f1, Res.bind_ok, ← g2]
  congr 1
  rw [vresize, f3, Nat.sub_self, List.replicate_zero, List.append_nil, List.take_of_length_le (by rw [f3])]

/-- It is independent of what the vector held exactly when that was zero. -/
theorem C36_independent_iff_partial {nb npix : Nat} (useMask : Bool) {maps : List (SrcMap K)} (h : Binning nb npix maps)
    (out : List K) :
    computeModelMap (nb * npix) maps useMask out = computeModelMap (nb * npix) maps useMask [] ↔
      ∀ x ∈ out.take (nb * npix), x = 0 := by
  obtain ⟨f, r, h1, h2, h3, h4, h5⟩ := C36_accumulates useMask h out
  rw [h1, h2]
  constructor
  · intro e x hx
    obtain ⟨i, hi, rfl⟩ := List.mem_iff_getElem.mp hx
    rw [List.length_take] at hi
    have := h5 i (by omega)
    rw [Res.ok.inj e, val_lt (l := out) (by omega)] at this
    rw [List.getElem_take]
    exact right_eq_add.mp this
  · intro hz
    congr 1
    refine ext_val (by rw [h3, h4]) fun i hi => ?_
    rw [h4] at hi
    rw [h5 i hi]
    by_cases hl : i < out.length
    · rw [val_lt hl, hz out[i] (List.mem_iff_getElem.mpr ⟨i, by rw [List.length_take]; omega, by rw [List.getElem_take]⟩), zero_add]
    · rw [val_ge (not_lt.mp hl), zero_add]

/-- Calling it twice with the same vector gives twice the map: wrong unless the map is zero. -/
theorem C36_twice_violates {nb npix : Nat} (useMask : Bool) {maps : List (SrcMap K)} (h : Binning nb npix maps) :
    ∃ fresh twice, computeModelMap (nb * npix) maps useMask [] = .ok fresh ∧
      computeModelMap (nb * npix) maps useMask fresh = .ok twice ∧
      (∀ i < nb * npix, val twice i = val fresh i + val fresh i) ∧ ((∃ i, val fresh i ≠ 0) → twice ≠ fresh) := by
  obtain ⟨f0, -, h1, -, h3, -, -⟩ := C36_accumulates useMask h []
  obtain ⟨f, r, g1, g2, g3, g4, g5⟩ := C36_accumulates useMask h f0
  have e : f = f0 := Res.ok.inj (g1.symm.trans h1)
  subst e
  refine ⟨f, r, g1, g2, g5, fun ⟨i, hi⟩ hr => ?_⟩
  have hi' : i < nb * npix := by
    by_contra hc
    exact hi (val_ge (by rw [g3]; exact not_lt.mp hc))
  have := g5 i hi'
  rw [hr] at this
  exact hi (left_eq_add.mp this)

/-- `extractModelFromSource` sets the vector to zero first, so it has no such dependence. -/
theorem C36_extract {nb npix : Nat} {s : SrcMap K} (h : s.Ok) (hb : s.nebins = nb) (hn : s.npix = npix) (out : List K) :
    extractModel (nb * npix) s out = computeModelMap (nb * npix) [s] false [] := by
  unfold extractModel
  refine (C36_independent_iff_partial false (fun t ht => ?_) _).mpr fun x hx => ?_
  · rw [List.mem_singleton.mp ht]; exact ⟨h, hb, hn⟩
  · exact (List.mem_replicate.mp (List.mem_of_mem_take hx)).2

example : Binning 2 1 [exBorrow, exBorrow] := by
  intro s hs
  simp only [List.mem_cons, List.not_mem_nil, or_false, or_self] at hs
  subst hs
  exact ⟨exBorrow_ok, rfl, rfl⟩

/-- Two calls with the same vector, for one source: the map is [1, 5], the second call gives
[2, 10]. -/
example : computeModelMap 2 [exBorrow] false [] = .ok [1, 5] ∧ computeModelMap 2 [exBorrow] false [1, 5] = .ok [2, 10] := by
  constructor <;> decide +kernel

end Verif.MapOut
