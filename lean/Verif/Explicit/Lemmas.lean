import Verif.Explicit.Model
import Verif.Explicit.Spec
import Verif.MapOut.Props
import Verif.FitUtils.Lemmas
set_option linter.unusedSectionVars false
set_option linter.unusedSimpArgs false
set_option linter.unusedVariables false
namespace Verif.Explicit

open Edisp MapOut Vec Spec
open scoped BigOperators

variable {K : Type} [Field K] [LinearOrder K]

theorem sumVector_eq (l : List K) : sumVector l = ∑ i ∈ Finset.range l.length, val l i := by
  unfold sumVector
  rw [foldl_sum, zero_add, ← sum_val]

theorem zip_fold : ∀ (a b : List K) (acc : K), a.length = b.length →
    (a.zip b).foldl (fun acc z => acc + z.1 * z.2) acc = acc + ∑ i ∈ Finset.range a.length, val a i * val b i
  | [], [], acc, _ => by simp
  | x :: a, y :: b, acc, h => by
    rw [List.zip_cons_cons, List.foldl_cons, zip_fold a b _ (by simpa using h), List.length_cons, Finset.sum_range_succ']
    simp only [val_cons_zero, val_cons_succ]
    ring

theorem inner_eq {a b : List K} (h : a.length = b.length) :
    innerProduct a b = .ok (∑ i ∈ Finset.range a.length, val a i * val b i) := by
  unfold innerProduct
  rw [if_neg (by simpa using h), zip_fold a b 0 h, zero_add]

theorem total_eq {w : Option (List K)} {weighted : Bool} {m : List K} (hg : Given w weighted)
    (hw : ∀ ws, w = some ws → ws.length = m.length) :
    total w weighted m = .ok (∑ i ∈ Finset.range m.length, wtAt w weighted i * val m i) := by
  unfold total wtAt
  cases weighted with
  | false =>
    rw [if_neg (by decide), sumVector_eq]
    simp
  | true =>
    rw [if_pos rfl]
    cases w with
    | none => exact absurd rfl (hg rfl)
    | some ws =>
      simp only [if_true]
      rw [inner_eq (hw ws rfl).symm]
      refine congrArg Res.ok (Finset.sum_congr rfl fun i _ => mul_comm _ _)

/-- A pixel is not masked exactly if it is kept. -/
theorem masked_iff {s : SrcMap K} {w : Option (List K)} (hw : s.weights = w) (k p : Nat) :
    ¬ s.Masked true k p ↔ Kept w (k * s.npix + p) := by
  unfold SrcMap.Masked SrcMap.wt Kept
  subst hw
  cases hs : s.weights with
  | none => simp
  | some ws => simp

open Classical in
/-- What a source adds to pixel `i`. -/
noncomputable def part (w : Option (List K)) (M : List K) (i : Nat) : K := if Kept w i then val M i else 0

theorem update_ok {nb npix : Nat} {w : Option (List K)} {s : SrcMap K} (h : s.Ok) (hb : s.nebins = nb) (hn : s.npix = npix)
    (hw : s.weights = w) {M : List K} (hM : MapOf s M) {out : List K} (ho : out.length = nb * npix) :
    ∃ r, updateModelMap s true out = .ok r ∧ r.length = nb * npix ∧ ∀ i < nb * npix, val r i = val out i + part w M i := by
  classical
  obtain ⟨r, g1, g2, g3⟩ := updateModelMap_ok h true (map := out) (by rw [ho, hb, hn])
  obtain ⟨m, k1, k2, k3⟩ := updateModelMap_ok h false (map := List.replicate (s.nebins * s.npix) 0) (by simp)
  obtain rfl : m = M := Res.ok.inj (k1.symm.trans hM.2)
  refine ⟨r, g1, by rw [g2, ho], fun i hi => ?_⟩
  have hp : 0 < npix := by
    rcases Nat.eq_zero_or_pos npix with hz | hz
    · rw [hz] at hi; omega
    · exact hz
  have e : i / npix * npix + i % npix = i := by rw [Nat.mul_comm]; exact Nat.div_add_mod i npix
  have hk : i / npix < s.nebins := by rw [hb]; exact Nat.div_lt_of_lt_mul (by rw [Nat.mul_comm]; exact hi)
  have hq : i % npix < s.npix := by rw [hn]; exact Nat.mod_lt _ hp
  have a1 := g3 (i / npix) (i % npix) hk hq
  have a2 := k3 (i / npix) (i % npix) hk hq
  have a3 := masked_iff hw (i / npix) (i % npix)
  rw [hn, e] at a1 a2 a3
  rw [a1]
  unfold part
  rw [if_neg (by simp [SrcMap.Masked]), val_replicate_zero, zero_add] at a2
  rw [a2]
  by_cases hm : s.Masked true (i / npix) (i % npix)
  · rw [if_pos hm, if_neg (fun hc => (a3.mpr hc) hm)]
  · rw [if_neg hm, if_pos (a3.mp hm)]

theorem fill_part {nb npix : Nat} {w : Option (List K)} (M : SrcMap K → List K) : ∀ (maps : List (SrcMap K)),
    Like nb npix w maps → (∀ s ∈ maps, MapOf s (M s)) → ∀ out : List K, out.length = nb * npix →
    ∃ r, fill true maps out = .ok r ∧ r.length = nb * npix ∧
      ∀ i < nb * npix, val r i = val out i + (maps.map (fun s => part w (M s) i)).sum
  | [], _, _, out, ho => ⟨out, rfl, ho, fun i _ => by simp⟩
  | s :: ss, h, hM, out, ho => by
    obtain ⟨h1, h2, h3, h4⟩ := h s List.mem_cons_self
    obtain ⟨o, g1, g2, g3⟩ := update_ok h1 h2 h3 h4 (hM s List.mem_cons_self) ho
    obtain ⟨r, k1, k2, k3⟩ := fill_part M ss (fun t ht => h t (List.mem_cons_of_mem _ ht))
      (fun t ht => hM t (List.mem_cons_of_mem _ ht)) o g2
    refine ⟨r, by simp only [fill]; rw [g1, Res.bind_ok, k1], k2, fun i hi => ?_⟩
    rw [k3 i hi, g3 i hi, List.map_cons, List.sum_cons, add_assoc]

theorem map_part {nb npix : Nat} {w : Option (List K)} (M : SrcMap K → List K) {maps : List (SrcMap K)}
    (h : Like nb npix w maps) (hM : ∀ s ∈ maps, MapOf s (M s)) :
    ∃ r, computeModelMap (nb * npix) maps true (List.replicate (nb * npix) 0) = .ok r ∧ r.length = nb * npix ∧
      ∀ i < nb * npix, val r i = (maps.map (fun s => part w (M s) i)).sum := by
  obtain ⟨r, k1, k2, k3⟩ := fill_part M maps h hM (vresize (List.replicate (nb * npix) 0) (nb * npix) 0) (vresize_length _ _ _)
  refine ⟨r, k1, k2, fun i hi => ?_⟩
  rw [k3 i hi, val_vresize _ _ _ hi, val_replicate_zero, zero_add]

theorem sum_part {w : Option (List K)} {weighted : Bool} {M : List K} {n : Nat} (hn : M.length = n) :
    ∑ i ∈ Finset.range n, wtAt w weighted i * part w M i = keptSum w weighted M := by
  classical
  unfold keptSum part
  rw [Finset.sum_filter, hn]
  refine Finset.sum_congr rfl fun i _ => ?_
  by_cases h : Kept w i
  · rw [if_pos h, if_pos h]
  · rw [if_neg h, if_neg h, mul_zero]

theorem sum_list {ι : Type} (n : Nat) (l : List ι) (f : ι → Nat → K) :
    ∑ i ∈ Finset.range n, (l.map (fun s => f s i)).sum = (l.map (fun s => ∑ i ∈ Finset.range n, f s i)).sum := by
  induction l with
  | nil => simp
  | cons a l ih => simp only [List.map_cons, List.sum_cons, Finset.sum_add_distrib, ih]

theorem mul_list {ι : Type} (c : K) (l : List ι) (f : ι → K) :
    c * (l.map f).sum = (l.map (fun s => c * f s)).sum := by
  induction l with
  | nil => simp
  | cons a l ih => simp only [List.map_cons, List.sum_cons, mul_add, ih]

theorem npred_ok {nb npix : Nat} {w : Option (List K)} (M : SrcMap K → List K) {maps : List (SrcMap K)}
    (h : Like nb npix w maps) (hM : ∀ s ∈ maps, MapOf s (M s)) {weighted : Bool} (hg : Given w weighted)
    (hw : ∀ ws, w = some ws → ws.length = nb * npix) :
    npredExplicit (nb * npix) w maps weighted = .ok ((maps.map (fun s => keptSum w weighted (M s))).sum) := by
  obtain ⟨r, k1, k2, k3⟩ := map_part M h hM
  unfold npredExplicit
  rw [k1, Res.bind_ok, total_eq hg (by rw [k2]; exact hw), k2]
  refine congrArg Res.ok ?_
  have : ∀ i ∈ Finset.range (nb * npix), wtAt w weighted i * val r i =
      (maps.map (fun s => wtAt w weighted i * part w (M s) i)).sum := by
    intro i hi
    rw [k3 i (Finset.mem_range.mp hi), mul_list]
  rw [Finset.sum_congr rfl this, sum_list]
  refine congrArg List.sum (List.map_congr_left fun s hs => sum_part ?_)
  rw [(hM s hs).1, (h s hs).2.1, (h s hs).2.2.1]

theorem src_weights {nb npix : Nat} {w : Option (List K)} {s : SrcMap K} (h : Like nb npix w [s]) :
    ∀ ws, w = some ws → ws.length = nb * npix := by
  intro ws hs
  obtain ⟨h1, h2, h3, h4⟩ := h s List.mem_cons_self
  rw [h1.weights ws (h4.trans hs), h2, h3]

theorem src_ok {nb npix : Nat} {w : Option (List K)} {s : SrcMap K} (h : Like nb npix w [s]) {M : List K} (hM : MapOf s M)
    {weighted : Bool} (hg : Given w weighted) :
    npredExplicitSrc (nb * npix) w s weighted = .ok (keptSum w weighted M) := by
  have := npred_ok (fun _ => M) h (fun t ht => by rw [List.mem_singleton] at ht; subst ht; exact hM) hg (src_weights h)
  simpa [npredExplicit, npredExplicitSrc] using this

theorem mapOf_exists {s : SrcMap K} (h : s.Ok) : ∃ M, MapOf s M := by
  obtain ⟨m, k1, k2, -⟩ := updateModelMap_ok h false (map := List.replicate (s.nebins * s.npix) 0) (by simp)
  exact ⟨m, by rw [k2]; simp, k1⟩

/-- Sums over bins and pixels. -/
theorem sum_bins (nb npix : Nat) (f : Nat → K) :
    ∑ k ∈ Finset.range nb, ∑ p ∈ Finset.range npix, f (k * npix + p) = ∑ i ∈ Finset.range (nb * npix), f i := by
  induction nb with
  | zero => simp
  | succ nb ih => rw [Finset.sum_range_succ, ih, Nat.succ_mul, Finset.sum_range_add]

theorem llLoop_zero : ∀ (d m : List ℝ) (N L : ℝ), d.length = m.length →
    (∃ k < d.length, (1e-9 : ℝ) < val d k ∧ val m k = 0) → FitUtils.llLoop d m N L = .throws
  | [], [], _, _, _, h => by obtain ⟨k, hk, -⟩ := h; simp at hk
  | d :: ds, m :: ms, N, L, hl, h => by
    rw [FitUtils.llLoop]
    by_cases h1 : m < 0
    · rw [if_pos h1]
    · rw [if_neg h1]
      obtain ⟨k, hk, h2, h3⟩ := h
      cases k with
      | zero =>
        simp only [val_cons_zero] at h2 h3
        rw [if_pos h2, if_pos (by rw [h3])]
      | succ k =>
        have ih := fun N L => llLoop_zero ds ms N L (by simpa using hl) ⟨k, by simpa using hk, by simpa using h2, by simpa using h3⟩
        rw [ih, ih]
        split
        · split <;> rfl
        · rfl

end Verif.Explicit
