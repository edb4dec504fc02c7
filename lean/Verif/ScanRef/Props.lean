import Verif.ScanRef.Model
import Verif.ScanRef.Spec
import Verif.Energy.Lemmas
import Mathlib.Tactic.Linarith
import Mathlib.Tactic.NormNum
set_option linter.unusedSimpArgs false
set_option linter.unusedVariables false
/-
Properties of the reference values of a scan.
-/
namespace Verif.ScanRef
open Verif Spec

/-- The bounds of a bin. -/
noncomputable def lo (es : List ℝ) (i : Nat) : ℝ := es.getD i 0

/-- The values after `k` bins. -/
structure Upto (s : Src) (es : List ℝ) (n k : Nat) (r : Refs) : Prop where
  le : r.energies.length = n
  lf : r.fluxes.length = n
  lg : r.efluxes.length = n
  lp : r.npreds.length = n
  e : ∀ i < k, r.energies[i]? = some (Real.sqrt (lo es i * lo es (i + 1)))
  f : ∀ i < k, r.fluxes[i]? = some (s.flux (lo es i) (lo es (i + 1)))
  g : ∀ i < k, r.efluxes[i]? = some (s.eflux (lo es i) (lo es (i + 1)))
  p : ∀ i < k, r.npreds[i]? = some (s.npred (lo es i) (lo es (i + 1)))

theorem get_lo {es : List ℝ} {i : Nat} (h : i < es.length) : vget es i = .ok (lo es i) := by
  rw [vget_lt es i h]
  congr 1
  unfold lo
  rw [List.getD_eq_getElem?_getD, List.getElem?_eq_getElem h]
  rfl

theorem set_upto {l : List ℝ} {k : Nat} {v : Nat → ℝ} (hk : k < l.length) (h : ∀ i < k, l[i]? = some (v i)) :
    ∀ i < k + 1, (l.set k (v k))[i]? = some (v i) := by
  intro i hi
  rw [List.getElem?_set]
  by_cases hik : k = i
  · subst hik
    simp [hk]
  · rw [if_neg hik]
    exact h i (by omega)

theorem bin_upto {s : Src} {es : List ℝ} {n k : Nat} {r : Refs} (hes : es.length = n + 1) (hk : k < n) (h : Upto s es n k r) :
    ∃ r', bin s es k r = .ok r' ∧ Upto s es n (k + 1) r' := by
  obtain ⟨h1, h2, h3, h4, h5, h6, h7, h8⟩ := h
  refine ⟨⟨r.energies.set k (Real.sqrt (lo es k * lo es (k + 1))), r.dndes, r.fluxes.set k (s.flux (lo es k) (lo es (k + 1))),
    r.efluxes.set k (s.eflux (lo es k) (lo es (k + 1))), r.npreds.set k (s.npred (lo es k) (lo es (k + 1)))⟩, ?_, ?_⟩
  · unfold bin
    rw [get_lo (by omega), Res.bind_ok, get_lo (by omega), Res.bind_ok, vset_lt _ _ _ (by omega), Res.bind_ok,
      vset_lt _ _ _ (by omega), Res.bind_ok, vset_lt _ _ _ (by omega), Res.bind_ok, vset_lt _ _ _ (by omega), Res.bind_ok]
  · exact ⟨by simpa using h1, by simpa using h2, by simpa using h3, by simpa using h4,
      set_upto (v := fun i => Real.sqrt (lo es i * lo es (i + 1))) (by omega) h5,
      set_upto (v := fun i => s.flux (lo es i) (lo es (i + 1))) (by omega) h6,
      set_upto (v := fun i => s.eflux (lo es i) (lo es (i + 1))) (by omega) h7,
      set_upto (v := fun i => s.npred (lo es i) (lo es (i + 1))) (by omega) h8⟩

/-- The values of a source whose exposure can be computed. -/
theorem cache_ok {s : Src} {es : List ℝ} {n : Nat} (hes : es.length = n + 1) (hx : s.exposed = true) (r : Refs) :
    ∃ r', cache s es n r = .ok r' ∧ Upto s es n n r' ∧ r'.dndes = r'.energies.map s.dnde := by
  obtain ⟨r1, h1, h2⟩ := loop_inv (body := bin s es) (Upto s es n) (lo := 0) (n := n) (s := r.resize n)
    ⟨vresize_length _ _ _, vresize_length _ _ _, vresize_length _ _ _, vresize_length _ _ _,
      (fun i h => by omega), (fun i h => by omega), (fun i h => by omega), (fun i h => by omega)⟩
    (fun i q _ hi hq => bin_upto hes (by omega) hq)
  rw [Nat.zero_add] at h2
  refine ⟨{ r1 with dndes := spectralVals s r1.energies }, ?_, ⟨h2.le, h2.lf, h2.lg, h2.lp, h2.e, h2.f, h2.g, h2.p⟩, rfl⟩
  unfold cache
  rw [if_pos hx, h1, Res.bind_ok]

/-- The row of a bin. -/
noncomputable def goal (s : Src) (es : List ℝ) (i : Nat) : Row :=
  ⟨i + 1, 1000 * lo es i, 1000 * lo es (i + 1), Real.sqrt (lo es i * lo es (i + 1)),
    s.dnde (Real.sqrt (lo es i * lo es (i + 1))), s.flux (lo es i) (lo es (i + 1)), s.eflux (lo es i) (lo es (i + 1)),
    s.npred (lo es i) (lo es (i + 1))⟩

theorem table_ok {s : Src} {es : List ℝ} {n : Nat} {r : Refs} (hes : es.length = n + 1) (h : Upto s es n n r)
    (hd : r.dndes = r.energies.map s.dnde) : table es n r = .ok ((List.range n).map (goal s es)) := by
  unfold table
  apply mapM_ok
  intro i hi
  have hi : i < n := List.mem_range.mp hi
  have hdn : vget r.dndes i = .ok (s.dnde (Real.sqrt (lo es i * lo es (i + 1)))) := by
    rw [vget_eq_ok, hd, List.getElem?_map, h.e i hi]
    rfl
  unfold rowOf
  rw [get_lo (by omega), Res.bind_ok, get_lo (by omega), Res.bind_ok, vget_eq_ok.mpr (h.e i hi), Res.bind_ok, hdn,
    Res.bind_ok, vget_eq_ok.mpr (h.f i hi), Res.bind_ok, vget_eq_ok.mpr (h.g i hi), Res.bind_ok,
    vget_eq_ok.mpr (h.p i hi), Res.bind_ok]
  rfl

theorem goal_table (s : Src) {es : List ℝ} {n : Nat} (hes : es.length = n + 1) :
    TableOf s es ((List.range n).map (goal s es)) := by
  refine ⟨by simp [hes], ?_⟩
  intro i a b r ha hb hr
  have hi : i < n := by
    by_contra hc
    rw [List.getElem?_eq_none (by simp; omega)] at hr
    cases hr
  rw [List.getElem?_map, List.getElem?_range hi] at hr
  cases hr
  have ea : lo es i = a := by
    unfold lo; rw [List.getD_eq_getElem?_getD, ha]; rfl
  have eb : lo es (i + 1) = b := by
    unfold lo; rw [List.getD_eq_getElem?_getD, hb]; rfl
  exact ⟨rfl, by simp [goal, ea], by simp [goal, eb], by simp [goal, ea, eb], by simp [goal, ea, eb], by simp [goal, ea, eb],
    by simp [goal, ea, eb]⟩

theorem cache_total (s : Src) {es : List ℝ} {n : Nat} (hes : es.length = n + 1) (r : Refs) : ∃ r', cache s es n r = .ok r' := by
  cases hx : s.exposed
  · exact ⟨r.resize n, by unfold cache; simp [hx]⟩
  · obtain ⟨r', h, _⟩ := cache_ok hes hx r
    exact ⟨r', h⟩

theorem history_total {es : List ℝ} {n : Nat} (hes : es.length = n + 1) : ∀ (l : List Src) (r : Refs), ∃ r', history es n l r = .ok r'
  | [], r => ⟨r, rfl⟩
  | s :: l, r => by
    obtain ⟨r1, h1⟩ := cache_total s hes r
    obtain ⟨r2, h2⟩ := history_total hes l r1
    exact ⟨r2, by rw [history, h1, Res.bind_ok, h2]⟩

theorem history_append {es : List ℝ} {n : Nat} (m : List Src) : ∀ (l : List Src) (r : Refs),
    history es n (l ++ m) r = (history es n l r >>= history es n m)
  | [], r => rfl
  | s :: l, r => by
    rw [List.cons_append, history, history]
    cases h : cache s es n r with
    | ok q => rw [Res.bind_ok, Res.bind_ok, history_append m l q]
    | throws => rfl
    | ub => rfl

/-- After any test sources, if the exposure of the last can be computed, the table has the bounds of the
bins, in keV, and the values of this source.  Partial: see `C163_stale_violates`. -/
theorem C163_last_partial {es : List ℝ} {n : Nat} (hes : es.length = n + 1) (before : List Src) {s : Src} (hx : s.exposed = true) (r : Refs) :
    ∃ r' t, history es n (before ++ [s]) r = .ok r' ∧ table es n r' = .ok t ∧ TableOf s es t := by
  obtain ⟨r1, h1⟩ := history_total hes before r
  obtain ⟨r2, h2, h3, h4⟩ := cache_ok hes hx r1
  refine ⟨r2, _, ?_, table_ok hes h3 h4, goal_table s hes⟩
  rw [history_append, h1, Res.bind_ok, history, h2, Res.bind_ok]
  rfl

/-- The values are resized to the size they have. -/
theorem resize_same {s : Src} {es : List ℝ} {n : Nat} {r : Refs} (h : Upto s es n n r) (hd : r.dndes = r.energies.map s.dnde) :
    r.resize n = r := by
  have key : ∀ l : List ℝ, l.length = n → vresize l n 0 = l := by
    intro l hl
    unfold vresize
    subst hl
    simp
  have hdl : r.dndes.length = n := by rw [hd, List.length_map, h.le]
  cases r
  simp only [Refs.resize] at *
  rw [key _ h.le, key _ hdl, key _ h.lf, key _ h.lg, key _ h.lp]

/-- If the exposure of a test source cannot be computed, this is no error, and the table has the values of
the source before. -/
theorem C163_stale_violates {es : List ℝ} {n : Nat} (hes : es.length = n + 1) (before : List Src) {s s' : Src} (hx : s.exposed = true)
    (hx' : s'.exposed = false) (r : Refs) (hdiff : ∃ i < n, s.flux (lo es i) (lo es (i + 1)) ≠ s'.flux (lo es i) (lo es (i + 1))) :
    ∃ r' t, history es n (before ++ [s, s']) r = .ok r' ∧ table es n r' = .ok t ∧ TableOf s es t ∧ ¬ TableOf s' es t := by
  obtain ⟨r1, h1⟩ := history_total hes before r
  obtain ⟨r2, h2, h3, h4⟩ := cache_ok hes hx r1
  have hc : cache s' es n r2 = .ok r2 := by
    unfold cache
    rw [if_neg (by simp [hx']), resize_same h3 h4]
  refine ⟨r2, _, ?_, table_ok hes h3 h4, goal_table s hes, ?_⟩
  · rw [history_append, h1, Res.bind_ok, history, h2, Res.bind_ok, history, hc, Res.bind_ok]
    rfl
  · rintro ⟨_, ht⟩
    obtain ⟨i, hi, hne⟩ := hdiff
    have hl : ∀ j, j < n + 1 → es[j]? = some (lo es j) := fun j hj => vget_eq_ok.mp (get_lo (by omega))
    have := ht i _ _ (goal s es i) (hl i (by omega)) (hl (i + 1) (by omega)) (by
      rw [List.getElem?_map, List.getElem?_range hi]; rfl)
    exact hne this.2.2.2.2.1

/-- If the exposure of the first test source cannot be computed, all reference values are zero. -/
theorem C163_zero_violates {es : List ℝ} {n : Nat} (hes : es.length = n + 1) {s : Src} (hx : s.exposed = false) :
    ∃ r' t, history es n [s] Refs.empty = .ok r' ∧ table es n r' = .ok t ∧ t.length = n ∧
      ∀ q ∈ t, q.eref = 0 ∧ q.dnde = 0 ∧ q.flux = 0 ∧ q.eflux = 0 ∧ q.npred = 0 := by
  have hz : ∀ i, i < n → vget (vresize ([] : List ℝ) n 0) i = .ok 0 := by
    intro i hi
    rw [vget_eq_ok]
    simp [vresize, hi]
  refine ⟨Refs.empty.resize n, (List.range n).map fun i : Nat => ⟨i + 1, 1000 * lo es i, 1000 * lo es (i + 1), 0, 0, 0, 0, 0⟩, ?_, ?_, by simp, ?_⟩
  · rw [history]
    simp [cache, hx, history]
  · unfold table
    apply mapM_ok
    intro i hi
    have hi : i < n := List.mem_range.mp hi
    unfold rowOf
    simp only [Refs.resize, Refs.empty]
    rw [get_lo (by omega), Res.bind_ok, get_lo (by omega), Res.bind_ok, hz i hi]
    simp only [Res.bind_ok]
  · intro q hq
    obtain ⟨i, _, rfl⟩ := List.mem_map.mp hq
    exact ⟨rfl, rfl, rfl, rfl, rfl⟩

/-- Without any test source the table cannot be written: the values are read outside of their lists. -/
theorem C163_never_violates {es : List ℝ} {n : Nat} (hes : es.length = n + 1) (hn : 0 < n) :
    table es n Refs.empty = .ub := by
  obtain ⟨m, rfl⟩ : ∃ m, n = m + 1 := ⟨n - 1, by omega⟩
  unfold table
  rw [List.range_succ_eq_map, List.mapM_cons]
  have : rowOf es Refs.empty 0 = .ub := by
    unfold rowOf
    rw [get_lo (by omega), Res.bind_ok, get_lo (by omega), Res.bind_ok]
    rfl
  rw [this]
  rfl

/-- The reference energy is written in MeV beside bounds in keV: unless the bin is a thousand times wide, it
is not in its bin. -/
theorem C163_energy_violates {s : Src} {es : List ℝ} {n : Nat} (hes : es.length = n + 1) (hx : s.exposed = true) (r : Refs)
    (hpos : ∀ i < n, 0 < lo es i ∧ lo es i < lo es (i + 1) ∧ lo es (i + 1) < 1000 * lo es i) :
    ∃ r' t, history es n [s] r = .ok r' ∧ table es n r' = .ok t ∧ TableOf s es t ∧ ∀ q ∈ t, q.eref < q.emin ∧ ¬ InBin q := by
  obtain ⟨r2, h2, h3, h4⟩ := cache_ok hes hx r
  refine ⟨r2, _, ?_, table_ok hes h3 h4, goal_table s hes, ?_⟩
  · rw [history, h2, Res.bind_ok]
    rfl
  · intro q hq
    obtain ⟨i, hi, rfl⟩ := List.mem_map.mp hq
    obtain ⟨p1, p2, p3⟩ := hpos i (List.mem_range.mp hi)
    have hlt : Real.sqrt (lo es i * lo es (i + 1)) < 1000 * lo es i := by
      rw [Real.sqrt_lt' (by linarith)]
      nlinarith
    exact ⟨hlt, fun h => absurd h.1 (not_le.mpr hlt)⟩

/-- Ten bins a decade. -/
example : ∀ i < 2, 0 < lo [100, 125, 158] i ∧ lo [100, 125, 158] i < lo [100, 125, 158] (i + 1) ∧
    lo [100, 125, 158] (i + 1) < 1000 * lo [100, 125, 158] i := by
  intro i hi
  rcases (by omega : i = 0 ∨ i = 1) with rfl | rfl <;> simp [lo] <;> norm_num

/-- Two sources with different fluxes. -/
example : ∃ s s' : Src, s.exposed = true ∧ s'.exposed = false ∧
    ∃ i < 2, s.flux (lo [100, 125, 158] i) (lo [100, 125, 158] (i + 1)) ≠ s'.flux (lo [100, 125, 158] i) (lo [100, 125, 158] (i + 1)) :=
  ⟨⟨true, fun _ _ => 1, fun _ _ => 1, fun _ _ => 1, fun _ => 1⟩, ⟨false, fun _ _ => 2, fun _ _ => 2, fun _ _ => 2, fun _ => 2⟩,
    rfl, rfl, 0, by omega, by norm_num⟩

end Verif.ScanRef
