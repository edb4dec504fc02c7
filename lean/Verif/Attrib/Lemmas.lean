import Verif.Attrib.Model
import Verif.Attrib.Spec
import Verif.Binned.History
set_option linter.unusedVariables false
set_option linter.unusedSimpArgs false
set_option linter.unusedSectionVars false
namespace Verif.Attrib
open Verif.Vec Verif.Binned Verif.Edisp Verif.Drm
open Verif.StdMap (find put erase keys)
open scoped BigOperators

variable {ν : Type} [LinearOrder ν] {e : Env} {L : ν → Bool × (Nat → List ℝ)} {st : St ν} {raw : List ℝ}

/-! ### the unweighted evaluation -/

theorem refreshCache_len {u : Bool} {t : Nat → List ℝ} {m : MapObj} (h : Fit e u t m) (he : e.Ok)
    (hev : 0 ≤ e.ev) (hok : m.map.Ok) :
    ∃ m', refreshCache e m = .ok m' ∧ m'.cache.trueC.length = e.nebins ∧
      m'.cache.measC.length = e.nebins := by
  have hn := h.nebins
  have hmev := h.evNonneg hev
  obtain ⟨c, c1, c2, c3, c4, -⟩ := updateCache_ok hok
    (d := e.rsp) (by rw [he.nmeas, hn]) (fun hh => absurd hmev (by omega))
    (raw := (List.range e.rsp.nmeas).map (fun k => (measAt m.map k).1))
    (by unfold rawMeas measured; rw [if_neg (by omega)]) (by simp [he.nmeas, hn])
  refine ⟨{ m with map := withCache m.map c, cache := c }, ?_, ?_, ?_⟩
  · unfold refreshCache
    rw [computeNpreds_ok hok, Res.bind_ok]
    simp only
    rw [c1, Res.bind_ok]
  · change c.trueC.length = _
    rw [c2]; simp [hn]
  · change c.measC.length = _
    rw [c4]; simp [he.nmeas]

theorem npredValue_plain (h : Inv e L st) (he : e.Ok) (hev : 0 ≤ e.ev) (hk : st.kmax ≤ e.nebins)
    {n : ν} {σ : Src} (hn : find st.srcs n = some σ) {st' : St ν} {x : ℝ}
    (hv : npredValue e st n σ true = .ok (st', x)) : ∃ y, npredValue e st n σ false = .ok (st', y) := by
  obtain ⟨m, g1, g2, g3⟩ := getMap_ok h he hev hn
  obtain ⟨s1, s2⟩ := setSpectral_fit g2 σ false
  have hok := h.mapOk he hn s1 s2
  obtain ⟨m', r1, r2, r3⟩ := refreshCache_len s1 he hev hok
  unfold npredValue at hv ⊢
  rw [g1, Res.bind_ok] at hv ⊢
  simp only at hv ⊢
  rw [r1, Res.bind_ok] at hv ⊢
  obtain ⟨v, _, h2⟩ := Res.bind_eq_ok.1 hv
  have hs : ∃ y, summedCounts m'.cache (st.putMap n m).kmin (st.putMap n m).kmax
      (edispFlag (st.putMap n m) σ) false = .ok y := by
    unfold summedCounts
    simp only [Bool.false_eq_true, if_false]
    have e2 : (st.putMap n m).kmax = st.kmax := rfl
    refine ⟨_, loop_sum (fun k => val (if edispFlag (st.putMap n m) σ = 0 then m'.cache.trueC
      else m'.cache.measC) k) 0 ?_⟩
    intro k acc h1 h2
    rw [vget_val, Res.bind_ok]
    split <;> omega
  obtain ⟨y, hy⟩ := hs
  rw [hy, Res.bind_ok]
  cases h2
  exact ⟨y, rfl⟩

theorem evalLoop_plain (he : e.Ok) (hev : 0 ≤ e.ev) (rest : List (ν × Src)) (st : St ν)
    (mc : List ℝ) (np np' : ℝ) (h : Inv e L st) (hk : st.kmax ≤ e.nebins)
    (hr : ∀ x ∈ rest, find st.srcs x.1 = some x.2) (hmc : mc.length = e.filled.length)
    {st' : St ν} {out : List ℝ} {x : ℝ} (hv : evalLoop e true rest st mc np = .ok (st', out, x)) :
    ∃ y, evalLoop e false rest st mc np' = .ok (st', out, y) := by
  induction rest generalizing st mc np np' with
  | nil =>
    unfold evalLoop at hv
    cases hv
    exact ⟨np', rfl⟩
  | cons z rest ih =>
    obtain ⟨n, σ⟩ := z
    have hn : find st.srcs n = some σ := hr (n, σ) (by simp)
    obtain ⟨st1, a1, a2, a3⟩ := npredValue_ok h he hev hk hn
    obtain ⟨y, hy⟩ := npredValue_plain h he hev hk hn a1
    have hr1 : ∀ x ∈ rest, find st1.srcs x.1 = some x.2 := by
      intro y hy; rw [a3.srcs]; exact hr y (List.mem_cons_of_mem _ hy)
    unfold evalLoop at hv ⊢
    rw [a1, Res.bind_ok] at hv
    rw [hy, Res.bind_ok]
    simp only at hv ⊢
    by_cases hf : n ∈ st1.fixedNames
    · rw [if_pos hf] at hv ⊢
      exact ih st1 mc np np' a2 (by rw [a3.kmax]; exact hk) hr1 hmc hv
    · rw [if_neg hf] at hv ⊢
      have hn1 : find st1.srcs n = some σ := by rw [a3.srcs]; exact hn
      obtain ⟨m, out1, d1, d2, d3, d4, d5, d6, d7⟩ := addCounts_ok a2 he hev hn1 hmc false false
      rw [d1, Res.bind_ok] at hv ⊢
      simp only at hv ⊢
      obtain ⟨i1, i2⟩ := putMap_inv a2 d2 (d5 rfl)
      exact ih (st1.putMap n m) out1 _ _ i1 (by rw [i2.kmax, a3.kmax]; exact hk) hr1 d6 hv

/-- The evaluation without weights leaves the same object as the one with weights. -/
theorem computeModel_plain (h : Inv e L st) (he : e.Ok) (hev : 0 ≤ e.ev) (hk : st.kmax ≤ e.nebins) :
    ∃ st' y, computeModel e false st = .ok (st', y) ∧ Inv e L st' ∧
      st'.srcs = st.srcs ∧ st'.kmin = st.kmin ∧ st'.kmax = st.kmax ∧ st'.current = true ∧
      Evaluated e st' := by
  obtain ⟨st', c1, c2, c3, c4, c5, c6, c7⟩ := computeModel_ok h he hev hk
  obtain ⟨st1, u1, u2, u3, u4, u5, u6, u7⟩ := updateFixed_ok h he hev
  have hk1 : st1.kmax ≤ e.nebins := by rw [u5]; exact hk
  refine ⟨st', ?_⟩
  unfold computeModel at c1 ⊢
  rw [u1, Res.bind_ok] at c1 ⊢
  obtain ⟨mc, d1, c1⟩ := Res.bind_eq_ok.1 c1
  rw [d1, Res.bind_ok]
  obtain ⟨np, d2, c1⟩ := Res.bind_eq_ok.1 c1
  obtain ⟨⟨st2, out, x⟩, d3, c1⟩ := Res.bind_eq_ok.1 c1
  simp only at c1
  obtain ⟨model, d4, c1⟩ := Res.bind_eq_ok.1 c1
  have hfix : ∃ z, fixedNpred st1 false = .ok z := by
    unfold fixedNpred
    refine ⟨_, loop_sum (fun k => val st1.fixedSpec.edisp k) 0 ?_⟩
    intro k acc h1 h2
    simp only [Bool.false_eq_true, if_false]
    rw [vget_val (by rw [u2.sized.edisp]; omega), Res.bind_ok]
  obtain ⟨z, hz⟩ := hfix
  have hmc : mc.length = e.filled.length := by
    unfold copyOnZeros at d1
    rw [if_pos (by rw [u2.countsLen])] at d1
    cases d1
    simp [u2.countsLen]
  obtain ⟨y, hy⟩ := evalLoop_plain he hev st1.srcs st1 mc np z u2 hk1
    (fun x hx => StdMap.find_of_mem u2.sorted hx) hmc d3
  refine ⟨y, ?_, c2, c3, c4, c5, c6, c7⟩
  rw [hz, Res.bind_ok, hy, Res.bind_ok]
  simp only
  rw [d4, Res.bind_ok]
  cases c1
  rfl

/-- Outside the selected bins the model is zero. -/
theorem selectModel_outside (lay : Lay e) {kmin kmax : Nat} (hk : kmax ≤ e.nebins) (hkk : kmin ≤ kmax)
    {mc out : List ℝ}
    (h : selectModel e kmin kmax mc = .ok out) (hmc : mc.length = e.filled.length) (j : Nat)
    (hj : j < val e.first kmin ∨ val e.first kmax ≤ j) : val out j = 0 := by
  unfold selectModel at h
  obtain ⟨w, h1, h2, h3⟩ := loop_inv (lo := kmin) (n := kmax - kmin)
    (s := List.replicate e.filled.length (0 : ℝ))
    (body := fun k model => do
      let a ← vget e.first k
      let b ← vget e.first (k + 1)
      loop (fun j model => do
        let x ← vget mc j
        vset model j x) a (b - a) model)
    (fun i w => w.length = e.filled.length ∧
      ∀ j, j < val e.first kmin ∨ val e.first i ≤ j → val w j = 0)
    ⟨by simp, fun j _ => by
      unfold val
      rw [List.getElem?_replicate]
      split <;> rfl⟩
    (by
      rintro k w hk1 hk2 ⟨i1, i2⟩
      have hlast := lay.last (k + 1) (by omega)
      have hmono := lay.mono k (k + 1) (by omega) (by omega)
      have hmono2 := lay.mono kmin k (by omega) (by omega)
      obtain ⟨w', g1, g2, g3⟩ := loop_upd (v := w) (lo := val e.first k)
        (n := val e.first (k + 1) - val e.first k) (body := fun j model => do
          let x ← vget mc j
          vset model j x) (fun j _ => val mc j) (by omega)
        (fun j w' a b c => by
          rw [vget_val (by omega), Res.bind_ok, vset_lt _ _ _ (by omega)])
      refine ⟨w', ?_, by omega, ?_⟩
      · have e1 : vget e.first k = .ok (val e.first k) := vget_val (by rw [lay.len]; omega)
        have e2 : vget e.first (k + 1) = .ok (val e.first (k + 1)) :=
          vget_val (by rw [lay.len]; omega)
        rw [e1, Res.bind_ok, e2, Res.bind_ok]
        exact g1
      · intro j hj
        rw [g3, if_neg (by omega)]
        exact i2 j (by omega))
  rw [h1] at h
  cases h
  exact h3 j (by rw [show kmin + (kmax - kmin) = kmax by omega]; exact hj)

/-! ### the loop over the bins -/

theorem loop_fail {σ : Type _} {body : Nat → σ → Res σ} {lo n k : Nat} {s : σ} (hk : k < n)
    (h : ∀ i s, lo ≤ i → i < lo + n → body i s = .ub ∨ ∃ s', body i s = .ok s')
    (hub : ∀ s, body (lo + k) s = .ub) : loop body lo n s = .ub := by
  induction k generalizing lo n s with
  | zero =>
    obtain ⟨n, rfl⟩ : ∃ m, n = m + 1 := ⟨n - 1, by omega⟩
    rw [loop, show body lo s = .ub from hub s]
    rfl
  | succ k ih =>
    obtain ⟨n, rfl⟩ : ∃ m, n = m + 1 := ⟨n - 1, by omega⟩
    rw [loop]
    rcases h lo s le_rfl (by omega) with hs | ⟨s', hs⟩
    · rw [hs]; rfl
    · rw [hs, Res.bind_ok]
      exact ih (by omega) (fun i s h1 h2 => h i s (by omega) (by omega))
        (fun s => by rw [show lo + 1 + k = lo + (k + 1) by omega]; exact hub s)

theorem binCounts_ok (lay : Lay e) (hraw : raw.length = e.nebins * e.npix) {model mc : List ℝ}
    (hm : model.length = e.filled.length) (hc : mc.length = e.filled.length) {k : Nat}
    (hk : k < e.nebins) (C T : Nat → ℝ)
    (hC : ∀ j, val e.first k ≤ j → j < val e.first (k + 1) → val mc j = C (val e.filled j))
    (hT : ∀ j, val e.first k ≤ j → j < val e.first (k + 1) → val model j = T (val e.filled j))
    (hT0 : ∀ p < e.npix, 0 < val e.data (k * e.npix + p) → T p ≠ 0) :
    binCounts e raw model mc k = .ok (∑ p ∈ Finset.range e.npix,
      if 0 < val e.data (k * e.npix + p) then C p / T p * val raw (k * e.npix + p) else 0) := by
  have hlast := lay.last (k + 1) (by omega)
  unfold binCounts
  rw [vget_val (by rw [lay.len]; omega), Res.bind_ok, vget_val (by rw [lay.len]; omega), Res.bind_ok,
    loop_sum (fun j => C (val e.filled j) / T (val e.filled j) *
      val raw (k * e.npix + val e.filled j)), zero_add,
    ← lay.sum k hk (fun p => C p / T p * val raw (k * e.npix + p))]
  intro j acc h1 h2
  have h2' : j < val e.first (k + 1) := by
    have := lay.mono k (k + 1) (by omega) (by omega)
    omega
  have hp := lay.pix k hk j h1 h2'
  rw [vget_val (by omega), Res.bind_ok, vget_val (by omega), Res.bind_ok, hC j h1 h2', hT j h1 h2']
  unfold share
  rw [if_neg (hT0 _ hp (lay.pos k hk j h1 h2')), Res.bind_ok, vget_val (by omega), Res.bind_ok,
    vget_val (by rw [hraw]; exact idx_lt hp hk), Res.bind_ok]

theorem bins_ok {model mc : List ℝ} {kmin kmax : Nat} (F : Nat → ℝ)
    (h : ∀ k, kmin ≤ k → k < kmax → binCounts e raw model mc k = .ok (F k)) :
    bins e raw model mc kmin kmax = .ok ((List.range (kmax - kmin)).map (fun i => F (kmin + i))) := by
  unfold bins
  have := loop_eq (lo := kmin) (n := kmax - kmin)
    (f := fun i => (List.range (i - kmin)).map (fun i => F (kmin + i)))
    (body := fun k v => do
      let x ← binCounts e raw model mc k
      .ok (v ++ [x]))
    (by
      intro i h1 h2
      rw [h i h1 (by omega), Res.bind_ok, show i + 1 - kmin = (i - kmin) + 1 by omega, List.range_succ,
        List.map_append, List.map_cons, List.map_nil, show kmin + (i - kmin) = i by omega])
  simp only [Nat.sub_self, List.range_zero, List.map_nil] at this
  rw [this, show kmin + (kmax - kmin) - kmin = kmax - kmin by omega]

/-- A bin whose vectors have the right length is fine or undefined. -/
theorem binCounts_ub_or (lay : Lay e) (hraw : raw.length = e.nebins * e.npix) {model mc : List ℝ}
    (hm : model.length = e.filled.length) (hc : mc.length = e.filled.length) {k : Nat}
    (hk : k < e.nebins) : binCounts e raw model mc k = .ub ∨ ∃ x, binCounts e raw model mc k = .ok x := by
  have hlast := lay.last (k + 1) (by omega)
  have hmono := lay.mono k (k + 1) (by omega) (by omega)
  by_cases hz : ∃ j, val e.first k ≤ j ∧ j < val e.first (k + 1) ∧ val model j = 0
  · left
    obtain ⟨j, h1, h2, h3⟩ := hz
    unfold binCounts
    rw [vget_val (by rw [lay.len]; omega), Res.bind_ok, vget_val (by rw [lay.len]; omega), Res.bind_ok]
    apply loop_fail (k := j - val e.first k) (by omega)
    · intro i s h4 h5
      rw [vget_val (by omega), Res.bind_ok, vget_val (by omega), Res.bind_ok]
      unfold share
      by_cases hi : val model i = 0
      · left; rw [if_pos hi]; rfl
      · right
        rw [if_neg hi, Res.bind_ok, vget_val (by omega), Res.bind_ok,
          vget_val (by rw [hraw]; exact idx_lt (lay.pix k hk i h4 (by omega)) hk), Res.bind_ok]
        exact ⟨_, rfl⟩
    · intro s
      rw [show val e.first k + (j - val e.first k) = j by omega, vget_val (by omega), Res.bind_ok,
        vget_val (by omega), Res.bind_ok]
      unfold share
      rw [if_pos h3]; rfl
  · right
    unfold binCounts
    rw [vget_val (by rw [lay.len]; omega), Res.bind_ok, vget_val (by rw [lay.len]; omega), Res.bind_ok]
    refine ⟨_, loop_sum (fun j => val mc j / val model j * val raw (k * e.npix + val e.filled j)) 0 ?_⟩
    intro i s h4 h5
    have hi : val model i ≠ 0 := fun h => hz ⟨i, h4, by omega, h⟩
    rw [vget_val (by omega), Res.bind_ok, vget_val (by omega), Res.bind_ok]
    unfold share
    rw [if_neg hi, Res.bind_ok, vget_val (by omega), Res.bind_ok,
      vget_val (by rw [hraw]; exact idx_lt (lay.pix k hk i h4 (by omega)) hk), Res.bind_ok]

theorem binCounts_ub (lay : Lay e) (hraw : raw.length = e.nebins * e.npix) {model mc : List ℝ}
    (hm : model.length = e.filled.length) (hc : mc.length = e.filled.length) {k : Nat}
    (hk : k < e.nebins) {j : Nat} (h1 : val e.first k ≤ j) (h2 : j < val e.first (k + 1))
    (h3 : val model j = 0) : binCounts e raw model mc k = .ub := by
  have hlast := lay.last (k + 1) (by omega)
  unfold binCounts
  rw [vget_val (by rw [lay.len]; omega), Res.bind_ok, vget_val (by rw [lay.len]; omega), Res.bind_ok]
  apply loop_fail (k := j - val e.first k) (by omega)
  · intro i s h4 h5
    rw [vget_val (by omega), Res.bind_ok, vget_val (by omega), Res.bind_ok]
    unfold share
    by_cases hi : val model i = 0
    · left; rw [if_pos hi]; rfl
    · right
      rw [if_neg hi, Res.bind_ok, vget_val (by omega), Res.bind_ok,
        vget_val (by rw [hraw]; exact idx_lt (lay.pix k hk i h4 (by omega)) hk), Res.bind_ok]
      exact ⟨_, rfl⟩
  · intro s
    rw [show val e.first k + (j - val e.first k) = j by omega, vget_val (by omega), Res.bind_ok,
      vget_val (by omega), Res.bind_ok]
    unfold share
    rw [if_pos h3]; rfl

theorem bins_ub (lay : Lay e) (hraw : raw.length = e.nebins * e.npix) {model mc : List ℝ}
    (hm : model.length = e.filled.length) (hc : mc.length = e.filled.length) {kmin kmax k : Nat}
    (hkm : kmax ≤ e.nebins) (h1 : kmin ≤ k) (h2 : k < kmax) (h : binCounts e raw model mc k = .ub) :
    bins e raw model mc kmin kmax = .ub := by
  unfold bins
  apply loop_fail (k := k - kmin) (by omega)
  · intro i s h3 h4
    rcases binCounts_ub_or lay hraw hm hc (k := i) (by omega) with hx | ⟨x, hx⟩
    · left; rw [hx]; rfl
    · right; rw [hx]; exact ⟨_, rfl⟩
  · intro s
    rw [show kmin + (k - kmin) = k by omega, h]
    rfl

/-! ### the call -/

theorem evaluated_core {st st' : St ν} (h : Evaluated e st) (hi : Inv e L st) (hk : Keeps st st') :
    Evaluated e st' where
  perm := by rw [hk.fixedNames, hk.srcs]; exact h.perm
  cur := h.cur.keeps hi hk
  modelLen := by rw [hk.model]; exact h.modelLen
  model := by
    intro k h1 h2 j h3 h4
    rw [hk.kmin] at h1
    rw [hk.kmax] at h2
    rw [hk.model, hk.srcs]
    exact h.model k h1 h2 j h3 h4

theorem fresh_ok {a : Ideal ν} (h : Rel e L a st) (he : e.Ok) (hev : 0 ≤ e.ev) (hs : a.stale = false) :
    ∃ st' y, fresh e st = .ok (st', y) ∧ Inv e L st' ∧ st'.srcs = st.srcs ∧ st'.kmin = st.kmin ∧
      st'.kmax = st.kmax ∧ st'.current = true ∧ Evaluated e st' := by
  unfold fresh
  by_cases hc : st.current = true
  · rw [if_pos hc]
    rcases h.fresh hs with h' | h'
    · rw [hc] at h'; cases h'
    · exact ⟨st, 0, rfl, h.inv, rfl, rfl, rfl, hc, h'⟩
  · rw [if_neg hc]
    exact computeModel_plain h.inv he hev h.range

theorem sourceCounts_ok (h : Inv e L st) (he : e.Ok) (hev : 0 ≤ e.ev) {n : ν} {σ : Src}
    (hn : find st.srcs n = some σ) :
    ∃ st' out, sourceCounts e st n = .ok (st', out) ∧ Inv e L st' ∧ Keeps st st' ∧
      out.length = e.filled.length ∧
      ∀ k < e.nebins, ∀ j, val e.first k ≤ j → j < val e.first (k + 1) →
        val out j = counts e σ σ.vals k (val e.filled j) := by
  obtain ⟨m, out, d1, d2, d3, d4, d5, d6, d7⟩ := addCounts_ok h he hev hn
    (mc := List.replicate e.filled.length 0) (by simp) false false
  obtain ⟨i1, i2⟩ := putMap_inv h d2 (d5 rfl)
  refine ⟨st.putMap n m, out, ?_, i1, i2, d6, ?_⟩
  · unfold sourceCounts
    rw [hn]
    simp only
    rw [d1, Res.bind_ok]
  · intro k hk j h1 h2
    rw [d7 k hk j h1 h2]
    have : val (List.replicate e.filled.length (0 : ℝ)) j = 0 := by
      unfold val
      rw [List.getElem?_replicate]
      split <;> rfl
    rw [this]
    simp

/-- The data are positive where there are counts with a positive weight. -/
theorem attributed_eq (hd : Spec.Data e raw) {k : Nat} (hk : k < e.nebins) (C T : Nat → ℝ) :
    (∑ p ∈ Finset.range e.npix,
      if 0 < val e.data (k * e.npix + p) then C p / T p * val raw (k * e.npix + p) else 0) =
    ∑ p ∈ Finset.range e.npix, if 0 < wt e k p then Spec.obs e raw k p * (C p / T p) else 0 := by
  apply Finset.sum_congr rfl
  intro p hp
  rw [Finset.mem_range] at hp
  rw [hd.data k hk p hp]
  have ho : val raw (k * e.npix + p) = Spec.obs e raw k p := rfl
  rw [ho]
  by_cases hw : 0 < wt e k p
  · rw [if_pos hw]
    rcases (hd.nonneg k p).lt_or_eq with h | h
    · rw [if_pos (mul_pos hw h)]; ring
    · rw [← h]; simp
  · have : wt e k p = 0 := le_antisymm (not_lt.1 hw) (hd.wt k p)
    rw [this]; simp

theorem spectrum_rel {a : Ideal ν} (h : Rel e L a st) (he : e.Ok) (hev : 0 ≤ e.ev) (hs : a.stale = false)
    (hd : Spec.Data e raw) (hpos : Spec.Covers e raw a) {u : Bool} (hkk : a.kmin ≤ a.kmax)
    (hu : u = false → a.kmin = 0 ∧ a.kmax = e.nebins) {n : ν} {σ : Src} (hn : find a.srcs n = some σ) :
    ∃ st', countsSpectrum e raw st n u = .ok (st', (List.range (a.kmax - a.kmin)).map (fun i =>
        Spec.attributed e raw a.srcs σ (a.kmin + i))) ∧ Rel e L a st' := by
  have lay := lay_of he
  obtain ⟨st1, y, f1, f2, f3, f4, f5, f6, f7⟩ := fresh_ok h he hev hs
  have hn1 : find st1.srcs n = some σ := by rw [f3, h.srcs]; exact hn
  obtain ⟨st2, out, s1, s2, s3, s4, s5⟩ := sourceCounts_ok f2 he hev hn1
  have hev2 := evaluated_core f7 f2 s3
  have hlim : limits e st u = (a.kmin, a.kmax) := by
    unfold limits
    cases u with
    | true => rw [if_pos rfl, h.kmin, h.kmax]
    | false =>
      obtain ⟨h1, h2⟩ := hu rfl
      rw [if_neg (by simp), h1, h2]
  have hran : a.kmax ≤ e.nebins := by rw [← h.kmax]; exact h.range
  refine ⟨st2, ?_, ⟨s2, ?_, ?_, ?_, ?_, fun _ => hev2.modelLen, ?_, fun _ => Or.inr hev2⟩⟩
  · unfold countsSpectrum
    rw [hlim]
    simp only
    rw [if_neg (by omega), f1, Res.bind_ok]
    simp only
    rw [s1, Res.bind_ok]
    simp only
    rw [bins_ok (fun k => Spec.attributed e raw a.srcs σ k), Res.bind_ok]
    intro k h1 h2
    rw [binCounts_ok lay hd.len hev2.modelLen s4 (by omega) (fun p => counts e σ σ.vals k p)
      (fun p => total e a.srcs k p)]
    · rw [attributed_eq hd (by omega)]; rfl
    · intro j h3 h4
      exact s5 k (by omega) j h3 h4
    · intro j h3 h4
      rw [hev2.model k (by rw [s3.kmin, f4, h.kmin]; exact h1) (by rw [s3.kmax, f5, h.kmax]; exact h2)
        j h3 h4, s3.srcs, f3, h.srcs]
    · intro p hp hdat
      rw [hd.data k (by omega) p hp] at hdat
      have : 0 < Spec.obs e raw k p := by
        rcases (hd.nonneg k p).lt_or_eq with h' | h'
        · exact h'
        · rw [← h', mul_zero] at hdat; exact absurd hdat (lt_irrefl _)
      exact (hpos k h1 h2 p hp this).ne'
  · rw [s3.srcs, f3, h.srcs]
  · rw [s3.kmin, f4, h.kmin]
  · rw [s3.kmax, f5, h.kmax]
  · rw [s3.kmax, f5]; exact h.range
  · intro x hx _ τ m' hs' hm
    exact hev2.cur x hx τ m' hs' hm

theorem spectra_rel {a : Ideal ν} (he : e.Ok) (hev : 0 ≤ e.ev) (hs : a.stale = false)
    (hd : Spec.Data e raw) (hpos : Spec.Covers e raw a) {u : Bool} (hkk : a.kmin ≤ a.kmax)
    (hu : u = false → a.kmin = 0 ∧ a.kmax = e.nebins) (ns : List (ν × Src))
    (hn : ∀ x ∈ ns, find a.srcs x.1 = some x.2) {st : St ν} (h : Rel e L a st) :
    ∃ st', spectra e raw u (ns.map Prod.fst) st = .ok (st', ns.map (fun x =>
      (List.range (a.kmax - a.kmin)).map (fun i => Spec.attributed e raw a.srcs x.2 (a.kmin + i)))) ∧
      Rel e L a st' := by
  induction ns generalizing st with
  | nil => exact ⟨st, rfl, h⟩
  | cons x ns ih =>
    obtain ⟨st1, h1, h2⟩ := spectrum_rel h he hev hs hd hpos hkk hu (hn x List.mem_cons_self)
    obtain ⟨st2, h3, h4⟩ := ih (fun y hy => hn y (List.mem_cons_of_mem _ hy)) h2
    refine ⟨st2, ?_, h4⟩
    rw [List.map_cons, spectra, h1, Res.bind_ok]
    simp only
    rw [h3, Res.bind_ok]
    rfl

end Verif.Attrib
