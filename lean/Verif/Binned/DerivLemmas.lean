import Verif.Binned.Lemmas
import Mathlib.Analysis.Calculus.Deriv.Add
import Mathlib.Analysis.Calculus.Deriv.Mul
import Mathlib.Analysis.SpecialFunctions.Log.Deriv
set_option linter.unusedVariables false
set_option linter.unusedSimpArgs false
set_option linter.unusedSectionVars false
namespace Verif.Binned

open Verif.Vec Verif.Edisp Verif.Drm
open Verif.StdMap (find put erase keys)
open scoped BigOperators

variable {ν : Type} [LinearOrder ν] {e : Env} {L : ν → Bool × (Nat → List ℝ)} {st : St ν}

/-- Derivative of the counts of a source. -/
noncomputable def dcounts (e : Env) (σ : Src) (i k p : Nat) : ℝ :=
  dispersed e σ.useEdisp (σ.tmpl (e.extra σ.useEdisp)) (σ.dspec (e.extra σ.useEdisp) σ.vals i) k p

/-- Derivative with a given table of data over model. -/
noncomputable def gradWith (e : Env) (D : Nat → Nat → ℝ) (kmin kmax : Nat) (σ : Src) (i : Nat) : ℝ :=
  ∑ k ∈ Finset.Ico kmin kmax, ∑ p ∈ Finset.range e.npix,
    ((if 0 < val e.data (k * e.npix + p) then D k p * dcounts e σ i k p else 0) -
      wt e k p * dcounts e σ i k p)

theorem freeDeriv_ok (h : Inv e L st) (he : e.Ok) (hev : 0 ≤ e.ev) {n : ν} {σ : Src}
    (hn : find st.srcs n = some σ) {m : MapObj} (hf : Fit e (L n).1 (L n).2 m) (hok : m.map.Ok)
    {dom : List ℝ} (hdom : dom.length = e.filled.length) {kmin kmax : Nat} (hk : kmax ≤ e.nebins)
    {D : Nat → Nat → ℝ}
    (hD : ∀ k, kmin ≤ k → k < kmax → ∀ j, val e.first k ≤ j → j < val e.first (k + 1) →
      0 ≤ val dom j ∧ val dom j = D k (val e.filled j)) (i : Nat) :
    freeDeriv e m.map (σ.dspec m.map.eb σ.vals i) dom kmin kmax =
      .ok (gradWith e D kmin kmax σ i) := by
  have lay := lay_of he
  have heb : m.map.eb = e.extra σ.useEdisp := by rw [hf.eb, h.useEdisp hn]
  have hwl : (σ.dspec m.map.eb σ.vals i).length = m.map.nebins + 2 * m.map.eb := by
    rw [heb, (h.src n σ hn).1.dspec, hf.nebins]
  have hpix : ∀ k p, m.map.pix (σ.dspec m.map.eb σ.vals i) k p = dcounts e σ i k p := by
    intro k p
    rw [((h.fit hn).1 hf).pix he hev, heb]; rfl
  unfold freeDeriv
  rw [computeNpreds_ok hok, Res.bind_ok]
  simp only
  rw [loop_sum (fun k => ∑ p ∈ Finset.range e.npix,
    ((if 0 < val e.data (k * e.npix + p) then D k p * dcounts e σ i k p else 0) -
      wt e k p * dcounts e σ i k p))]
  · rw [zero_add, gradWith, Finset.sum_Ico_eq_sum_range]
  · intro k acc h1 h2
    have hk' : k < e.nebins := by omega
    have hkm : k < m.map.nebins := by rw [hf.nebins]; exact hk'
    obtain ⟨col, c1, c2, c3, c4⟩ := consts_ok hok hkm
    rw [c1, Res.bind_ok]
    simp only
    have hpx : derivPixels e m.map (σ.dspec m.map.eb σ.vals i) dom k acc =
        .ok (acc + ∑ p ∈ Finset.range e.npix,
          if 0 < val e.data (k * e.npix + p) then D k p * dcounts e σ i k p else 0) := by
      have := stretch_sum lay (kmin := k) (kmax := k + 1) (by omega)
        (body := fun k j acc => do
          let d ← vget dom j
          if d ≤ 0 then .ok acc
          else do
            let ipix ← vget e.filled j
            let c ← modelCounts m.map (σ.dspec m.map.eb σ.vals i) k ipix
            .ok (acc + d * c))
        (fun k j => D k (val e.filled j) * dcounts e σ i k (val e.filled j))
        (fun k p => D k p * dcounts e σ i k p) acc
        (by
          intro k' j acc a1 a2 a3 a4
          obtain rfl : k' = k := by omega
          have hlast := lay.last (k' + 1) (by omega)
          obtain ⟨d1, d2⟩ := hD k' h1 (by omega) j a3 a4
          rw [vget_val (by omega), Res.bind_ok]
          by_cases hd : val dom j ≤ 0
          · rw [if_pos hd]
            have : D k' (val e.filled j) = 0 := by rw [← d2]; exact le_antisymm hd d1
            rw [this, zero_mul, add_zero]
          · rw [if_neg hd, vget_val (by omega), Res.bind_ok,
              modelCounts_ok hok hwl hkm (by rw [hf.npix]; exact lay.pix k' hk' j a3 a4),
              Res.bind_ok, hpix, ← d2])
        (fun k' _ _ j _ _ => rfl)
      have e0 : k + 1 - k = 1 := by omega
      rw [e0, loop] at this
      simp only [loop] at this
      obtain ⟨a, b1, b2⟩ := Res.bind_eq_ok.1 this
      injection b2 with b2
      rw [b2] at b1
      have hI : Finset.Ico k (k + 1) = {k} := by
        ext x; simp only [Finset.mem_Ico, Finset.mem_singleton]; omega
      rw [hI, Finset.sum_singleton] at b1
      exact b1
    rw [hpx, Res.bind_ok, npredCounts_ok hok hwl hkm (by omega), Res.bind_ok]
    simp only
    have hwb : m.map.wbin (σ.dspec m.map.eb σ.vals i) (val col) k =
        ∑ p ∈ Finset.range e.npix, wt e k p * dcounts e σ i k p := by
      have : m.map.wbin (σ.dspec m.map.eb σ.vals i) (val col) k =
          m.map.wbin (σ.dspec m.map.eb σ.vals i) (m.map.disp k) k := by
        unfold SrcMap.wbin
        apply Finset.sum_congr rfl
        intro q hq
        rw [c3 q (Finset.mem_range.1 hq)]
      rw [this, ← sum_wpix _ _ (hf.first hev k), hf.npix]
      apply Finset.sum_congr rfl
      intro p _
      rw [hf.wt, hpix]
    rw [hwb, Finset.sum_sub_distrib]
    congr 1
    ring

/-- The derivatives of the sources not in the cached list. -/
theorem derivLoop_ok (he : e.Ok) (hev : 0 ≤ e.ev) {dom : List ℝ}
    (hdom : dom.length = e.filled.length) {D : Nat → Nat → ℝ} (rest : List (ν × Src)) (st : St ν)
    (h : Inv e L st) (hk : st.kmax ≤ e.nebins)
    (hr : ∀ x ∈ rest, find st.srcs x.1 = some x.2)
    (hD : ∀ k, st.kmin ≤ k → k < st.kmax → ∀ j, val e.first k ≤ j → j < val e.first (k + 1) →
      0 ≤ val dom j ∧ val dom j = D k (val e.filled j)) :
    ∃ st', derivLoop e dom rest st = .ok (st',
        ((rest.filter (fun x => decide (x.1 ∉ st.fixedNames))).map (fun x =>
          x.2.freeIdx.map (gradWith e D st.kmin st.kmax x.2))).flatten) ∧
      Inv e L st' ∧ Keeps st st' := by
  induction rest generalizing st with
  | nil => exact ⟨st, by simp [derivLoop], h, Keeps.refl st⟩
  | cons x rest ih =>
    obtain ⟨n, σ⟩ := x
    have hn : find st.srcs n = some σ := hr (n, σ) (by simp)
    unfold derivLoop
    by_cases hf : n ∈ st.fixedNames
    · rw [if_pos hf]
      rw [List.filter_cons_of_neg (by simpa using hf)]
      exact ih st h hk (fun y hy => hr y (List.mem_cons_of_mem _ hy)) hD
    · rw [if_neg hf]
      obtain ⟨m, g1, g2, g3⟩ := getMap_ok h he hev hn
      obtain ⟨s1, s2⟩ := setSpectral_fit g2 σ false
      have hok := h.mapOk he hn s1 s2
      rw [g1, Res.bind_ok]
      simp only
      have hm : σ.freeIdx.mapM (fun i => freeDeriv e (setSpectral m σ false).map
          (σ.dspec (setSpectral m σ false).map.eb σ.vals i) dom (st.putMap n m).kmin
          (st.putMap n m).kmax) = .ok (σ.freeIdx.map (gradWith e D st.kmin st.kmax σ)) := by
        apply mapM_ok
        intro i _
        exact freeDeriv_ok h he hev hn s1 hok hdom hk hD i
      rw [hm, Res.bind_ok, putMap_putMap h]
      obtain ⟨i1, i2⟩ := putMap_inv h s1 (m := setSpectral m σ false) (fun m0 hm0 => g3 m0 hm0)
      obtain ⟨st', b1, b2, b3⟩ := ih (st.putMap n (setSpectral m σ false)) i1 hk
        (fun y hy => hr y (List.mem_cons_of_mem _ hy)) hD
      rw [b1, Res.bind_ok]
      rw [List.filter_cons_of_pos (by simpa using hf), List.map_cons, List.flatten_cons]
      exact ⟨st', rfl, b2, i2.trans b3⟩

/-- Data over model in each filled pixel. -/
theorem dataOverModel_ok (h : Inv e L st) (he : e.Ok) (hk : st.kmax ≤ e.nebins)
    (hm : st.model.length = e.filled.length) :
    ∃ dom, dataOverModel e st = .ok dom ∧ dom.length = e.filled.length ∧
      ∀ k, st.kmin ≤ k → k < st.kmax → ∀ j, val e.first k ≤ j → j < val e.first (k + 1) →
        val dom j = if 0 < val st.model j then
          val e.data (k * e.npix + val e.filled j) / val st.model j else 0 := by
  have lay := lay_of he
  obtain ⟨dom, h1, h2, h3⟩ := stretch_upd lay (v := List.replicate e.filled.length 0) (by simp)
    (kmin := st.kmin) (kmax := st.kmax) hk
    (body := fun k j v => do
      let ipix ← vget e.filled j
      let m ← vget st.model j
      let x ← if 0 < m then do
          let d ← vget e.data (k * e.npix + ipix)
          .ok (d / m)
        else .ok 0
      vset v j x)
    (fun k j _ => if 0 < val st.model j then
      val e.data (k * e.npix + val e.filled j) / val st.model j else 0)
    (by
      intro k j w a1 a2 a3 a4 hw
      have hlast := lay.last (k + 1) (by omega)
      simp only [List.length_replicate] at hw
      rw [vget_val (by omega), Res.bind_ok, vget_val (by omega), Res.bind_ok]
      by_cases hp : 0 < val st.model j
      · simp only [if_pos hp]
        rw [vget_val (by rw [he.data]; exact idx_lt (lay.pix k (by omega) j a3 a4) (by omega))]
        simp only [Res.bind_ok]
        rw [vset_lt _ _ _ (by omega)]
      · simp only [if_neg hp, Res.bind_ok]
        rw [vset_lt _ _ _ (by omega)])
  exact ⟨dom, h1, by rw [h2]; simp, h3⟩

/-- The free parameters picked by position are those picked by the flag. -/
theorem filter_free_map {α β : Type} (l : List α) (f : α → Bool) (g : α → β) (G : Nat → β)
    (hG : ∀ i a, l[i]? = some a → G i = g a) :
    ((List.range l.length).filter (fun i => (l[i]?.map f).getD false)).map G =
      (l.filter f).map g := by
  induction l using List.reverseRecOn with
  | nil => simp
  | append_singleton l a ih =>
    rw [List.length_append, List.length_singleton, List.range_succ, List.filter_append,
      List.filter_append, List.map_append, List.map_append]
    have h1 : (List.range l.length).filter (fun i => ((l ++ [a])[i]?.map f).getD false) =
        (List.range l.length).filter (fun i => (l[i]?.map f).getD false) := by
      apply List.filter_congr
      intro i hi
      rw [List.getElem?_append_left (List.mem_range.1 hi)]
    rw [h1, ih (fun i b hb => hG i b (by
      rw [List.getElem?_append_left]
      · exact hb
      · exact (List.getElem?_eq_some_iff.1 hb).1))]
    congr 1
    have h2 : (l ++ [a])[l.length]? = some a := by simp
    by_cases hfa : f a = true
    · rw [List.filter_cons_of_pos (by rw [h2]; simpa using hfa), List.filter_cons_of_pos hfa]
      simp [hG _ _ h2]
    · rw [List.filter_cons_of_neg (by rw [h2]; simpa using hfa), List.filter_cons_of_neg hfa]
      simp

/-- Derivative of the log-prior of a parameter. -/
noncomputable def dprior (σ : Src) (i : Nat) : ℝ :=
  match σ.pars[i]? with
  | some p => p.dLogPrior p.value
  | none => 0

theorem priorDerivs_eq (srcs : List (ν × Src)) :
    priorDerivs srcs = (srcs.map (fun x => x.2.freeIdx.map (dprior x.2))).flatten := by
  unfold priorDerivs
  congr 1
  apply List.map_congr_left
  intro x _
  unfold Src.freeIdx
  rw [filter_free_map _ _ (fun p => p.dLogPrior p.value)]
  intro i a ha
  unfold dprior
  rw [ha]

theorem freeIdx_fixed {σ : Src} (h : σ.fixed = true) : σ.freeIdx = [] := by
  unfold Src.freeIdx
  rw [List.filter_eq_nil_iff]
  intro i hi
  unfold Src.fixed at h
  rw [List.all_eq_true] at h
  cases hp : σ.pars[i]? with
  | none => simp
  | some p =>
    have := h p (List.mem_of_getElem? hp)
    simpa using this

theorem flatten_filter {α β : Type} (l : List α) (P : α → Bool) (f : α → List β)
    (h : ∀ x ∈ l, P x = false → f x = []) :
    ((l.filter P).map f).flatten = (l.map f).flatten := by
  induction l with
  | nil => simp
  | cons x l ih =>
    have ih' := ih (fun y hy => h y (List.mem_cons_of_mem _ hy))
    by_cases hp : P x = true
    · rw [List.filter_cons_of_pos hp, List.map_cons, List.map_cons, List.flatten_cons,
        List.flatten_cons, ih']
    · rw [List.filter_cons_of_neg hp, List.map_cons, List.flatten_cons, ih',
        h x (by simp) (by simpa using hp)]
      simp

theorem flatten_length_le {α β γ : Type} (l : List α) (P : α → Bool) (f : α → List β)
    (g : α → List γ) (h : ∀ x ∈ l, (f x).length = (g x).length) :
    ((l.filter P).map f).flatten.length ≤ (l.map g).flatten.length := by
  induction l with
  | nil => simp
  | cons x l ih =>
    have ih' := ih (fun y hy => h y (List.mem_cons_of_mem _ hy))
    have hx := h x (by simp)
    rw [List.map_cons, List.flatten_cons, List.length_append]
    by_cases hp : P x = true
    · rw [List.filter_cons_of_pos hp, List.map_cons, List.flatten_cons, List.length_append]
      omega
    · rw [List.filter_cons_of_neg hp]; omega

theorem zipWith_flatten {α β : Type} (l : List α) (f g : α → List β) (op : β → β → β)
    (h : ∀ x ∈ l, (f x).length = (g x).length) :
    List.zipWith op (l.map f).flatten (l.map g).flatten =
      (l.map (fun x => List.zipWith op (f x) (g x))).flatten := by
  induction l with
  | nil => simp
  | cons x l ih =>
    simp only [List.map_cons, List.flatten_cons]
    rw [List.zipWith_append (h x (by simp)), ih (fun y hy => h y (List.mem_cons_of_mem _ hy))]

/-- The gradient entry of a parameter. -/
noncomputable def gradEntry (e : Env) (srcs : List (ν × Src)) (kmin kmax : Nat) (σ : Src)
    (i : Nat) : ℝ :=
  gradWith e (fun k p => if 0 < total e srcs k p then
    val e.data (k * e.npix + p) / total e srcs k p else 0) kmin kmax σ i + dprior σ i

theorem lay_count (lay : Lay e) {k p : Nat} (hk : k < e.nebins) :
    ∑ i ∈ Finset.range (val e.first (k + 1) - val e.first k),
      (if val e.filled (val e.first k + i) = p then (1 : ℝ) else 0) =
      if p < e.npix ∧ 0 < val e.data (k * e.npix + p) then 1 else 0 := by
  rw [lay.sum k hk (fun q => if q = p then (1 : ℝ) else 0)]
  by_cases hp : p < e.npix
  · rw [Finset.sum_eq_single p]
    · simp [hp]
    · intro b _ hb; simp [hb]
    · intro hh; exact absurd (Finset.mem_range.2 hp) hh
  · rw [if_neg (fun hh => hp hh.1)]
    apply Finset.sum_eq_zero
    intro b hb
    rw [Finset.mem_range] at hb
    have : b ≠ p := by omega
    simp [this]

/-- Every pixel with counts is in the list of its bin. -/
theorem lay_exists (lay : Lay e) {k p : Nat} (hk : k < e.nebins) (hp : p < e.npix)
    (hd : 0 < val e.data (k * e.npix + p)) :
    ∃ j, val e.first k ≤ j ∧ j < val e.first (k + 1) ∧ val e.filled j = p := by
  have hc := lay_count lay (p := p) hk
  rw [if_pos ⟨hp, hd⟩] at hc
  by_contra hh
  rw [Finset.sum_eq_zero] at hc
  · exact zero_ne_one hc
  · intro i hi
    rw [Finset.mem_range] at hi
    rw [if_neg]
    intro hq
    exact hh ⟨val e.first k + i, by omega, by omega, hq⟩

/-- ... once. -/
theorem lay_inj (lay : Lay e) {k a b : Nat} (hk : k < e.nebins) (ha : val e.first k ≤ a)
    (ha' : a < val e.first (k + 1)) (hb : val e.first k ≤ b) (hb' : b < val e.first (k + 1))
    (h : val e.filled a = val e.filled b) : a = b := by
  by_contra hne
  have hc := lay_count lay (p := val e.filled b) hk
  have h2 : (2 : ℝ) ≤ ∑ i ∈ Finset.range (val e.first (k + 1) - val e.first k),
      (if val e.filled (val e.first k + i) = val e.filled b then (1 : ℝ) else 0) := by
    have hsub : ({a - val e.first k, b - val e.first k} : Finset Nat) ⊆
        Finset.range (val e.first (k + 1) - val e.first k) := by
      intro x hx
      simp only [Finset.mem_insert, Finset.mem_singleton] at hx
      rw [Finset.mem_range]; omega
    refine le_trans ?_ (Finset.sum_le_sum_of_subset_of_nonneg hsub (fun i _ _ => by split <;> norm_num))
    rw [Finset.sum_pair (by omega), show val e.first k + (a - val e.first k) = a by omega,
      show val e.first k + (b - val e.first k) = b by omega, if_pos h, if_pos rfl]
    norm_num
  rw [hc] at h2
  split at h2 <;> norm_num at h2

/-- `getFreeDerivs` never fails on a state whose model vector has the right length. -/
theorem getFreeDerivs_safe (h : Inv e L st) (he : e.Ok) (hev : 0 ≤ e.ev) (hk : st.kmax ≤ e.nebins)
    (hm : st.current = true → st.model.length = e.filled.length) :
    ∃ st' out, getFreeDerivs e st = .ok (st', out) ∧ Inv e L st' ∧ st'.srcs = st.srcs ∧
      st'.kmin = st.kmin ∧ st'.kmax = st.kmax ∧ st'.model.length = e.filled.length ∧
      (st.current = false ∨ Evaluated e st → Evaluated e st' ∧
        out = (st.srcs.map (fun x => x.2.freeIdx.map
          (gradEntry e st.srcs st.kmin st.kmax x.2))).flatten) ∧
      (∀ x ∈ st'.fixedNames, ∀ τ m', find st'.srcs x = some τ → find st'.maps x = some m' →
        (x ∈ st.fixedNames → ∀ σ m1, find st.srcs x = some σ → find st.maps x = some m1 →
          m1.latched = σ.vals) → m'.latched = τ.vals) ∧
      (st.current = true → ∃ D : Nat → Nat → ℝ,
        (∀ k, st.kmin ≤ k → k < st.kmax → ∀ j, val e.first k ≤ j → j < val e.first (k + 1) →
          D k (val e.filled j) = if 0 < val st.model j then
            val e.data (k * e.npix + val e.filled j) / val st.model j else 0) ∧
        ∃ ds, ds = ((st.srcs.filter (fun x => decide (x.1 ∉ st.fixedNames))).map (fun x =>
          x.2.freeIdx.map (gradWith e D st.kmin st.kmax x.2))).flatten ∧
        out = List.zipWith (· + ·) (ds ++ List.replicate ((priorDerivs st.srcs).length - ds.length) 0)
          (priorDerivs st.srcs)) := by
  have lay := lay_of he
  -- the state with an up-to-date model
  have h0 : ∃ st1 v, freshModel e st = .ok (st1, v) ∧ Inv e L st1 ∧ st1.srcs = st.srcs ∧
      st1.kmin = st.kmin ∧ st1.kmax = st.kmax ∧ st1.model.length = e.filled.length ∧
      (st.current = false ∨ Evaluated e st → Evaluated e st1) ∧ ((st.current = false ∧ AllCur st1) ∨ st1 = st) := by
    unfold freshModel
    by_cases hc : st.current = true
    · rw [if_pos hc]
      exact ⟨st, 0, rfl, h, rfl, rfl, rfl, hm hc, fun hh => hh.resolve_left (by simp [hc]),
        Or.inr rfl⟩
    · rw [if_neg hc]
      obtain ⟨st1, c1, c2, c3, c4, c5, c6, c7⟩ := computeModel_ok h he hev hk
      exact ⟨st1, _, c1, c2, c3, c4, c5, c7.modelLen, fun _ => c7, Or.inl ⟨by simpa using hc, c7.cur⟩⟩
  obtain ⟨st1, v, a1, a2, a3, a4, a5, a6, a7, a8⟩ := h0
  have hk1 : st1.kmax ≤ e.nebins := by rw [a5]; exact hk
  obtain ⟨dom, d1, d2, d3⟩ := dataOverModel_ok a2 he hk1 a6
  have hpos : ∀ k, st1.kmin ≤ k → k < st1.kmax → ∀ j, val e.first k ≤ j →
      j < val e.first (k + 1) → 0 ≤ val dom j := by
    intro k h1 h2 j h3 h4
    rw [d3 k h1 h2 j h3 h4]
    split
    · rename_i hp
      exact div_nonneg (lay.pos k (by omega) j h3 h4).le hp.le
    · exact le_refl _
  -- a table of data over model
  have hT : ∃ D : Nat → Nat → ℝ, ∀ k, st1.kmin ≤ k → k < st1.kmax → ∀ j, val e.first k ≤ j →
      j < val e.first (k + 1) → 0 ≤ val dom j ∧ val dom j = D k (val e.filled j) := by
    classical
    refine ⟨fun k p => if hh : ∃ j, val e.first k ≤ j ∧ j < val e.first (k + 1) ∧
      val e.filled j = p then val dom hh.choose else 0, ?_⟩
    intro k h1 h2 j h3 h4
    refine ⟨hpos k h1 h2 j h3 h4, ?_⟩
    have hh : ∃ j', val e.first k ≤ j' ∧ j' < val e.first (k + 1) ∧
      val e.filled j' = val e.filled j := ⟨j, h3, h4, rfl⟩
    simp only [dif_pos hh]
    obtain ⟨b1, b2, b3⟩ := hh.choose_spec
    by_cases hev' : Evaluated e st1
    · rw [d3 k h1 h2 j h3 h4, d3 k h1 h2 _ b1 b2, b3, hev'.model k h1 h2 j h3 h4,
        hev'.model k h1 h2 _ b1 b2, b3]
    · -- positions are determined by the pixel
      have : hh.choose = j := lay_inj lay (by omega) b1 b2 h3 h4 b3
      rw [this]
  obtain ⟨D, hD⟩ := hT
  obtain ⟨st2, e1, e2, e3⟩ := derivLoop_ok he hev d2 st1.srcs st1 a2 hk1
    (fun x hx => StdMap.find_of_mem a2.sorted hx) hD
  have hlen : (((st1.srcs.filter (fun x => decide (x.1 ∉ st1.fixedNames))).map (fun x =>
      x.2.freeIdx.map (gradWith e D st1.kmin st1.kmax x.2))).flatten).length ≤
      (priorDerivs st2.srcs).length := by
    rw [e3.srcs, priorDerivs_eq]
    exact flatten_length_le _ _ _ _ (fun x _ => by simp)
  set ds := ((st1.srcs.filter (fun x => decide (x.1 ∉ st1.fixedNames))).map (fun x =>
      x.2.freeIdx.map (gradWith e D st1.kmin st1.kmax x.2))).flatten with hds
  refine ⟨st2, List.zipWith (· + ·) (ds ++ List.replicate
    ((priorDerivs st2.srcs).length - ds.length) 0) (priorDerivs st2.srcs), ?_, e2,
    by rw [e3.srcs, a3], by rw [e3.kmin, a4], by rw [e3.kmax, a5],
    by rw [e3.model, a6], ?_, ?_, ?_⟩
  · unfold getFreeDerivs
    rw [a1, Res.bind_ok]
    simp only
    rw [d1, Res.bind_ok, e1, Res.bind_ok]
    simp only
    rw [if_neg (not_lt.2 hlen)]
  · intro hh
    have hev1 := a7 hh
    refine ⟨⟨?_, hev1.cur.keeps a2 e3, by rw [e3.model, a6], ?_⟩, ?_⟩
    · rw [e3.fixedNames, e3.srcs]; exact hev1.perm
    · rw [e3.kmin, e3.kmax, e3.model, e3.srcs]; exact hev1.model
    · -- all sources with free parameters are outside the cached list
      have hflat : ((st1.srcs.filter (fun x => decide (x.1 ∉ st1.fixedNames))).map (fun x =>
          x.2.freeIdx.map (gradWith e D st1.kmin st1.kmax x.2))).flatten =
          (st1.srcs.map (fun x => x.2.freeIdx.map (gradWith e D st1.kmin st1.kmax x.2))).flatten := by
        apply flatten_filter
        intro x hx hP
        have hx' : x.1 ∈ st1.fixedNames := by simpa using hP
        obtain ⟨σ, g1, g2⟩ := (mem_fixedNow a2).1 (hev1.perm.subset hx')
        have : find st1.srcs x.1 = some x.2 := StdMap.find_of_mem a2.sorted hx
        rw [this] at g1; cases g1
        rw [freeIdx_fixed g2]; rfl
      rw [hds, hflat, priorDerivs_eq, e3.srcs]
      have hl : ((st1.srcs.map (fun x => x.2.freeIdx.map (dprior x.2))).flatten).length -
          ((st1.srcs.map (fun x => x.2.freeIdx.map
            (gradWith e D st1.kmin st1.kmax x.2))).flatten).length = 0 := by
        have : ∀ (l : List (ν × Src)), ((l.map (fun x => x.2.freeIdx.map (dprior x.2))).flatten).length =
          ((l.map (fun x => x.2.freeIdx.map (gradWith e D st1.kmin st1.kmax x.2))).flatten).length := by
          intro l
          induction l with
          | nil => rfl
          | cons x l ih => simp only [List.map_cons, List.flatten_cons, List.length_append, ih,
              List.length_map]
        rw [this]; omega
      rw [hl, List.replicate_zero, List.append_nil, zipWith_flatten _ _ _ _ (fun x _ => by simp), a3]
      congr 1
      apply List.map_congr_left
      intro x hx
      rw [List.zipWith_map, List.zipWith_self]
      apply List.map_congr_left
      intro i _
      unfold gradEntry
      congr 1
      unfold gradWith
      rw [a4, a5]
      apply Finset.sum_congr rfl
      intro k hk'
      rw [Finset.mem_Ico] at hk'
      apply Finset.sum_congr rfl
      intro p hp
      rw [Finset.mem_range] at hp
      congr 1
      by_cases hd : 0 < val e.data (k * e.npix + p)
      · rw [if_pos hd, if_pos hd]
        congr 1
        obtain ⟨j, j1, j2, j3⟩ := lay_exists lay (by omega) hp hd
        have := (hD k (by omega) (by omega) j j1 j2).2
        rw [j3] at this
        rw [← this, d3 k (by omega) (by omega) j j1 j2, hev1.model k (by omega) (by omega) j j1 j2,
          j3, a3]
      · rw [if_neg hd, if_neg hd]
  · intro x hx τ m' hs hm' hlat
    rcases a8 with ⟨-, hcur⟩ | hst
    · exact (hcur.keeps a2 e3) x hx τ m' hs hm'
    · subst hst
      rw [e3.fixedNames] at hx
      rw [e3.srcs] at hs
      obtain ⟨m0, hm0⟩ := (a2.fixedIn x hx).2
      obtain ⟨m1, q1, q2⟩ := e3.latched x hx m0 hm0
      rw [q1] at hm'
      cases hm'
      rw [q2]
      exact hlat hx τ m0 hs hm0
  · intro hcur
    rcases a8 with ⟨hc, -⟩ | hst
    · rw [hcur] at hc; cases hc
    · subst hst
      refine ⟨D, ?_, ds, rfl, by rw [e3.srcs]⟩
      intro k h1 h2 j h3 h4
      rw [← (hD k h1 h2 j h3 h4).2, d3 k h1 h2 j h3 h4]

end Verif.Binned
