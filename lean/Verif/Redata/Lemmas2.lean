import Verif.Redata.Sim
import Verif.MapInt.Lemmas3
set_option linter.unusedVariables false
set_option linter.unusedSimpArgs false
set_option linter.unusedSectionVars false
namespace Verif.Redata

open Verif.Vec Verif.Edisp Verif.Drm Verif.Binned Spec
open Verif.StdMap (find put erase keys)
open scoped BigOperators

variable {ν : Type} [LinearOrder ν] {e e' : Env} {L : ν → Bool × (Nat → List ℝ)} {st : St ν}

/-! ### The computed model stays when the fixed model is built again -/

theorem getMap_model {s s1 : St ν} {k : ν} {σ : Src} {m : MapObj} (h : getMap e s k σ = .ok (s1, m)) : s1.model = s.model := by
  unfold getMap at h
  cases hf : find s.maps k with
  | some m0 => rw [hf] at h; cases h; rfl
  | none =>
    rw [hf] at h
    obtain ⟨m1, h1, h2⟩ := Res.bind_eq_ok.1 h
    cases h2; rfl

theorem addFixed_model {s s1 : St ν} {k : ν} {σ : Src} (h : addFixed e s k σ = .ok s1) : s1.model = s.model := by
  unfold addFixed at h
  by_cases hk : k ∈ s.fixedNames
  · rw [if_pos hk] at h; cases h
  · rw [if_neg hk] at h
    obtain ⟨⟨s2, m, mc⟩, h1, h2⟩ := Res.bind_eq_ok.1 h
    simp only at h2
    obtain ⟨sp, h3, h4⟩ := Res.bind_eq_ok.1 h2
    cases h4
    unfold addCounts at h1
    split at h1
    · cases h1
    · obtain ⟨⟨s3, m3⟩, g1, g2⟩ := Res.bind_eq_ok.1 h1
      simp only at g2
      obtain ⟨c, g3, g4⟩ := Res.bind_eq_ok.1 g2
      cases g4
      exact (getMap_model g1).trans rfl

theorem buildLoop_model (rest : List (ν × Src)) {s s1 : St ν} (h : buildLoop e rest s = .ok s1) : s1.model = s.model := by
  induction rest generalizing s with
  | nil => cases h; rfl
  | cons x rest ih =>
    obtain ⟨k, σ⟩ := x
    unfold buildLoop at h
    by_cases hf : σ.fixed = true
    · rw [if_pos hf] at h
      obtain ⟨s2, h1, h2⟩ := Res.bind_eq_ok.1 h
      exact (ih h2).trans (addFixed_model h1)
    · rw [if_neg hf] at h
      obtain ⟨⟨s2, m⟩, h1, h2⟩ := Res.bind_eq_ok.1 h
      exact (ih h2).trans (getMap_model h1)

theorem buildFixed_model {s s1 : St ν} (h : buildFixed e s = .ok s1) : s1.model = s.model := by
  unfold buildFixed at h
  exact (buildLoop_model _ h).trans rfl

theorem loop_keep {σ : Type} {body : Nat → σ → Res σ} (P : σ → Prop) {lo n : Nat} {s : σ} (h0 : P s)
    (h : ∀ i s, lo ≤ i → i < lo + n → P s → ∃ s', body i s = .ok s' ∧ P s') :
    ∃ s', loop body lo n s = .ok s' ∧ P s' := by
  induction n generalizing lo s with
  | zero => exact ⟨s, rfl, h0⟩
  | succ n ih =>
    obtain ⟨s', h1, h2⟩ := h lo s le_rfl (by omega) h0
    rw [loop, h1, Res.bind_ok]
    exact ih h2 (fun i s a b => h i s (by omega) (by omega))

/-! ### Derivatives after the counts were replaced by counts in more pixels -/

theorem dataOverModel_ub (he : e.Ok) (h1 : st.kmin = 0) (h2 : st.kmax = e.nebins)
    (hlt : st.model.length < e.filled.length) : dataOverModel e st = .ub := by
  have lay := lay_of he
  obtain ⟨k, k1, k2, k3⟩ := bin_of he hlt
  have hfl : e.first.length = e.nebins + 1 := lay.len
  unfold dataOverModel
  rw [h1, h2]
  apply MapInt.loop_ub_inv (P := fun _ (v : List ℝ) => v.length = e.filled.length) (k := k)
  · omega
  · simp
  · intro i v _ hi hv
    rw [Nat.zero_add] at hi
    rw [vget_val (by omega), Res.bind_ok, vget_val (by omega), Res.bind_ok]
    have hlast : val e.first (i + 1) ≤ val e.first k := lay.mono _ _ (by omega) (by omega)
    have hl := lay.last (i + 1) (by omega)
    refine loop_keep (fun v : List ℝ => v.length = e.filled.length) hv ?_
    intro j w a b hw
    have hjm : j < st.model.length := by omega
    rw [vget_val (by omega), Res.bind_ok, vget_val hjm, Res.bind_ok]
    by_cases hm : 0 < val st.model j
    · simp only [hm, if_true]
      rw [vget_val (by rw [he.data]; exact idx_lt (lay.pix i (by omega) j a (by omega)) (by omega)), Res.bind_ok, Res.bind_ok,
        vset_lt _ _ _ (by omega)]
      exact ⟨_, rfl, by simp [hw]⟩
    · simp only [hm, if_false]
      rw [Res.bind_ok, vset_lt _ _ _ (by omega)]
      exact ⟨_, rfl, by simp [hw]⟩
  · intro v hv
    rw [Nat.zero_add, vget_val (by omega), Res.bind_ok, vget_val (by omega), Res.bind_ok]
    have hl := lay.last (k + 1) (by omega)
    apply MapInt.loop_ub_inv (P := fun _ (v : List ℝ) => v.length = e.filled.length) (k := st.model.length - val e.first k)
    · omega
    · exact hv
    · intro j w a b hw
      have hjm : j < st.model.length := by omega
      rw [vget_val (by omega), Res.bind_ok, vget_val hjm, Res.bind_ok]
      by_cases hm : 0 < val st.model j
      · simp only [hm, if_true]
        rw [vget_val (by rw [he.data]; exact idx_lt (lay.pix k (by omega) j a (by omega)) (by omega)), Res.bind_ok, Res.bind_ok,
          vset_lt _ _ _ (by omega)]
        exact ⟨_, rfl, by simp [hw]⟩
      · simp only [hm, if_false]
        rw [Res.bind_ok, vset_lt _ _ _ (by omega)]
        exact ⟨_, rfl, by simp [hw]⟩
    · intro w hw
      rw [show val e.first k + (st.model.length - val e.first k) = st.model.length by omega,
        vget_val (by omega), Res.bind_ok, vget_ge _ _ le_rfl]
      rfl

/-! ### A map made again -/

/-- A map may be replaced, whatever it remembers, if its source is not in the cached list. -/
theorem inv_putMap_free (h : Inv e L st) {n : ν} {m : MapObj} (hm : Fit e (L n).1 (L n).2 m) (hn : n ∉ st.fixedNames) :
    Inv e L (st.putMap n m) := by
  have hfind : ∀ x, find (put st.maps n m) x = if x = n then some m else find st.maps x :=
    fun x => StdMap.find_put h.sortedM
  have hne : ∀ x ∈ st.fixedNames, x ≠ n := fun x hx hh => hn (hh ▸ hx)
  refine ⟨h.sorted, StdMap.sorted_put h.sortedM _ _, h.src, ?_, h.cacheEv, h.nodup, ?_, h.countsLen, ?_, h.sized, ?_⟩
  · intro x m' hx
    have hx' : find (put st.maps n m) x = some m' := hx
    rw [hfind] at hx'
    by_cases hxn : x = n
    · rw [if_pos hxn] at hx'; cases hx'; rw [hxn]; exact hm
    · rw [if_neg hxn] at hx'; exact h.map x m' hx'
  · intro x hx
    refine ⟨(h.fixedIn x hx).1, ?_⟩
    change ∃ m', find (put st.maps n m) x = some m'
    rw [hfind, if_neg (hne x hx)]
    exact (h.fixedIn x hx).2
  · intro k hk j h1 h2
    refine (h.countsVal k hk j h1 h2).trans (sum_congr_mem fun x hx => ?_)
    unfold contrib St.putMap
    simp only [hfind, if_neg (hne x hx)]
  · intro k hk
    refine (h.specVal k hk).trans (sum_congr_mem fun x hx => ?_)
    unfold wcontrib St.putMap
    simp only [hfind, if_neg (hne x hx)]

theorem recreate_rel {a : Ideal ν} (h : Rel e L a st) (he : e.Ok) (hev : 0 ≤ e.ev) {n : ν} {σ : Src}
    (hn : find a.srcs n = some σ) : ∃ st', recreate e st n = .ok st' ∧ Rel e L a st' := by
  have hn' : find st.srcs n = some σ := by rw [h.srcs]; exact hn
  obtain ⟨m, m1, m2⟩ := newMap_ok he hev (h.inv.src n σ hn').1
  have hfit : Fit e (L n).1 (L n).2 m := (h.inv.fit hn').2 m2
  unfold recreate
  rw [hn']
  simp only
  rw [h.inv.cacheEv, m1, Res.bind_ok]
  by_cases hf : n ∈ (st.putMap n m).fixedNames
  · rw [if_pos hf]
    have hfind : ∀ x, find (put st.maps n m) x = if x = n then some m else find st.maps x :=
      fun x => StdMap.find_put h.inv.sortedM
    obtain ⟨st', b1, b2, b3, b4, b5, b6, b7, b8⟩ := buildFixed_fresh (st := st.putMap n m) (L := L) he hev h.inv.sorted
      (StdMap.sorted_put h.inv.sortedM _ _) h.inv.src (by
        intro x m' hx
        have hx' : find (put st.maps n m) x = some m' := hx
        rw [hfind] at hx'
        by_cases hxn : x = n
        · rw [if_pos hxn] at hx'; cases hx'; rw [hxn]; exact hfit
        · rw [if_neg hxn] at hx'; exact h.inv.map x m' hx') h.inv.cacheEv
    have hmod := buildFixed_model b1
    refine ⟨st', b1, ⟨b2, by rw [b3]; exact h.srcs, by rw [b5]; exact h.kmin, by rw [b6]; exact h.kmax,
      by rw [b6]; exact h.range, ?_, ?_, ?_⟩⟩
    · intro hc
      rw [hmod]
      exact h.modelLen (by rw [b7] at hc; exact hc)
    · intro x hx _ τ m' hs hm
      exact b8 x hx τ m' hs hm
    · intro hst
      rcases h.fresh hst with hc | hc
      · left; rw [b7]; exact hc
      · right
        refine ⟨by rw [b4, b3], b8, by rw [hmod]; exact hc.modelLen, ?_⟩
        intro k h1 h2 j h3 h4
        rw [hmod, b3]
        exact hc.model k (by rw [b5] at h1; exact h1) (by rw [b6] at h2; exact h2) j h3 h4
  · rw [if_neg hf]
    have hf' : n ∉ st.fixedNames := hf
    have hi := inv_putMap_free h.inv hfit hf'
    have hne : ∀ x ∈ st.fixedNames, x ≠ n := fun x hx hh => hf' (hh ▸ hx)
    have hfm : ∀ x ∈ st.fixedNames, find (st.putMap n m).maps x = find st.maps x := by
      intro x hx
      change find (put st.maps n m) x = _
      rw [StdMap.find_put h.inv.sortedM, if_neg (hne x hx)]
    refine ⟨_, rfl, ⟨hi, h.srcs, h.kmin, h.kmax, h.range, h.modelLen, ?_, ?_⟩⟩
    · intro x hx hx' τ m' hs hm
      rw [hfm x hx] at hm
      exact h.latched x hx hx' τ m' hs hm
    · intro hst
      rcases h.fresh hst with hc | hc
      · left; exact hc
      · right
        refine ⟨hc.perm, ?_, hc.modelLen, hc.model⟩
        intro x hx τ m' hs hm
        rw [hfm x hx] at hm
        exact hc.cur x hx τ m' hs hm

end Verif.Redata
