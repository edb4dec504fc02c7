import Verif.Redata.Model
import Verif.Redata.Spec
import Verif.Binned.History
set_option linter.unusedVariables false
set_option linter.unusedSimpArgs false
set_option linter.unusedSectionVars false
namespace Verif.Redata

open Verif.Vec Verif.Edisp Verif.Drm Verif.Binned Spec
open Verif.StdMap (find put erase keys)
open scoped BigOperators

variable {ν : Type} [LinearOrder ν] {e e' : Env} {L : ν → Bool × (Nat → List ℝ)} {st : St ν}

theorem alike_src (h : Alike e e') {σ : Src} (hσ : σ.Ok e) : σ.Ok e' := by
  have hx : e'.extra σ.useEdisp = e.extra σ.useEdisp := by unfold Env.extra; rw [h.ev]
  exact ⟨by rw [hx, h.nebins, h.npix]; exact hσ.tmpl, fun v => by rw [hx, h.nebins]; exact hσ.spec v,
    fun v i => by rw [hx, h.nebins]; exact hσ.dspec v i⟩

theorem alike_fit (h : Alike e e') {u : Bool} {t : Nat → List ℝ} {m : MapObj} (hm : Fit e u t m) :
    Fit e' u t (reweight e'.weights m) := by
  have hx : e'.extra u = e.extra u := by unfold Env.extra; rw [h.ev]
  refine ⟨by rw [h.ev]; exact hm.cfg, ?_, by rw [h.npix]; exact hm.npix, by rw [hx]; exact hm.model, by rw [h.cols]; exact hm.cols, rfl,
    by rw [h.nebins]; exact hm.xi, by rw [h.nebins]; exact hm.kref, by rw [h.nebins]; exact hm.krefLt⟩
  rw [h.nebins, h.ev, h.rsp]
  exact hm.geom

theorem find_map_snd {α : Type} (f : α → α) (l : List (ν × α)) (n : ν) :
    find (l.map (fun x => (x.1, f x.2))) n = (find l n).map f := by
  induction l with
  | nil => rfl
  | cons x l ih =>
    obtain ⟨k, a⟩ := x
    simp only [List.map_cons, find]
    by_cases h : k = n
    · simp [h]
    · simp only [h, if_false, ih]

theorem sorted_map_snd {α : Type} (f : α → α) (l : List (ν × α)) (h : StdMap.Sorted l) :
    StdMap.Sorted (l.map (fun x => (x.1, f x.2))) := by
  have hk : keys (l.map (fun x => (x.1, f x.2))) = keys l := by
    unfold keys
    rw [List.map_map]
    rfl
  unfold StdMap.Sorted at h ⊢
  rw [hk]
  exact h

/-- The fixed model is built again from sources and maps that fit. -/
theorem buildFixed_fresh (he : e.Ok) (hev : 0 ≤ e.ev) (h1 : StdMap.Sorted st.srcs) (h2 : StdMap.Sorted st.maps)
    (h3 : ∀ n σ, find st.srcs n = some σ → σ.Ok e ∧ (σ.useEdisp, σ.tmpl) = L n)
    (h4 : ∀ n m, find st.maps n = some m → Fit e (L n).1 (L n).2 m) (h5 : st.cacheEv = e.ev) :
    ∃ st', buildFixed e st = .ok st' ∧ Inv e L st' ∧ st'.srcs = st.srcs ∧
      st'.fixedNames = fixedNow st.srcs ∧ st'.kmin = st.kmin ∧ st'.kmax = st.kmax ∧
      st'.current = st.current ∧ AllCur st' := by
  have h0 : Inv e L ({ st with
      fixedNames := []
      fixedCounts := List.replicate e.filled.length 0
      fixedSpec := zeroSpectra e.nebins } : St ν) := by
    refine ⟨h1, h2, h3, h4, h5, List.nodup_nil, ?_, by simp, ?_,
      ⟨by simp [zeroSpectra], by simp [zeroSpectra], by simp [zeroSpectra], by simp [zeroSpectra]⟩, ?_⟩
    · intro n hn; simp at hn
    · intro k _ j _ _; simp
    · intro k _; simp [zeroSpectra]
  have h6 := buildFixed_ok h0 he hev
  exact h6

theorem setWeights_ok (h : Inv e L st) (hs : Alike e e') (he : e'.Ok) (hev : 0 ≤ e.ev) :
    ∃ st', setWeights e' st = .ok st' ∧ Inv e' L st' ∧ st'.srcs = st.srcs ∧
      st'.fixedNames = fixedNow st.srcs ∧ st'.kmin = st.kmin ∧ st'.kmax = st.kmax ∧
      st'.current = st.current ∧ AllCur st' := by
  unfold setWeights
  refine buildFixed_fresh (st := { st with maps := st.maps.map (fun x => (x.1, reweight e'.weights x.2)) }) he
    (by rw [hs.ev]; exact hev) h.sorted (sorted_map_snd _ _ h.sortedM)
    (fun n σ hn => ⟨alike_src hs (h.src n σ hn).1, (h.src n σ hn).2⟩) ?_ (by rw [hs.ev]; exact h.cacheEv)
  intro n m hm
  have hm' : (find st.maps n).map (reweight e'.weights) = some m := by
    rw [← find_map_snd]
    exact hm
  obtain ⟨m0, g1, g2⟩ := Option.map_eq_some_iff.1 hm'
  rw [← g2]
  exact alike_fit hs (h.map n m0 g1)

theorem setCounts_ok (h : Inv e L st) (hs : Alike e e') (hw : e'.weights = e.weights) (he : e'.Ok) (hev : 0 ≤ e.ev) :
    ∃ st', setCounts e' st = .ok st' ∧ Inv e' L st' ∧ st'.srcs = st.srcs ∧
      st'.fixedNames = fixedNow st.srcs ∧ st'.kmin = st.kmin ∧ st'.kmax = st.kmax ∧
      st'.current = st.current ∧ AllCur st' := by
  unfold setCounts
  refine buildFixed_fresh he (by rw [hs.ev]; exact hev) h.sorted h.sortedM
    (fun n σ hn => ⟨alike_src hs (h.src n σ hn).1, (h.src n σ hn).2⟩) ?_ (by rw [hs.ev]; exact h.cacheEv)
  intro n m hm
  have hf := h.map n m hm
  have := alike_fit hs hf
  unfold reweight at this
  rw [hw, ← hf.weights] at this
  exact this

/-- From a state that is consistent with the data, the next evaluation and every later history are right. -/
theorem from_inv (a : Ideal ν) (h : Inv e L st) (he : e.Ok) (hev : 0 ≤ e.ev) (h1 : st.srcs = a.srcs) (h2 : st.kmin = a.kmin)
    (h3 : st.kmax = a.kmax) (h4 : a.kmax ≤ e.nebins) :
    ∃ st', value e st = .ok (st', logLike e a.srcs a.kmin a.kmax) ∧ Rel e L (a.step .value) st' := by
  obtain ⟨st', c1, c2, c3, c4, c5, c6, c7⟩ := value_ok h he hev (by rw [h3]; exact h4)
  refine ⟨st', by rw [c1, h1, h2, h3], ⟨c2, by rw [c3, h1]; rfl,
    by rw [c4, h2]; rfl, by rw [c5, h3]; rfl, by rw [c5, h3]; exact h4,
    fun _ => c7.modelLen, ?_, fun _ => Or.inr c7⟩⟩
  intro x hx _ τ m' hs hm
  exact c7.cur x hx τ m' hs hm

theorem run_append (e : Env) (st : St ν) (xs ys : List (Op ν)) :
    run e st (xs ++ ys) = (run e st xs >>= fun s => run e s ys) := by
  induction xs generalizing st with
  | nil => rfl
  | cons x xs ih =>
    simp only [List.cons_append, run]
    cases step e st x with
    | ok s => exact ih s
    | throws => exact ih st
    | ub => rfl

theorem ideal_append (a : Ideal ν) (xs ys : List (Op ν)) : a.run (xs ++ ys) = (a.run xs).run ys := by
  induction xs generalizing a with
  | nil => rfl
  | cons x xs ih => exact ih _

theorem covered_append {a : Ideal ν} {xs ys : List (Op ν)} (h1 : CoveredRun e L a xs) (h2 : CoveredRun e L (a.run xs) ys) :
    CoveredRun e L a (xs ++ ys) := by
  induction xs generalizing a with
  | nil => exact h2
  | cons x xs ih => exact ⟨h1.1, ih h1.2 h2⟩

/-! ### Where the filled pixels lie -/

theorem first_ends (h : e.Ok) : val e.first 0 = 0 ∧ val e.first e.nebins = e.filled.length := by
  have hf := h.filled
  rw [Counts.identifyFilled_eq _ _ _ h.data] at hf
  have hF : Counts.filledUpTo e.npix e.data e.nebins = e.filled := by
    injection hf with h1; exact congrArg Prod.fst h1
  have hS : (List.range (e.nebins + 1)).map (fun k => (Counts.filledUpTo e.npix e.data k).length) = e.first := by
    injection hf with h1; exact congrArg Prod.snd h1
  rw [← hS, val_map_range _ (by omega), val_map_range _ (by omega), hF]
  exact ⟨by simp [Counts.filledUpTo], rfl⟩

theorem bin_of (h : e.Ok) {j : Nat} (hj : j < e.filled.length) :
    ∃ k, k < e.nebins ∧ val e.first k ≤ j ∧ j < val e.first (k + 1) := by
  obtain ⟨h0, h1⟩ := first_ends h
  have key : ∀ K, K ≤ e.nebins → j < val e.first K → ∃ k, k < K ∧ val e.first k ≤ j ∧ j < val e.first (k + 1) := by
    intro K
    induction K with
    | zero => intro _ h; omega
    | succ K ih =>
      intro hK h
      by_cases c : val e.first K ≤ j
      · exact ⟨K, by omega, c, h⟩
      · obtain ⟨k, k1, k2⟩ := ih (by omega) (by omega)
        exact ⟨k, by omega, k2⟩
  exact key e.nebins le_rfl (by rw [h1]; exact hj)

end Verif.Redata
