import Verif.Vec
import Verif.PsfMap.Model
import Verif.PsfMap.Spec
import Verif.Energy.Lemmas
import Verif.MapInt.Lemmas3
import Mathlib.Tactic.Linarith
import Mathlib.Tactic.FieldSimp
import Mathlib.Tactic.Ring
import Mathlib.Algebra.BigOperators.Fin
import Mathlib.Algebra.BigOperators.Ring.Finset
import Mathlib.Algebra.Order.BigOperators.Group.Finset
set_option linter.unusedSectionVars false
set_option linter.unusedSimpArgs false
set_option linter.unusedVariables false
/-
Lemmas for the map of a point source.
-/
namespace Verif.PsfMap
open Verif Verif.Vec Real Spec

theorem val_zero_cons (d : ℝ) (ds : List ℝ) : val (d :: ds) 0 = d := by rw [val_lt (by simp)]; rfl

theorem val_map_lt (f : ℝ → ℝ) {l : List ℝ} {k : Nat} (h : k < l.length) : val (l.map f) k = f (val l k) := by
  rw [val_lt (by simpa using h), val_lt h, List.getElem_map]

theorem listSum_range (f : Nat → ℝ) : ∀ n, ((List.range n).map f).sum = ∑ i ∈ Finset.range n, f i
  | 0 => by simp
  | n + 1 => by rw [List.range_succ, List.map_append, List.sum_append, listSum_range f n, Finset.sum_range_succ]; simp

/-- The vector holds the given values, layer after layer. -/
def Holds (npix nb : Nat) (m : List ℝ) (V : Nat → Nat → ℝ) : Prop :=
  m.length = nb * npix ∧ ∀ k j, k < nb → j < npix → val m (k * npix + j) = V k j

theorem Holds.congr {npix nb : Nat} {m : List ℝ} {V W : Nat → Nat → ℝ} (h : Holds npix nb m V)
    (he : ∀ k j, k < nb → j < npix → V k j = W k j) : Holds npix nb m W :=
  ⟨h.1, fun k j hk hj => by rw [h.2 k j hk hj, he k j hk hj]⟩

theorem Holds.set {npix nb : Nat} {m : List ℝ} {V : Nat → Nat → ℝ} (h : Holds npix nb m V) {k j : Nat}
    (hk : k < nb) (hj : j < npix) (a : ℝ) :
    vset m (k * npix + j) a = .ok (m.set (k * npix + j) a) ∧
      Holds npix nb (m.set (k * npix + j) a) (fun k' j' => if k' = k ∧ j' = j then a else V k' j') := by
  have hlt : k * npix + j < m.length := by rw [h.1]; exact idx_lt hj hk
  refine ⟨vset_lt _ _ _ hlt, by simpa using h.1, fun k' j' hk' hj' => ?_⟩
  rw [val_set hlt]
  by_cases he : k' * npix + j' = k * npix + j
  · obtain ⟨rfl, rfl⟩ := idx_inj hj' hj he
    simp
  · have he' : ¬ (k' = k ∧ j' = j) := by rintro ⟨rfl, rfl⟩; exact he rfl
    simp only [if_neg he, if_neg he', h.2 k' j' hk' hj']

theorem Holds.get {npix nb : Nat} {m : List ℝ} {V : Nat → Nat → ℝ} (h : Holds npix nb m V) {k j : Nat}
    (hk : k < nb) (hj : j < npix) : vget m (k * npix + j) = .ok (V k j) := by
  have hlt : k * npix + j < m.length := by rw [h.1]; exact idx_lt hj hk
  rw [vget_val hlt, h.2 k j hk hj]

theorem holds_at {npix nb : Nat} {m : List ℝ} {V : Nat → Nat → ℝ} (h : Holds npix nb m V) {k j : Nat}
    (hk : k < nb) (hj : j < npix) : at' npix m k j = some (V k j) := by
  unfold at'
  rw [show j + npix * k = k * npix + j by ring, getElem?_val (by rw [h.1]; exact idx_lt hj hk), h.2 k j hk hj]

theorem holds_zero (npix nb : Nat) : Holds npix nb (vresize [] (nb * npix) 0) (fun _ _ => 0) := by
  refine ⟨by simp, fun k j hk hj => ?_⟩
  simp [vresize]

/-- The value that is added for an energy and a pixel. -/
noncomputable def added (x : In) (k j : Nat) : ℝ :=
  x.psf k j * x.sol j * (if x.doExp then val x.expo k else 1)

/-- The part of the sum that belongs to a pixel. -/
noncomputable def part (x : In) (k j : Nat) : ℝ :=
  open Classical in if x.sep j ≤ x.radius then x.psf k j * x.sol j else 0

theorem near_eq (x : In) (k : Nat) :
    near x.npix x.sep x.radius (fun j => x.psf k j * x.sol j) = ∑ j ∈ Finset.range x.npix, part x k j := by
  unfold near part
  rw [Finset.sum_filter]

theorem withExposure_ok (x : In) {k : Nat} (h : x.doExp = true → k < x.expo.length) (v : ℝ) :
    withExposure x k v = .ok (v * (if x.doExp then val x.expo k else 1)) := by
  unfold withExposure
  cases hd : x.doExp
  · simp
  · rw [if_pos rfl, vget_val (h hd), Res.bind_ok]
    simp

theorem addIntegral_ok (x : In) {kmin k j : Nat} {I : List ℝ} (h : k - kmin < I.length) :
    addIntegral x kmin k j I = .ok (I.set (k - kmin) (val I (k - kmin) + part x k j)) := by
  classical
  unfold addIntegral part
  by_cases hs : x.sep j ≤ x.radius
  · rw [if_pos (by convert hs), vget_val h, Res.bind_ok, vset_lt _ _ _ h, if_pos (by convert hs)]
  · rw [if_neg (by convert hs), if_neg (by convert hs)]
    congr 1
    exact (set_val_self h).symm

theorem step_ok (x : In) {kmin k j nb : Nat} {s : List ℝ × List ℝ} {V : Nat → Nat → ℝ} {T : Nat → ℝ}
    (h1 : Holds x.npix nb s.1 V) (h2 : s.2.length = nb) (h3 : ∀ k' < nb, val s.2 k' = T k')
    (hk : kmin ≤ k) (hk2 : k < kmin + nb) (hk3 : k < x.ne) (hj : j < x.npix)
    (he : x.doExp = true → k < x.expo.length) (hv : x.verbose = true → 20 ≤ nb * x.npix) :
    ∃ s', step x kmin nb j k s = .ok s' ∧ s'.2.length = nb ∧
      Holds x.npix nb s'.1 (fun k' j' => V k' j' + if k' = k - kmin ∧ j' = j then added x k j else 0) ∧
      ∀ k' < nb, val s'.2 k' = T k' + if k' = k - kmin then part x k j else 0 := by
  have hkn : k - kmin < nb := by omega
  unfold step
  have hv' : ¬ (x.verbose ∧ nb * x.npix / 20 = 0) := fun h => by have := hv h.1; omega
  rw [if_neg (by omega), if_neg hv', addIntegral_ok x (by omega), Res.bind_ok, withExposure_ok x he, Res.bind_ok, h1.get hkn hj,
    Res.bind_ok, (h1.set hkn hj _).1, Res.bind_ok]
  refine ⟨_, rfl, by simpa using h2, ?_, ?_⟩
  · refine (h1.set hkn hj _).2.congr fun k' j' _ _ => ?_
    by_cases hc : k' = k - kmin ∧ j' = j
    · obtain ⟨rfl, rfl⟩ := hc
      simp [added]
    · simp only [if_neg hc, add_zero]
  · intro k' hk'
    rw [val_set (by omega)]
    by_cases hc : k' = k - kmin
    · subst hc
      simp [h3 _ hkn]
    · simp only [if_neg hc, add_zero, h3 k' hk']

theorem fill_ok (x : In) {kmin nb : Nat} {m : List ℝ} {V : Nat → Nat → ℝ} (h1 : Holds x.npix nb m V)
    (hne : kmin + nb ≤ x.ne) (he : x.doExp = true → kmin + nb ≤ x.expo.length)
    (hv : x.verbose = true → 20 ≤ nb * x.npix) :
    ∃ s, fill x kmin nb m = .ok s ∧ s.2.length = nb ∧
      Holds x.npix nb s.1 (fun k j => V k j + added x (kmin + k) j) ∧
      ∀ k < nb, val s.2 k = ∑ j ∈ Finset.range x.npix, part x (kmin + k) j := by
  unfold fill
  obtain ⟨s, g1, g2, g3, g4⟩ := loop_inv (lo := 0) (n := x.npix) (s := (m, List.replicate nb (0 : ℝ)))
    (body := fun j s => loop (fun k s => step x kmin nb j k s) kmin nb s)
    (fun j s => s.2.length = nb ∧ Holds x.npix nb s.1 (fun k j' => V k j' + if j' < j then added x (kmin + k) j' else 0) ∧
      ∀ k < nb, val s.2 k = ∑ j' ∈ Finset.range j, part x (kmin + k) j')
    ⟨by simp, h1.congr fun k j _ _ => by simp, fun k hk => by simp⟩
    (by
      rintro j s _ hj ⟨a1, a2, a3⟩
      rw [Nat.zero_add] at hj
      obtain ⟨s', b1, b2, b3, b4⟩ := loop_inv (lo := kmin) (n := nb) (s := s)
        (body := fun k s => step x kmin nb j k s)
        (fun k s => s.2.length = nb ∧ Holds x.npix nb s.1 (fun k' j' => (V k' j' + if j' < j then added x (kmin + k') j' else 0) +
            if j' = j ∧ kmin + k' < k then added x (kmin + k') j' else 0) ∧
          ∀ k' < nb, val s.2 k' = (∑ j' ∈ Finset.range j, part x (kmin + k') j') +
            if kmin + k' < k then part x (kmin + k') j else 0)
        ⟨a1, a2.congr fun k' j' _ _ => by simp, fun k' hk' => by rw [a3 k' hk']; simp⟩
        (by
          rintro k s hk hk2 ⟨c1, c2, c3⟩
          obtain ⟨s', d1, d2, d3, d4⟩ := step_ok x (j := j) c2 c1 c3 hk hk2 (by omega) hj (fun h => by have := he h; omega) hv
          refine ⟨s', d1, d2, d3.congr fun k' j' _ _ => ?_, fun k' hk' => ?_⟩
          · by_cases hc : k' = k - kmin ∧ j' = j
            · obtain ⟨rfl, rfl⟩ := hc
              have e1 : kmin + (k - kmin) = k := by omega
              simp [e1]
            · simp only [if_neg hc, add_zero]
              by_cases hj' : j' = j
              · have e2 : k' ≠ k - kmin := fun h => hc ⟨h, hj'⟩
                have e3 : kmin + k' < k + 1 ↔ kmin + k' < k := by omega
                simp only [e3]
              · simp [hj']
          · rw [d4 k' hk']
            by_cases hc : k' = k - kmin
            · subst hc
              have e1 : kmin + (k - kmin) = k := by omega
              simp [e1]
            · have e3 : kmin + k' < k + 1 ↔ kmin + k' < k := by omega
              simp only [if_neg hc, add_zero, e3])
      refine ⟨s', b1, b2, b3.congr fun k' j' hk' _ => ?_, fun k' hk' => ?_⟩
      · have e1 : kmin + k' < kmin + nb := by omega
        rcases lt_trichotomy j' j with h | h | h
        · simp [h, show j' ≠ j by omega, show j' < j + 1 by omega]
        · subst h; simp [e1]
        · simp [show ¬ j' < j by omega, show j' ≠ j by omega, show ¬ j' < j + 1 by omega]
      · rw [b4 k' hk', if_pos (by omega), Finset.sum_range_succ])
  refine ⟨s, g1, g2, g3.congr fun k j _ hj => ?_, fun k hk => ?_⟩
  · simp [hj]
  · rw [g4 k hk, Nat.zero_add]

theorem correctLayer_ok (x : In) {kmin nb : Nat} {I m : List ℝ} {V : Nat → Nat → ℝ} (h1 : Holds x.npix nb m V)
    (hI : I.length = nb) {kk : Nat} (hk : kmin ≤ kk) (hk2 : kk < kmin + nb) :
    ∃ m', correctLayer x kmin I kk m = .ok m' ∧
      Holds x.npix nb m' (fun k j => if k = kk - kmin then V k j * factor (x.integ kk) (val I (kk - kmin)) else V k j) := by
  have hkn : kk - kmin < nb := by omega
  unfold correctLayer
  rw [if_neg (by omega), vget_val (by omega), Res.bind_ok]
  generalize factor (x.integ kk) (val I (kk - kmin)) = f
  obtain ⟨m', g1, g2⟩ := loop_inv (lo := 0) (n := x.npix) (s := m)
    (body := fun j m => do
      let v ← vget m ((kk - kmin) * x.npix + j)
      vset m ((kk - kmin) * x.npix + j) (v * f))
    (fun j m => Holds x.npix nb m (fun k' j' => if k' = kk - kmin ∧ j' < j then V k' j' * f else V k' j'))
    (h1.congr fun k j _ _ => by simp)
    (by
      intro j w _ hj hw
      rw [Nat.zero_add] at hj
      have hv : vget w ((kk - kmin) * x.npix + j) = .ok (V (kk - kmin) j) := by
        rw [hw.get hkn hj]; simp
      obtain ⟨e1, e2⟩ := hw.set hkn hj (V (kk - kmin) j * f)
      simp only [hv, Res.bind_ok]
      refine ⟨_, e1, e2.congr fun k' j' _ _ => ?_⟩
      by_cases hc : k' = kk - kmin
      · subst hc
        rcases lt_trichotomy j' j with h | h | h
        · simp [h, show j' ≠ j by omega, show j' < j + 1 by omega]
        · subst h; simp
        · simp [show ¬ j' < j by omega, show j' ≠ j by omega, show ¬ j' < j + 1 by omega]
      · simp [hc])
  refine ⟨m', g1, g2.congr fun k j _ hj => ?_⟩
  simp [hj]

theorem correct_ok (x : In) {I m : List ℝ} {V : Nat → Nat → ℝ} (h1 : Holds x.npix x.ne m V) (hI : I.length = x.ne) :
    ∃ m', loop (correctLayer x 0 I) 0 x.ne m = .ok m' ∧
      Holds x.npix x.ne m' (fun k j => V k j * factor (x.integ k) (val I k)) := by
  obtain ⟨m', g1, g2⟩ := loop_inv (lo := 0) (n := x.ne) (s := m) (body := correctLayer x 0 I)
    (fun kk m => Holds x.npix x.ne m (fun k j => if k < kk then V k j * factor (x.integ k) (val I k) else V k j))
    (h1.congr fun k j _ _ => by simp)
    (by
      intro kk w _ hk hw
      obtain ⟨w', e1, e2⟩ := correctLayer_ok x hw hI (Nat.zero_le kk) hk
      refine ⟨w', e1, e2.congr fun k' j' _ _ => ?_⟩
      rw [Nat.sub_zero]
      rcases lt_trichotomy k' kk with h | h | h
      · simp [h, show k' ≠ kk by omega, show k' < kk + 1 by omega]
      · subst h; simp
      · simp [show ¬ k' < kk by omega, show k' ≠ kk by omega, show ¬ k' < kk + 1 by omega])
  refine ⟨m', g1, g2.congr fun k j hk _ => ?_⟩
  simp [hk]

/-! ### The closest pixel -/

theorem closest_spec : ∀ (ds : List ℝ) (i : Nat) (best : ℝ × Nat),
    ((closest ds i best = best ∧ ∀ d ∈ ds, best.1 ≤ d) ∨
      (∃ n d, ds[n]? = some d ∧ closest ds i best = (d, i + n) ∧ d < best.1 ∧ ∀ e ∈ ds, d ≤ e))
  | [], i, best => Or.inl ⟨rfl, by simp⟩
  | d :: ds, i, best => by
    classical
    rw [closest]
    by_cases h : d < best.1
    · rw [if_pos (by convert h)]
      rcases closest_spec ds (i + 1) (d, i) with ⟨h1, h2⟩ | ⟨n, e, h1, h2, h3, h4⟩
      · exact Or.inr ⟨0, d, rfl, by rw [h1]; rfl, h, by
          intro e he
          rcases List.mem_cons.1 he with rfl | he
          · exact le_rfl
          · exact h2 e he⟩
      · exact Or.inr ⟨n + 1, e, by simpa using h1, by rw [h2]; congr 1; omega, lt_trans h3 h, by
          intro e' he
          rcases List.mem_cons.1 he with rfl | he
          · exact h3.le
          · exact h4 e' he⟩
    · rw [if_neg (by convert h)]
      rcases closest_spec ds (i + 1) best with ⟨h1, h2⟩ | ⟨n, e, h1, h2, h3, h4⟩
      · exact Or.inl ⟨h1, by
          intro e he
          rcases List.mem_cons.1 he with rfl | he
          · exact not_lt.1 h
          · exact h2 e he⟩
      · exact Or.inr ⟨n + 1, e, by simpa using h1, by rw [h2]; congr 1; omega, h3, by
          intro e' he
          rcases List.mem_cons.1 he with rfl | he
          · exact h3.le.trans (not_lt.1 h)
          · exact h4 e' he⟩

theorem closest_first (d : ℝ) (ds : List ℝ) :
    IsClosest (d :: ds) (closest (d :: ds) 0 (d, 0)).2 ∧
      (d :: ds)[(closest (d :: ds) 0 (d, 0)).2]? = some (closest (d :: ds) 0 (d, 0)).1 := by
  rcases closest_spec (d :: ds) 0 (d, 0) with ⟨h1, h2⟩ | ⟨n, e, h1, h2, h3, h4⟩
  · rw [h1]
    exact ⟨⟨d, rfl, h2⟩, rfl⟩
  · rw [h2]
    simp only [Nat.zero_add]
    exact ⟨⟨e, h1, h4⟩, h1⟩

end Verif.PsfMap
