import Verif.Pix.Model
import Verif.Pix.Spec
import Mathlib.Algebra.BigOperators.Ring.Finset
import Mathlib.Tactic.Linarith
import Mathlib.Tactic.Ring
set_option linter.unusedSectionVars false
set_option linter.unusedSimpArgs false
set_option linter.unusedVariables false
/-
Lemmas on exposures and counts in a pixel.
-/
namespace Verif.Pix
open Verif Verif.Vec Real

/-- Livetime times value, summed. -/
noncomputable def total (f : ℝ → ℝ → ℝ) (l : List Cell) : ℝ := (l.map fun x => x.lt * f x.cosTheta x.phi).sum

def Holds (f : ℝ → ℝ → ℝ) (c : Memo) : Prop := ∀ k v, c k = some v → v = f k.1 k.2

theorem call_ok {f : ℝ → ℝ → ℝ} {c : Memo} (h : Holds f c) (x y : ℝ) : (call f c x y).1 = f x y ∧ Holds f (call f c x y).2 := by
  unfold call
  cases hc : c (x, y) with
  | some v => exact ⟨h _ _ hc, h⟩
  | none =>
    refine ⟨rfl, fun k v hk => ?_⟩
    by_cases e : k = (x, y)
    · subst e; simp at hk; exact hk.symm
    · simp only [Function.update_of_ne e] at hk; exact h _ _ hk

theorem integrate_ok {f : ℝ → ℝ → ℝ} (l : List Cell) : ∀ {c : Memo}, Holds f c →
    (integrate f l c).1 = total f l ∧ Holds f (integrate f l c).2 := by
  induction l with
  | nil => intro c h; exact ⟨by simp [integrate, total], h⟩
  | cons x xs ih =>
    intro c h
    obtain ⟨a, b⟩ := call_ok h x.cosTheta x.phi
    obtain ⟨d, e⟩ := ih b
    refine ⟨?_, e⟩
    simp only [integrate, a, d]
    simp [total]

/-- The exposure before the test of the sign. -/
noncomputable def Cube.expo (q : Cube) (f : ℝ → ℝ → ℝ) (energy : ℝ) : ℝ :=
  (q.fac energy).1 * total f (q.pick false) + (q.fac energy).2 * total f (q.pick true)

theorem value_eq (q : Cube) (f : ℝ → ℝ → ℝ) (energy : ℝ) :
    q.value f energy = if q.expo f energy < 0 then .throws else .ok (q.expo f energy) := by
  have h0 : Holds f (fun _ => none) := fun _ _ h => by simp at h
  obtain ⟨a, b⟩ := integrate_ok (q.pick false) h0
  obtain ⟨d, -⟩ := integrate_ok (q.pick true) b
  have e : (if (q.fac energy).2 ≠ 0 then (q.fac energy).1 * total f (q.pick false) + (q.fac energy).2 * total f (q.pick true)
      else (q.fac energy).1 * total f (q.pick false)) = q.expo f energy := by
    unfold Cube.expo
    by_cases h : (q.fac energy).2 = 0
    · rw [if_neg (by simpa using h), h]; ring
    · rw [if_pos h]
  unfold Cube.value
  simp only [a, d]
  rw [← e]

theorem value_ok {q : Cube} {f : ℝ → ℝ → ℝ} {energy : ℝ} (h : 0 ≤ q.expo f energy) : q.value f energy = .ok (q.expo f energy) := by
  rw [value_eq, if_neg (not_lt.2 h)]

theorem total_zero (l : List Cell) : total (fun _ _ => 0) l = 0 := by
  induction l with
  | nil => rfl
  | cons x xs ih => simp [total] at ih ⊢

theorem total_add (f g : ℝ → ℝ → ℝ) (l : List Cell) : total (fun x y => f x y + g x y) l = total f l + total g l := by
  induction l with
  | nil => simp [total]
  | cons x xs ih => simp only [total, List.map_cons, List.sum_cons] at ih ⊢; rw [ih]; ring

theorem total_smul (a : ℝ) (f : ℝ → ℝ → ℝ) (l : List Cell) : total (fun x y => a * f x y) l = a * total f l := by
  induction l with
  | nil => simp [total]
  | cons x xs ih => simp only [total, List.map_cons, List.sum_cons] at ih ⊢; rw [ih]; ring

theorem expo_smul (q : Cube) (a : ℝ) (f : ℝ → ℝ → ℝ) (e : ℝ) : q.expo (fun x y => a * f x y) e = a * q.expo f e := by
  unfold Cube.expo; rw [total_smul, total_smul]; ring

theorem expo_zero (q : Cube) (e : ℝ) : q.expo (fun _ _ => 0) e = 0 := by
  unfold Cube.expo; rw [total_zero, total_zero]; ring

theorem seen_far {s : Src} (h : 90 ≤ s.separation) (g : ℝ → ℝ → ℝ) : s.seen g = fun _ _ => 0 := by
  funext x y
  unfold Src.seen
  rw [if_neg (not_lt.2 h)]

/-- The counts of a source: the sum over the responses. -/
noncomputable def srcCounts (q : Cube) (types : List ℕ) (solidAngle emin emax : ℝ) (s : Src) : ℝ :=
  (types.map fun t => solidAngle *
    Spec.logTrapezoid emin emax (q.expo (s.seen (s.flux emin t)) emin) (q.expo (s.seen (s.flux emax t)) emax)).sum

theorem countsOfSource_ok {q : Cube} {solidAngle emin emax : ℝ} {s : Src} (types : List ℕ)
    (h : ∀ t ∈ types, 0 ≤ q.expo (s.seen (s.flux emin t)) emin ∧ 0 ≤ q.expo (s.seen (s.flux emax t)) emax) :
    ∀ acc, countsOfSource q solidAngle emin emax s types acc = .ok (acc + srcCounts q types solidAngle emin emax s) := by
  induction types with
  | nil => intro acc; simp [countsOfSource, srcCounts]
  | cons t ts ih =>
    intro acc
    rw [countsOfSource, value_ok (h t (by simp)).1, Res.bind_ok, value_ok (h t (by simp)).2, Res.bind_ok,
      ih (fun t ht => h t (by simp [ht]))]
    simp only [srcCounts, List.map_cons, List.sum_cons, Spec.logTrapezoid]
    congr 1
    ring

theorem countsLoop_ok {q : Cube} {types : List ℕ} {solidAngle emin emax : ℝ} (srcs : List Src)
    (h : ∀ s ∈ srcs, ∀ t ∈ types, 0 ≤ q.expo (s.seen (s.flux emin t)) emin ∧ 0 ≤ q.expo (s.seen (s.flux emax t)) emax) :
    ∀ acc, countsLoop q types solidAngle emin emax srcs acc =
      .ok (acc + (srcs.map (srcCounts q types solidAngle emin emax)).sum) := by
  induction srcs with
  | nil => intro acc; simp [countsLoop]
  | cons s ss ih =>
    intro acc
    rw [countsLoop, countsOfSource_ok types (h s (by simp)), Res.bind_ok, ih (fun s hs => h s (by simp [hs]))]
    simp only [List.map_cons, List.sum_cons]
    congr 1
    ring

theorem srcCounts_far {q : Cube} {types : List ℕ} {solidAngle emin emax : ℝ} {s : Src} (h : 90 ≤ s.separation) :
    srcCounts q types solidAngle emin emax s = 0 := by
  unfold srcCounts
  induction types with
  | nil => rfl
  | cons t ts ih => simp [seen_far h, expo_zero, Spec.logTrapezoid]

/-- The number reported for a parameter. -/
noncomputable def srcDeriv (q : Cube) (types : List ℕ) (solidAngle emin emax : ℝ) (s : Src) (d : ℝ → ℕ → ℝ → ℝ → ℝ) : ℝ :=
  (types.map fun t => (q.expo (s.seen (d emin t)) emin + q.expo (s.seen (d emax t)) emax) / 2 * solidAngle * (emax - emin)).sum

theorem derivOfParam_ok {q : Cube} {solidAngle emin emax : ℝ} {s : Src} {d : ℝ → ℕ → ℝ → ℝ → ℝ} {i : ℕ} (types : List ℕ)
    (h : ∀ t ∈ types, 0 ≤ q.expo (s.seen (d emin t)) emin ∧ 0 ≤ q.expo (s.seen (d emax t)) emax) :
    ∀ out : List ℝ, i < out.length → ∃ out', derivOfParam q solidAngle emin emax s d i types out = .ok out' ∧ out'.length = out.length ∧
      ∀ j, val out' j = val out j + (if j = i then srcDeriv q types solidAngle emin emax s d else 0) := by
  induction types with
  | nil => intro out hi; exact ⟨out, rfl, rfl, fun j => by simp [srcDeriv]⟩
  | cons t ts ih =>
    intro out hi
    rw [derivOfParam, value_ok (h t (by simp)).1, Res.bind_ok, value_ok (h t (by simp)).2, Res.bind_ok, getElem?_val hi]
    simp only
    obtain ⟨out', a, b, c⟩ := ih (fun t ht => h t (by simp [ht])) (out.set i _) (by simpa using hi)
    refine ⟨out', a, by simpa using b, fun j => ?_⟩
    rw [c, val_set hi]
    by_cases hj : j = i
    · subst hj
      rw [if_pos rfl, if_pos rfl, if_pos rfl]
      simp only [srcDeriv, List.map_cons, List.sum_cons]
      ring
    · rw [if_neg hj, if_neg hj, if_neg hj]

theorem derivsOfSource_ok {q : Cube} {types : List ℕ} {solidAngle emin emax : ℝ} {s : Src} (ds : List (ℝ → ℕ → ℝ → ℝ → ℝ))
    (h : ∀ d ∈ ds, ∀ t ∈ types, 0 ≤ q.expo (s.seen (d emin t)) emin ∧ 0 ≤ q.expo (s.seen (d emax t)) emax) :
    ∀ (i : ℕ) (out : List ℝ), i + ds.length ≤ out.length → ∃ out', derivsOfSource q types solidAngle emin emax s ds i out = .ok (i + ds.length, out') ∧
      out'.length = out.length ∧ ∀ j, val out' j = val out j +
        (if i ≤ j then val (ds.map (srcDeriv q types solidAngle emin emax s)) (j - i) else 0) := by
  induction ds with
  | nil => intro i out hi; exact ⟨out, rfl, rfl, fun j => by simp [val]⟩
  | cons d ds ih =>
    intro i out hi
    simp only [List.length_cons] at hi
    obtain ⟨o1, a1, b1, c1⟩ := derivOfParam_ok (solidAngle := solidAngle) types (h d (by simp)) out (i := i) (by omega)
    obtain ⟨o2, a2, b2, c2⟩ := ih (fun d hd => h d (by simp [hd])) (i + 1) o1 (by omega)
    refine ⟨o2, ?_, by omega, fun j => ?_⟩
    · rw [derivsOfSource, a1, Res.bind_ok, a2, List.length_cons]
      congr 2
      omega
    · rw [c2, c1, List.map_cons]
      by_cases h1 : j = i
      · subst h1
        rw [if_pos rfl, if_neg (by omega), if_pos (le_refl _)]
        simp [val]
      · by_cases h2 : i ≤ j
        · rw [if_neg h1, if_pos (by omega), if_pos h2, show j - i = (j - (i + 1)) + 1 by omega]
          simp [val]
        · rw [if_neg h1, if_neg (by omega), if_neg h2]
          simp

/-- All reported numbers in the order in which they are written. -/
noncomputable def allDerivs (q : Cube) (types : List ℕ) (solidAngle emin emax : ℝ) (srcs : List Src) : List ℝ :=
  srcs.flatMap fun s => s.free.map (srcDeriv q types solidAngle emin emax s)

theorem val_append {a b : List ℝ} {j : ℕ} : val (a ++ b) j = if j < a.length then val a j else val b (j - a.length) := by
  unfold val
  by_cases h : j < a.length
  · rw [if_pos h, List.getElem?_append_left h]
  · rw [if_neg h, List.getElem?_append_right (by omega)]

theorem derivsLoop_ok {q : Cube} {types : List ℕ} {solidAngle emin emax : ℝ} (srcs : List Src)
    (h : ∀ s ∈ srcs, ∀ d ∈ s.free, ∀ t ∈ types, 0 ≤ q.expo (s.seen (d emin t)) emin ∧ 0 ≤ q.expo (s.seen (d emax t)) emax) :
    ∀ (i : ℕ) (out : List ℝ), i + (allDerivs q types solidAngle emin emax srcs).length ≤ out.length →
      ∃ out', derivsLoop q types solidAngle emin emax srcs i out = .ok out' ∧ out'.length = out.length ∧ ∀ j, val out' j = val out j +
        (if i ≤ j then val (allDerivs q types solidAngle emin emax srcs) (j - i) else 0) := by
  induction srcs with
  | nil => intro i out hi; exact ⟨out, rfl, rfl, fun j => by simp [allDerivs, val]⟩
  | cons s ss ih =>
    intro i out hi
    have e : allDerivs q types solidAngle emin emax (s :: ss) =
      s.free.map (srcDeriv q types solidAngle emin emax s) ++ allDerivs q types solidAngle emin emax ss := by simp [allDerivs]
    rw [e, List.length_append, List.length_map] at hi
    obtain ⟨o1, a1, b1, c1⟩ := derivsOfSource_ok (solidAngle := solidAngle) s.free (h s (by simp)) i out (by omega)
    obtain ⟨o2, a2, b2, c2⟩ := ih (fun s hs => h s (by simp [hs])) (i + s.free.length) o1 (by omega)
    refine ⟨o2, ?_, by omega, fun j => ?_⟩
    · rw [derivsLoop, a1, Res.bind_ok, a2]
    · rw [c2, c1, e, val_append, List.length_map]
      by_cases h1 : i ≤ j
      · rw [if_pos h1, if_pos h1]
        by_cases h2 : j - i < s.free.length
        · rw [if_pos h2, if_neg (by omega)]; ring
        · rw [if_neg h2, if_pos (by omega), val_ge (l := s.free.map _) (k := j - i) (by rw [List.length_map]; omega),
            show j - i - s.free.length = j - (i + s.free.length) by omega]
          ring
      · rw [if_neg h1, if_neg h1, if_neg (by omega)]
        ring

theorem allDerivs_le (q : Cube) (types : List ℕ) (solidAngle emin emax : ℝ) (srcs : List Src) :
    (allDerivs q types solidAngle emin emax srcs).length ≤ numFree srcs := by
  induction srcs with
  | nil => simp [allDerivs, numFree]
  | cons s ss ih =>
    simp only [allDerivs, List.flatMap_cons, List.length_append, List.length_map, numFree] at ih ⊢
    omega

end Verif.Pix
