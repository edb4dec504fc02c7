import Verif.FitUtils.Spec
import Mathlib.Analysis.SpecialFunctions.Log.Deriv
import Mathlib.Analysis.Calculus.Deriv.Add
import Mathlib.Analysis.Calculus.Deriv.Mul
import Mathlib.Analysis.Calculus.Deriv.Inv
import Mathlib.Algebra.BigOperators.Ring.Finset
import Mathlib.Tactic.Linarith
import Mathlib.Tactic.Ring
import Mathlib.Tactic.FieldSimp
import Mathlib.Tactic.NormNum
set_option linter.unusedSectionVars false
set_option linter.unusedSimpArgs false
set_option linter.unusedVariables false
open scoped BigOperators

namespace Verif.FitUtils

open Spec

/-! ### vectors -/

/-- The code's end of the range is the specified one. -/
theorem rangeStop_eq : rangeStop = Spec.lastSel := rfl

theorem Spec.Shapes.first' {data norms : List ℝ} {ts : List (List ℝ)} {fixed : List ℝ}
    {weights : Option (List ℝ)} {scratch : List ℝ} {first last : Nat}
    (sh : Spec.Shapes data norms ts fixed weights scratch first last) :
    first ≤ rangeStop data.length last := by rw [rangeStop_eq]; exact sh.first

theorem val_lt {l : List ℝ} {k : Nat} (h : k < l.length) : val l k = l[k] := by
  simp [val, List.getElem?_eq_getElem h]

theorem val_ge {l : List ℝ} {k : Nat} (h : l.length ≤ k) : val l k = 0 := by
  simp [val, List.getElem?_eq_none h]

theorem vget_val {l : List ℝ} {k : Nat} (h : k < l.length) : vget l k = .ok (val l k) := by
  rw [vget_lt l k h, val_lt h]

@[simp] theorem val_nil (k : Nat) : val [] k = 0 := rfl
@[simp] theorem val_cons_zero (a : ℝ) (l : List ℝ) : val (a :: l) 0 = a := rfl
@[simp] theorem val_cons_succ (a : ℝ) (l : List ℝ) (k : Nat) : val (a :: l) (k + 1) = val l k := by
  simp [val]

theorem val_set {l : List ℝ} {i k : Nat} {a : ℝ} (h : i < l.length) :
    val (l.set i a) k = if k = i then a else val l k := by
  unfold val
  by_cases hk : k = i
  · subst hk; simp [h]
  · rw [List.getElem?_set]; simp [Ne.symm hk, hk]

theorem ext_val {a b : List ℝ} (hl : a.length = b.length) (h : ∀ k < a.length, val a k = val b k) :
    a = b := by
  apply List.ext_getElem hl
  intro k h1 h2
  have := h k h1
  rwa [val_lt h1, val_lt h2] at this

theorem sum_val (l : List ℝ) : l.sum = ∑ k ∈ Finset.range l.length, val l k := by
  induction l with
  | nil => simp
  | cons a l ih => simp [Finset.sum_range_succ', ih, add_comm]

theorem foldl_sum (l : List ℝ) (a : ℝ) : l.foldl (· + ·) a = a + l.sum := by
  induction l generalizing a with
  | nil => simp
  | cons x l ih => simp [ih, add_assoc]

theorem val_zipWith_mul (a b : List ℝ) (k : Nat) :
    val (List.zipWith (· * ·) a b) k = val a k * val b k := by
  unfold val
  rw [List.getElem?_zipWith]
  cases a[k]? <;> cases b[k]? <;> simp

theorem innerProduct2_eq {a b : List ℝ} (h : a.length = b.length) :
    innerProduct2 a b = .ok (∑ k ∈ Finset.range a.length, val a k * val b k) := by
  simp [innerProduct2, h, foldl_sum, sum_val, val_zipWith_mul]

theorem innerProduct3_eq {a b c : List ℝ} (h : a.length = b.length) (h' : a.length = c.length) :
    innerProduct3 a b c = .ok (∑ k ∈ Finset.range a.length, val a k * val b k * val c k) := by
  simp [innerProduct3, ← h, ← h', foldl_sum, sum_val, val_zipWith_mul]

theorem innerProduct4_eq {a b c d : List ℝ} (h : a.length = b.length) (h' : a.length = c.length)
    (h'' : a.length = d.length) :
    innerProduct4 a b c d =
      .ok (∑ k ∈ Finset.range a.length, val a k * val b k * val c k * val d k) := by
  simp [innerProduct4, ← h, ← h', ← h'', foldl_sum, sum_val, val_zipWith_mul]

/-! ### slices -/

theorem slice_ok {l : List ℝ} {a b : Nat} (h : a ≤ b) (h' : b ≤ l.length) :
    ∃ s, slice l a b = .ok s ∧ s.length = b - a ∧ ∀ k < b - a, val s k = val l (a + k) := by
  refine ⟨(l.drop a).take (b - a), by simp [slice]; omega, by simp; omega, ?_⟩
  intro k hk
  unfold val
  rw [List.getElem?_take, if_pos hk, List.getElem?_drop]

/-! ### sumModel -/

theorem addTemplate_ok {first stop : Nat} {n : ℝ} {t total : List ℝ} (h : first ≤ stop)
    (ht : stop ≤ t.length) (hT : stop ≤ total.length) :
    ∃ T, addTemplate first stop n t total = .ok T ∧ T.length = total.length ∧
      ∀ k, val T k = if first ≤ k ∧ k < stop then val total k + n * val t k else val total k := by
  unfold addTemplate
  obtain ⟨T, h1, h2, h3⟩ := loop_inv (lo := first) (n := stop - first) (s := total)
    (body := fun k t' => do
      let x ← vget t k
      let y ← vget t' k
      vset t' k (y + n * x))
    (fun i T => T.length = total.length ∧
      ∀ k, val T k = if first ≤ k ∧ k < i then val total k + n * val t k else val total k)
    ⟨rfl, fun k => by rw [if_neg (by omega)]⟩
    (by
      rintro i T hi hi' ⟨hl, hv⟩
      refine ⟨T.set i (val T i + n * val t i), ?_, by simp [hl], ?_⟩
      · rw [vget_val (show i < t.length by omega), Res.bind_ok,
          vget_val (show i < T.length by omega), Res.bind_ok, vset_lt _ _ _ (by omega)]
      · intro k
        rw [val_set (by omega)]
        by_cases hk : k = i
        · subst hk; rw [if_pos rfl, hv k, if_neg (by omega), if_pos (by omega)]
        · rw [if_neg hk, hv k]
          by_cases h2 : first ≤ k ∧ k < i
          · rw [if_pos h2, if_pos (by omega)]
          · rw [if_neg h2, if_neg (by omega)])
  refine ⟨T, h1, h2, ?_⟩
  rwa [show first + (stop - first) = stop by omega] at h3

theorem addTemplates_ok {first stop : Nat} (h : first ≤ stop) :
    ∀ (norms : List ℝ) (ts : List (List ℝ)) (total : List ℝ) (ht : ∀ t ∈ ts, stop ≤ t.length)
      (hT : stop ≤ total.length),
    ∃ T, addTemplates first stop norms ts total = .ok T ∧ T.length = total.length ∧
      ∀ k, val T k = if first ≤ k ∧ k < stop then val total k + tmplSum norms ts k
        else val total k
  | [], ts, total, _, _ => ⟨total, by simp [addTemplates], rfl, by simp [tmplSum]⟩
  | _ :: _, [], total, _, _ => ⟨total, by simp [addTemplates], rfl, by simp [tmplSum]⟩
  | n :: ns, t :: ts, total, ht, hT => by
    obtain ⟨T1, h1, h2, h3⟩ := addTemplate_ok (n := n) h (ht t (by simp)) hT
    obtain ⟨T2, h4, h5, h6⟩ := addTemplates_ok h ns ts T1 (fun t' h' => ht t' (by simp [h']))
      (by omega)
    refine ⟨T2, by simp [addTemplates, h1, h4], by omega, ?_⟩
    intro k
    rw [h6, h3]
    split
    · simp [tmplSum]; ring
    · rfl

/-- What `sumModel` computes. -/
theorem sumModel_ok {norms : List ℝ} {ts : List (List ℝ)} {fixed total : List ℝ}
    {first last : Nat} (hf : fixed.length = total.length) (hn : ts.length = norms.length)
    (hs : first ≤ rangeStop total.length last) (hs' : rangeStop total.length last ≤ total.length)
    (ht : ∀ t ∈ ts, rangeStop total.length last ≤ t.length) :
    ∃ T, sumModel norms ts fixed total first last = .ok T ∧ T.length = total.length ∧
      ∀ k, val T k = if first ≤ k ∧ k < rangeStop total.length last
        then modelAt norms ts fixed k else val total k := by
  generalize hst : rangeStop total.length last = stop at *
  obtain ⟨T0, h1, h2, h3⟩ := loop_inv (lo := first) (n := stop - first) (s := total)
    (body := fun k t => do
        let x ← vget fixed k
        vset t k x)
    (fun i T => T.length = total.length ∧
      ∀ k, val T k = if first ≤ k ∧ k < i then val fixed k else val total k)
    ⟨rfl, fun k => by rw [if_neg (by omega)]⟩
    (by
      rintro i T hi hi' ⟨hl, hv⟩
      refine ⟨T.set i (val fixed i), ?_, by simp [hl], ?_⟩
      · rw [vget_val (show i < fixed.length by omega), Res.bind_ok, vset_lt _ _ _ (by omega)]
      · intro k
        rw [val_set (by omega), hv k]
        by_cases hk : k = i
        · subst hk; rw [if_pos rfl, if_pos (by omega)]
        · rw [if_neg hk]
          by_cases h2 : first ≤ k ∧ k < i
          · rw [if_pos h2, if_pos (by omega)]
          · rw [if_neg h2, if_neg (by omega)])
  obtain ⟨T, h4, h5, h6⟩ := addTemplates_ok (first := first) (stop := stop) hs norms ts T0 ht
    (by omega)
  refine ⟨T, ?_, by omega, ?_⟩
  · unfold sumModel
    rw [if_neg (by simp [hf]), if_neg (by simp [hn])]
    simp only [hst]
    rw [if_neg (by omega), h1, Res.bind_ok, h4]
  · intro k
    rw [h6, h3, show first + (stop - first) = stop by omega]
    split <;> rfl

theorem tmplSum_set : ∀ (norms : List ℝ) (ts : List (List ℝ)) (i : Nat) (x : ℝ) (k : Nat)
    (h : i < norms.length) (h' : i < ts.length),
    tmplSum (norms.set i x) ts k =
      tmplSum norms ts k + (x - val norms i) * val (ts[i]?.getD []) k
  | n :: ns, t :: ts, 0, x, k, _, _ => by simp [tmplSum]; ring
  | n :: ns, t :: ts, i + 1, x, k, h, h' => by
    have := tmplSum_set ns ts i x k (by simpa using h) (by simpa using h')
    simp [tmplSum, this]; ring

/-! ### likelihood loops -/

/-- The term of bin with data `d`, model `m`, weight `w` that the code adds up. -/
noncomputable def term (d m w : ℝ) : ℝ :=
  (if (1e-9 : ℝ) < d * w then d * w * Real.log m else 0) - m * w

theorem llLoopW_ok : ∀ (d m w : List ℝ) (N L : ℝ) (hm : d.length = m.length)
    (hw : d.length = w.length)
    (hp : ∀ k < d.length, 0 ≤ val m k ∧ ((1e-9 : ℝ) < val d k * val w k → 0 < val m k)),
    llLoopW d m w N L =
      .ok (L - N + ∑ k ∈ Finset.range d.length, term (val d k) (val m k) (val w k))
  | [], [], [], N, L, _, _, _ => by simp [llLoopW]
  | d :: ds, m :: ms, w :: ws, N, L, hm, hw, hp => by
    have h0 := hp 0 (by simp)
    simp only [val_cons_zero] at h0
    have hrec := fun N L => llLoopW_ok ds ms ws N L (by simpa using hm) (by simpa using hw)
      (fun k hk => by simpa using hp (k + 1) (by simpa using hk))
    rw [llLoopW, if_neg (by linarith [h0.1])]
    simp only [List.length_cons, Finset.sum_range_succ', val_cons_succ, val_cons_zero]
    by_cases hd : (1e-9 : ℝ) < d * w
    · rw [if_pos hd, if_neg (by linarith [h0.2 hd]), hrec]
      congr 1
      rw [show term d m w = d * w * Real.log m - m * w by simp only [term, if_pos hd]]
      ring
    · rw [if_neg hd, hrec]
      congr 1
      rw [show term d m w = - (m * w) by simp only [term, if_neg hd]; ring]
      ring

theorem fracDiffLoop_ok : ∀ (d m : List ℝ) (hm : d.length = m.length)
    (hp : ∀ k < d.length, val d k ≤ 0 ∨ 0 < val m k),
    ∃ f, fracDiffLoop d m = .ok f ∧ f.length = d.length ∧
      ∀ k < d.length, val f k = if val d k ≤ 0 then 1 else 1 - val d k / val m k
  | [], [], _, _ => ⟨[], by simp [fracDiffLoop], rfl, by simp⟩
  | d :: ds, m :: ms, hm, hp => by
    obtain ⟨f, h1, h2, h3⟩ := fracDiffLoop_ok ds ms (by simpa using hm)
      (fun k hk => by simpa using hp (k + 1) (by simpa using hk))
    have h0 := hp 0 (by simp)
    simp only [val_cons_zero] at h0
    refine ⟨(if d ≤ 0 then 1 else 1 - d / m) :: f, ?_, by simp [h2], ?_⟩
    · rw [fracDiffLoop]
      by_cases hd : d ≤ 0
      · simp [hd, h1]
      · have hm0 : ¬ m ≤ 0 := by
          rcases h0 with h0 | h0
          · exact absurd h0 hd
          · linarith
        simp [hd, h1, hm0]
    · intro k hk
      cases k with
      | zero => by_cases hd : d ≤ 0 <;> simp [hd]
      | succ k => simpa using h3 k (by simpa using hk)

theorem dataOverModel2Loop_ok : ∀ (d m : List ℝ) (hm : d.length = m.length)
    (hp : ∀ k < d.length, val d k ≤ 0 ∨ 0 < val m k),
    ∃ f, dataOverModel2Loop d m = .ok f ∧ f.length = d.length ∧
      ∀ k < d.length, val f k = if val d k ≤ 0 then 0 else val d k / (val m k * val m k)
  | [], [], _, _ => ⟨[], by simp [dataOverModel2Loop], rfl, by simp⟩
  | d :: ds, m :: ms, hm, hp => by
    obtain ⟨f, h1, h2, h3⟩ := dataOverModel2Loop_ok ds ms (by simpa using hm)
      (fun k hk => by simpa using hp (k + 1) (by simpa using hk))
    have h0 := hp 0 (by simp)
    simp only [val_cons_zero] at h0
    refine ⟨(if d ≤ 0 then 0 else d / (m * m)) :: f, ?_, by simp [h2], ?_⟩
    · rw [dataOverModel2Loop]
      by_cases hd : d ≤ 0
      · simp [hd, h1]
      · have hm0 : ¬ m ≤ 0 := by
          rcases h0 with h0 | h0
          · exact absurd h0 hd
          · linarith
        simp [hd, h1, hm0]
    · intro k hk
      cases k with
      | zero => by_cases hd : d ≤ 0 <;> simp [hd]
      | succ k => simpa using h3 k (by simpa using hk)

/-! ### no weights is unit weights -/

theorem llLoop_ones : ∀ (d m : List ℝ) (N L : ℝ) (h : d.length = m.length),
    llLoop d m N L = llLoopW d m (List.replicate d.length 1) N L
  | [], [], N, L, _ => by simp [llLoop, llLoopW]
  | d :: ds, m :: ms, N, L, h => by
    have hrec := fun N L => llLoop_ones ds ms N L (by simpa using h)
    rw [llLoop, List.length_cons, List.replicate_succ, llLoopW]
    simp only [hrec, mul_one]

theorem logLikePoisson_ones {d m : List ℝ} :
    logLikePoisson d m = logLikePoissonW d m (List.replicate d.length 1) := by
  unfold logLikePoisson logLikePoissonW
  by_cases h : d.length = m.length
  · rw [if_neg (by simpa using h), if_neg (by simpa using h), if_neg (by simp), llLoop_ones _ _ _ _ h]
  · rw [if_pos h, if_pos h]

theorem slice_replicate {n a b : Nat} (h : a ≤ b) (h' : b ≤ n) :
    slice (List.replicate n (1 : ℝ)) a b = .ok (List.replicate (b - a) 1) := by
  unfold slice
  rw [if_neg (by simp; omega)]
  congr 1
  simp; omega

theorem val_replicate {n k : Nat} (h : k < n) : val (List.replicate n (1 : ℝ)) k = 1 := by
  simp [val, h]

theorem innerProduct2_ones {a b : List ℝ} :
    innerProduct2 a b = innerProduct3 (List.replicate a.length 1) a b := by
  by_cases h : a.length = b.length
  · rw [innerProduct2_eq h, innerProduct3_eq (by simp) (by simp [h])]
    congr 1
    simp only [List.length_replicate]
    refine Finset.sum_congr rfl fun k hk => ?_
    rw [val_replicate (by simpa using hk), one_mul]
  · simp [innerProduct2, innerProduct3, h]

theorem innerProduct3_ones {a b c : List ℝ} :
    innerProduct3 a b c = innerProduct4 (List.replicate a.length 1) a b c := by
  by_cases h : a.length = b.length
  · by_cases h' : a.length = c.length
    · rw [innerProduct3_eq h h', innerProduct4_eq (by simp) (by simp [h]) (by simp [h'])]
      congr 1
      simp only [List.length_replicate]
      refine Finset.sum_congr rfl fun k hk => ?_
      rw [val_replicate (by simpa using hk), one_mul]
    · simp [innerProduct3, innerProduct4, h']
  · simp [innerProduct3, innerProduct4, h]

end Verif.FitUtils
