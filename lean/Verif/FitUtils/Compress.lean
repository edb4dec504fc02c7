import Verif.FitUtils.Lemmas
set_option linter.unusedSectionVars false
set_option linter.unusedSimpArgs false
set_option linter.unusedVariables false
open scoped BigOperators

namespace Verif.FitUtils

open Spec

/-- What `extractNonZeroBins` appends to `nonZeroBins` from bin `i` on. -/
noncomputable def nzPure (isEnd : Nat → Bool) : Nat → List ℝ → List Int
  | _, [] => []
  | i, d :: ds =>
    (if (1e-15 : ℝ) < d then [(i : Int)] else []) ++
    (if isEnd i then [-((i : Int) + 1)] else []) ++ nzPure isEnd (i + 1) ds

/-- What it appends to `dataRed`. -/
noncomputable def drPure (isEnd : Nat → Bool) : Nat → List ℝ → List ℝ
  | _, [] => []
  | i, d :: ds =>
    (if (1e-15 : ℝ) < d then [d] else []) ++
    (if isEnd i then [0] else []) ++ drPure isEnd (i + 1) ds

/-- The stop indices, given the size of `dataRed` so far. -/
noncomputable def stopsPure (isEnd : Nat → Bool) : Nat → Nat → List ℝ → List Nat
  | _, _, [] => []
  | i, n, d :: ds =>
    let n' := n + (if (1e-15 : ℝ) < d then 1 else 0)
    if isEnd i then (n' + 1) :: stopsPure isEnd (i + 1) (n' + 1) ds
    else stopsPure isEnd (i + 1) n' ds

theorem extractLoop_eq (isEnd : Nat → Bool) (ds : List ℝ) : ∀ (i : Nat) (e : Extract),
    extractLoop isEnd i ds e = ⟨e.nonZero ++ nzPure isEnd i ds, e.dataRed ++ drPure isEnd i ds,
      e.stops ++ stopsPure isEnd i e.dataRed.length ds⟩ := by
  induction ds with
  | nil => intro i e; simp [extractLoop, nzPure, drPure, stopsPure]
  | cons d ds ih =>
    intro i e
    rw [extractLoop, ih]
    unfold extractBody
    by_cases hd : (1e-15 : ℝ) < d <;> by_cases he : isEnd i = true <;>
      simp [hd, he, nzPure, drPure, stopsPure]

/-- The reduced model computed in one pass, `acc` being the model counts of the
empty bins of the layer so far. -/
noncomputable def redM (isEnd : Nat → Bool) : Nat → ℝ → List ℝ → List ℝ → List ℝ
  | i, acc, d :: ds, m :: ms =>
    let acc' := if (1e-15 : ℝ) < d then acc else acc + m
    (if (1e-15 : ℝ) < d then [m] else []) ++
    (if isEnd i then acc' :: redM isEnd (i + 1) 0 ds ms else redM isEnd (i + 1) acc' ds ms)
  | _, _, _, _ => []

/-- Catch-up loop of `sparsifyModel`. -/
theorem catchup {model : List ℝ} {a b : Nat} {z : ℝ} (hab : a ≤ b) (hb : b ≤ model.length) :
    loop (fun k z => do
      let x ← vget model k
      Res.ok (z + x)) a (b - a) z = .ok (z + ∑ k ∈ Finset.Ico a b, val model k) := by
  have := loop_eq (lo := a) (n := b - a)
    (body := fun k z => do
      let x ← vget model k
      Res.ok (z + x))
    (fun i => z + ∑ k ∈ Finset.Ico a i, val model k)
    (by
      intro i hi hi'
      rw [vget_val (by omega), Res.bind_ok, Finset.sum_Ico_succ_top hi]
      congr 1; ring)
  simpa [show a + (b - a) = b by omega] using this

theorem sparsifyBody_pos {model : List ℝ} {s : SparsifyState} {i : Nat} (h : s.i ≤ i)
    (hi : i < model.length) :
    sparsifyBody model (i : Int) s = .ok ⟨i + 1, s.zero + ∑ k ∈ Finset.Ico s.i i, val model k,
      s.out ++ [val model i]⟩ := by
  unfold sparsifyBody
  simp only [Int.natAbs_natCast]
  rw [catchup h (by omega), Res.bind_ok, if_neg (by omega), show max s.i i = i by omega,
    vget_val hi, Res.bind_ok]

theorem sparsifyBody_neg {model : List ℝ} {s : SparsifyState} {i : Nat} (h : s.i ≤ i + 1)
    (hi : i < model.length) :
    sparsifyBody model (-((i : Int) + 1)) s = .ok ⟨i + 1, 0,
      s.out ++ [s.zero + ∑ k ∈ Finset.Ico s.i (i + 1), val model k]⟩ := by
  unfold sparsifyBody
  have hn : (-((i : Int) + 1)).natAbs = i + 1 := by omega
  simp only [hn]
  rw [catchup h (by omega), Res.bind_ok, if_pos (by omega), show max s.i (i + 1) = i + 1 by omega]

/-- `sparsifyModel` along the bins of `extractNonZeroBins` is the one-pass sum. -/
theorem sparsifyLoop_eq (isEnd : Nat → Bool) (model : List ℝ) : ∀ (ds ms : List ℝ) (i : Nat)
    (s : SparsifyState) (acc : ℝ) (hms : model.drop i = ms) (hl : ds.length = ms.length)
    (hs : s.i ≤ i) (hacc : acc = s.zero + ∑ k ∈ Finset.Ico s.i i, val model k),
    ∃ s', sparsifyLoop model (nzPure isEnd i ds) s = .ok s' ∧
      s'.out = s.out ++ redM isEnd i acc ds ms := by
  intro ds
  induction ds with
  | nil => intro ms i s acc hms hl hs hacc; exact ⟨s, by simp [nzPure, sparsifyLoop], by simp [redM]⟩
  | cons d ds ih =>
    intro ms i s acc hms hl hs hacc
    cases ms with
    | nil => simp at hl
    | cons m ms =>
      have hi : i < model.length := by
        by_contra hc
        rw [List.drop_eq_nil_of_le (by omega)] at hms
        simp at hms
      have hm : val model i = m := by
        rw [List.drop_eq_getElem_cons hi] at hms
        rw [val_lt hi]; exact (List.cons.inj hms).1
      have hms' : model.drop (i + 1) = ms := by
        rw [List.drop_eq_getElem_cons hi] at hms
        exact (List.cons.inj hms).2
      have hl' : ds.length = ms.length := by simpa using hl
      by_cases hd : (1e-15 : ℝ) < d <;> by_cases he : isEnd i = true
      · simp only [nzPure, if_pos hd, if_pos he, List.cons_append, List.nil_append, sparsifyLoop,
          redM]
        rw [sparsifyBody_pos hs hi, Res.bind_ok, sparsifyBody_neg (by simp) hi, Res.bind_ok]
        obtain ⟨s', h1, h2⟩ := ih ms (i + 1) ⟨i + 1, 0, _⟩ 0 hms' hl' (by simp) (by simp)
        refine ⟨s', h1, ?_⟩
        rw [h2, hm, hacc]; simp
      · simp only [nzPure, if_pos hd, if_neg he, List.cons_append, List.nil_append, sparsifyLoop,
          redM]
        rw [sparsifyBody_pos hs hi, Res.bind_ok]
        obtain ⟨s', h1, h2⟩ := ih ms (i + 1) ⟨i + 1, s.zero + ∑ k ∈ Finset.Ico s.i i, val model k, _⟩
          acc hms' hl' (by simp) (by simp [hacc])
        refine ⟨s', h1, ?_⟩
        rw [h2, hm]; simp
      · simp only [nzPure, if_neg hd, if_pos he, List.cons_append, List.nil_append, sparsifyLoop,
          redM]
        rw [sparsifyBody_neg (by omega) hi, Res.bind_ok]
        obtain ⟨s', h1, h2⟩ := ih ms (i + 1) ⟨i + 1, 0, _⟩ 0 hms' hl' (by simp) (by simp)
        refine ⟨s', h1, ?_⟩
        rw [h2, hacc, Finset.sum_Ico_succ_top hs, hm]
        simp [add_assoc]
      · simp only [nzPure, if_neg hd, if_neg he, List.cons_append, List.nil_append, redM]
        obtain ⟨s', h1, h2⟩ := ih ms (i + 1) s (acc + m) hms' hl' (by omega)
          (by rw [hacc, Finset.sum_Ico_succ_top hs, hm]; ring)
        exact ⟨s', by simpa using h1, by simpa using h2⟩

theorem sparsifyModel_eq (isEnd : Nat → Bool) {ds ms : List ℝ} (hl : ds.length = ms.length) :
    sparsifyModel (nzPure isEnd 0 ds) ms = .ok (redM isEnd 0 0 ds ms) := by
  obtain ⟨s', h1, h2⟩ := sparsifyLoop_eq isEnd ms ds ms 0 ⟨0, 0, []⟩ 0 (by simp) hl (by simp)
    (by simp)
  simp [sparsifyModel, h1, h2]

theorem redM_length (isEnd : Nat → Bool) : ∀ (ds ms : List ℝ) (i : Nat) (acc : ℝ)
    (hl : ds.length = ms.length),
    (redM isEnd i acc ds ms).length = (drPure isEnd i ds).length
  | [], [], _, _, _ => by simp [redM, drPure]
  | d :: ds, m :: ms, i, acc, hl => by
    have h1 := fun acc => redM_length isEnd ds ms (i + 1) acc (by simpa using hl)
    by_cases hd : (1e-15 : ℝ) < d <;> by_cases he : isEnd i = true <;>
      simp [redM, drPure, hd, he, h1]

theorem llLoop_cons {d m N L : ℝ} {ds ms : List ℝ} (h : 0 ≤ m) :
    llLoop (d :: ds) (m :: ms) N L = if (1e-9 : ℝ) < d then
      if m ≤ 0 then .throws else llLoop ds ms (N + m) (L + d * Real.log m)
      else llLoop ds ms (N + m) L := by
  rw [llLoop, if_neg (by linarith)]

theorem llLoop_small {d m N L : ℝ} {ds ms : List ℝ} (h : 0 ≤ m) (hd : ¬ (1e-9 : ℝ) < d) :
    llLoop (d :: ds) (m :: ms) N L = llLoop ds ms (N + m) L := by
  rw [llLoop_cons h, if_neg hd]

theorem llLoopW_cons {d m w N L : ℝ} {ds ms ws : List ℝ} (h : 0 ≤ m) :
    llLoopW (d :: ds) (m :: ms) (w :: ws) N L = if (1e-9 : ℝ) < d * w then
      if m ≤ 0 then .throws else llLoopW ds ms ws (N + m * w) (L + d * w * Real.log m)
      else llLoopW ds ms ws (N + m * w) L := by
  rw [llLoopW, if_neg (by linarith)]

theorem llLoopW_small {d m w N L : ℝ} {ds ms ws : List ℝ} (h : 0 ≤ m)
    (hd : ¬ (1e-9 : ℝ) < d * w) :
    llLoopW (d :: ds) (m :: ms) (w :: ws) N L = llLoopW ds ms ws (N + m * w) L := by
  rw [llLoopW_cons h, if_neg hd]

/-- The compressed likelihood loop is the full loop. -/
theorem llLoop_red (isEnd : Nat → Bool) : ∀ (ds ms : List ℝ) (i : Nat) (acc N L : ℝ)
    (hl : ds.length = ms.length) (hm : ∀ m ∈ ms, 0 ≤ m) (ha : 0 ≤ acc)
    (h0 : ds = [] → acc = 0) (hend : ds ≠ [] → isEnd (i + ds.length - 1) = true),
    llLoop (drPure isEnd i ds) (redM isEnd i acc ds ms) N L = llLoop ds ms (N + acc) L
  | [], [], i, acc, N, L, _, _, _, h0, _ => by simp [drPure, redM, llLoop, h0 rfl]
  | d :: ds, m :: ms, i, acc, N, L, hl, hm, ha, _, hend => by
    have hm0 : 0 ≤ m := hm m (by simp)
    have hl' : ds.length = ms.length := by simpa using hl
    have hend' : ds ≠ [] → isEnd (i + 1 + ds.length - 1) = true := by
      intro _
      have := hend (by simp)
      rwa [show i + 1 + ds.length - 1 = i + (d :: ds).length - 1 by rw [List.length_cons]; omega]
    have hrec := fun acc N L (ha : 0 ≤ acc) (h0 : ds = [] → acc = 0) =>
      llLoop_red isEnd ds ms (i + 1) acc N L hl' (fun x hx => hm x (by simp [hx])) ha h0 hend'
    have hnil : ds = [] → isEnd i = true := by
      intro h; have := hend (by simp); simpa [h] using this
    have hz9 : ¬ (1e-9 : ℝ) < 0 := by norm_num
    by_cases hd : (1e-15 : ℝ) < d <;> by_cases he : isEnd i = true
    · simp only [drPure, redM, if_pos hd, if_pos he, List.cons_append, List.nil_append]
      rw [llLoop_cons hm0, llLoop_cons hm0]
      simp only [llLoop_small ha hz9, hrec _ _ _ le_rfl (fun _ => rfl)]
      simp only [add_zero, add_right_comm]
    · simp only [drPure, redM, if_pos hd, if_neg he, List.cons_append, List.nil_append]
      have hne : ds = [] → acc = 0 := fun h => absurd (hnil h) he
      rw [llLoop_cons hm0, llLoop_cons hm0]
      simp only [hrec _ _ _ ha hne]
      simp only [add_zero, add_right_comm]
    · have hd9 : ¬ (1e-9 : ℝ) < d := by
        intro h; apply hd; norm_num at h ⊢; linarith
      simp only [drPure, redM, if_neg hd, if_pos he, List.cons_append, List.nil_append]
      rw [llLoop_small (by linarith) hz9, llLoop_small hm0 hd9, hrec _ _ _ le_rfl (fun _ => rfl)]
      congr 1; ring
    · have hd9 : ¬ (1e-9 : ℝ) < d := by
        intro h; apply hd; norm_num at h ⊢; linarith
      simp only [drPure, redM, if_neg hd, if_neg he, List.nil_append, Bool.false_eq_true, if_false]
      have hne : ds = [] → acc + m = 0 := fun h => absurd (hnil h) he
      rw [hrec _ _ _ (by linarith) hne, llLoop_small hm0 hd9]
      congr 1; ring

/-! ### weights -/

/-- The reduced weights in one pass. -/
noncomputable def redW (isEnd : Nat → Bool) : Nat → ℝ → ℝ → List ℝ → List ℝ → List ℝ → List ℝ
  | i, zw, zm, d :: ds, w :: ws, m :: ms =>
    let zw' := if (1e-15 : ℝ) < d then zw else zw + w * m
    let zm' := if (1e-15 : ℝ) < d then zm else zm + m
    (if (1e-15 : ℝ) < d then [w] else []) ++
    (if isEnd i then (if 0 < zm' then zw' / zm' else 1) :: redW isEnd (i + 1) 0 0 ds ws ms
      else redW isEnd (i + 1) zw' zm' ds ws ms)
  | _, _, _, _, _, _ => []

theorem catchupW {weights model : List ℝ} {a b : Nat} {z : ℝ × ℝ} (hab : a ≤ b)
    (hb : b ≤ model.length) (hw : b ≤ weights.length) :
    loop (fun k (z : ℝ × ℝ) => do
      let w ← vget weights k
      let x ← vget model k
      Res.ok (z.1 + w * x, z.2 + x)) a (b - a) z =
    .ok (z.1 + ∑ k ∈ Finset.Ico a b, val weights k * val model k,
      z.2 + ∑ k ∈ Finset.Ico a b, val model k) := by
  have := loop_eq (lo := a) (n := b - a)
    (body := fun k (z : ℝ × ℝ) => do
      let w ← vget weights k
      let x ← vget model k
      Res.ok (z.1 + w * x, z.2 + x))
    (fun i => (z.1 + ∑ k ∈ Finset.Ico a i, val weights k * val model k,
      z.2 + ∑ k ∈ Finset.Ico a i, val model k))
    (by
      intro i hi hi'
      rw [vget_val (l := weights) (by omega), Res.bind_ok, vget_val (by omega), Res.bind_ok,
        Finset.sum_Ico_succ_top hi, Finset.sum_Ico_succ_top hi]
      congr 2 <;> ring)
  simpa [show a + (b - a) = b by omega] using this

theorem sparsifyWLoop_eq (isEnd : Nat → Bool) (weights model : List ℝ) :
    ∀ (ds ws ms : List ℝ) (i : Nat) (s : SparsifyWState) (zw zm : ℝ)
      (hws : weights.drop i = ws) (hms : model.drop i = ms)
      (hl : ds.length = ms.length) (hlw : ds.length = ws.length) (hs : s.i ≤ i)
      (hzw : zw = s.zw + ∑ k ∈ Finset.Ico s.i i, val weights k * val model k)
      (hzm : zm = s.zm + ∑ k ∈ Finset.Ico s.i i, val model k),
    ∃ s', sparsifyWLoop weights model (nzPure isEnd i ds) s = .ok s' ∧
      s'.out = s.out ++ redW isEnd i zw zm ds ws ms := by
  intro ds
  induction ds with
  | nil =>
    intro ws ms i s zw zm hws hms hl hlw hs hzw hzm
    exact ⟨s, by simp [nzPure, sparsifyWLoop], by simp [redW]⟩
  | cons d ds ih =>
    intro ws ms i s zw zm hws hms hl hlw hs hzw hzm
    match ws, ms, hl, hlw with
    | w :: ws, m :: ms, hl, hlw =>
      have hi : i < model.length := by
        by_contra hc
        rw [List.drop_eq_nil_of_le (by omega)] at hms
        simp at hms
      have hiw : i < weights.length := by
        by_contra hc
        rw [List.drop_eq_nil_of_le (by omega)] at hws
        simp at hws
      have hm : val model i = m := by
        rw [List.drop_eq_getElem_cons hi] at hms
        rw [val_lt hi]; exact (List.cons.inj hms).1
      have hw : val weights i = w := by
        rw [List.drop_eq_getElem_cons hiw] at hws
        rw [val_lt hiw]; exact (List.cons.inj hws).1
      have hms' : model.drop (i + 1) = ms := by
        rw [List.drop_eq_getElem_cons hi] at hms
        exact (List.cons.inj hms).2
      have hws' : weights.drop (i + 1) = ws := by
        rw [List.drop_eq_getElem_cons hiw] at hws
        exact (List.cons.inj hws).2
      have hl' : ds.length = ms.length := by simpa using hl
      have hlw' : ds.length = ws.length := by simpa using hlw
      have hpos : ∀ s : SparsifyWState, s.i ≤ i → sparsifyWBody weights model (i : Int) s =
          .ok ⟨i + 1, s.zw + ∑ k ∈ Finset.Ico s.i i, val weights k * val model k,
            s.zm + ∑ k ∈ Finset.Ico s.i i, val model k, s.out ++ [w]⟩ := by
        intro s hs
        unfold sparsifyWBody
        simp only [Int.natAbs_natCast]
        rw [catchupW hs (by omega) (by omega), Res.bind_ok, if_neg (by omega),
          show max s.i i = i by omega, vget_val hiw, Res.bind_ok, hw]
      have hneg : ∀ s : SparsifyWState, s.i ≤ i + 1 →
          sparsifyWBody weights model (-((i : Int) + 1)) s =
          .ok ⟨i + 1, 0, 0, s.out ++
            [if 0 < s.zm + ∑ k ∈ Finset.Ico s.i (i + 1), val model k then
              (s.zw + ∑ k ∈ Finset.Ico s.i (i + 1), val weights k * val model k) /
              (s.zm + ∑ k ∈ Finset.Ico s.i (i + 1), val model k) else 1]⟩ := by
        intro s hs
        unfold sparsifyWBody
        have hn : (-((i : Int) + 1)).natAbs = i + 1 := by omega
        simp only [hn]
        rw [catchupW hs (by omega) (by omega), Res.bind_ok, if_pos (by omega),
          show max s.i (i + 1) = i + 1 by omega]
      by_cases hd : (1e-15 : ℝ) < d <;> by_cases he : isEnd i = true
      · simp only [nzPure, if_pos hd, if_pos he, List.cons_append, List.nil_append, sparsifyWLoop,
          redW]
        rw [hpos s hs, Res.bind_ok, hneg _ (by simp), Res.bind_ok]
        obtain ⟨s', h1, h2⟩ := ih ws ms (i + 1) ⟨i + 1, 0, 0, _⟩ 0 0 hws' hms' hl' hlw' (by simp)
          (by simp) (by simp)
        refine ⟨s', h1, ?_⟩
        rw [h2, hzw, hzm]; simp
      · simp only [nzPure, if_pos hd, if_neg he, List.cons_append, List.nil_append, sparsifyWLoop,
          redW]
        rw [hpos s hs, Res.bind_ok]
        obtain ⟨s', h1, h2⟩ := ih ws ms (i + 1) ⟨i + 1, s.zw + ∑ k ∈ Finset.Ico s.i i,
          val weights k * val model k, s.zm + ∑ k ∈ Finset.Ico s.i i, val model k, _⟩
          zw zm hws' hms' hl' hlw' (by simp) (by simp [hzw]) (by simp [hzm])
        refine ⟨s', h1, ?_⟩
        rw [h2]; simp
      · simp only [nzPure, if_neg hd, if_pos he, List.cons_append, List.nil_append, sparsifyWLoop,
          redW]
        rw [hneg s (by omega), Res.bind_ok]
        obtain ⟨s', h1, h2⟩ := ih ws ms (i + 1) ⟨i + 1, 0, 0, _⟩ 0 0 hws' hms' hl' hlw' (by simp)
          (by simp) (by simp)
        refine ⟨s', h1, ?_⟩
        rw [h2, hzw, hzm, Finset.sum_Ico_succ_top hs, Finset.sum_Ico_succ_top hs, hm, hw]
        simp [add_assoc]
      · simp only [nzPure, if_neg hd, if_neg he, List.cons_append, List.nil_append, redW]
        obtain ⟨s', h1, h2⟩ := ih ws ms (i + 1) s (zw + w * m) (zm + m) hws' hms' hl' hlw' (by omega)
          (by rw [hzw, Finset.sum_Ico_succ_top hs, hm, hw]; ring)
          (by rw [hzm, Finset.sum_Ico_succ_top hs, hm]; ring)
        exact ⟨s', by simpa using h1, by simpa using h2⟩

theorem sparsifyWeights_eq (isEnd : Nat → Bool) {ds ws ms : List ℝ} (hl : ds.length = ms.length)
    (hlw : ds.length = ws.length) :
    sparsifyWeights (nzPure isEnd 0 ds) ws ms = .ok (redW isEnd 0 0 0 ds ws ms) := by
  obtain ⟨s', h1, h2⟩ := sparsifyWLoop_eq isEnd ws ms ds ws ms 0 ⟨0, 0, 0, []⟩ 0 0 (by simp)
    (by simp) hl hlw (by simp) (by simp) (by simp)
  simp [sparsifyWeights, h1, h2]

theorem redW_length (isEnd : Nat → Bool) : ∀ (ds ws ms : List ℝ) (i : Nat) (zw zm : ℝ)
    (hl : ds.length = ms.length) (hlw : ds.length = ws.length),
    (redW isEnd i zw zm ds ws ms).length = (drPure isEnd i ds).length
  | [], [], [], _, _, _, _, _ => by simp [redW, drPure]
  | d :: ds, w :: ws, m :: ms, i, zw, zm, hl, hlw => by
    have h1 := fun zw zm => redW_length isEnd ds ws ms (i + 1) zw zm (by simpa using hl)
      (by simpa using hlw)
    by_cases hd : (1e-15 : ℝ) < d <;> by_cases he : isEnd i = true <;>
      simp [redW, drPure, hd, he, h1]

/-- The compressed weighted likelihood, when on the empty bins of every layer the
model `ms` is `c` times the reference model `m0`. -/
theorem llLoopW_red (isEnd : Nat → Bool) (c : Nat → ℝ) :
    ∀ (ds ws m0 ms : List ℝ) (i : Nat) (acc zw zm fullAcc N L : ℝ)
    (hl : ds.length = ms.length) (hlw : ds.length = ws.length) (hl0 : ds.length = m0.length)
    (hm : ∀ m ∈ ms, 0 ≤ m) (hm0 : ∀ m ∈ m0, 0 ≤ m) (hw : ∀ w ∈ ws, 0 ≤ w ∧ w ≤ 1e6)
    (hc : ∀ k, k < ds.length → isEnd (i + k) = false → c (i + k + 1) = c (i + k))
    (hprop : ∀ k, k < ds.length → ¬ (1e-15 : ℝ) < val ds k → val ms k = c (i + k) * val m0 k)
    (hacc : acc = c i * zm) (hfull : fullAcc = c i * zw) (hzm : 0 ≤ zm) (hzw : zm = 0 → zw = 0)
    (h0 : ds = [] → zm = 0) (ha : 0 ≤ acc)
    (hend : ds ≠ [] → isEnd (i + ds.length - 1) = true),
    llLoopW (drPure isEnd i ds) (redM isEnd i acc ds ms) (redW isEnd i zw zm ds ws m0) N L =
      llLoopW ds ms ws (N + fullAcc) L
  | [], [], [], [], i, acc, zw, zm, fa, N, L, _, _, _, _, _, _, _, _, _, hfull, _, hzw, h0, _, _ => by
    simp [drPure, redM, redW, llLoopW, hfull, hzw (h0 rfl)]
  | d :: ds, w :: ws, r :: m0, m :: ms, i, acc, zw, zm, fa, N, L, hl, hlw, hl0, hm, hm0, hw, hc,
      hprop, hacc, hfull, hzm, hzw, h0, ha, hend => by
    have hmm : 0 ≤ m := hm m (by simp)
    have hrr : 0 ≤ r := hm0 r (by simp)
    have hww := hw w (by simp)
    have hl' : ds.length = ms.length := by simpa using hl
    have hlw' : ds.length = ws.length := by simpa using hlw
    have hl0' : ds.length = m0.length := by simpa using hl0
    have hend' : ds ≠ [] → isEnd (i + 1 + ds.length - 1) = true := by
      intro _
      have := hend (by simp)
      rwa [show i + 1 + ds.length - 1 = i + (d :: ds).length - 1 by rw [List.length_cons]; omega]
    have hrec := fun acc zw zm fa N L hacc hfull hzm hzw h0 ha =>
      llLoopW_red isEnd c ds ws m0 ms (i + 1) acc zw zm fa N L hl' hlw' hl0'
        (fun x hx => hm x (by simp [hx])) (fun x hx => hm0 x (by simp [hx]))
        (fun x hx => hw x (by simp [hx]))
        (fun k hk hf => by
          have := hc (k + 1) (by simpa using hk) (by rwa [show i + (k + 1) = i + 1 + k by omega])
          rwa [show i + (k + 1) = i + 1 + k by omega] at this)
        (fun k hk hf => by
          have := hprop (k + 1) (by simpa using hk) (by simpa using hf)
          rwa [show i + (k + 1) = i + 1 + k by omega, val_cons_succ, val_cons_succ] at this)
        hacc hfull hzm hzw h0 ha hend'
    have hnil : ds = [] → isEnd i = true := by
      intro h; have := hend (by simp); simpa [h] using this
    have hdw : ¬ (1e-15 : ℝ) < d → ¬ (1e-9 : ℝ) < d * w := by
      intro hd h
      have h1 : d * w ≤ 1e-15 * w := mul_le_mul_of_nonneg_right (not_lt.1 hd) hww.1
      have h2 : (1e-15 : ℝ) * w ≤ 1e-15 * 1e6 := mul_le_mul_of_nonneg_left hww.2 (by norm_num)
      norm_num at h1 h2 h
      linarith
    have hcst : isEnd i = false → c (i + 1) = c i := by
      intro h
      simpa using hc 0 (by simp) (by simpa using h)
    -- the placeholder bin
    have hplace : ∀ (A W M F : ℝ), A = c i * M → F = c i * W → 0 ≤ M → (M = 0 → W = 0) →
        A * (if 0 < M then W / M else 1) = F := by
      intro A W M F h1 h2 h3 h4
      rcases h3.lt_or_eq with h | h
      · rw [if_pos h, h1, h2]; field_simp
      · rw [if_neg (by linarith), h1, h2, ← h, h4 h.symm]; ring
    have hnext : ∀ (A M W F : ℝ), A = c i * M → F = c i * W → isEnd i = false →
        A = c (i + 1) * M ∧ F = c (i + 1) * W := by
      intro A M W F h1 h2 h3
      rw [hcst h3]; exact ⟨h1, h2⟩
    have hz9 : ∀ w : ℝ, ¬ (1e-9 : ℝ) < 0 * w := by intro w; norm_num
    by_cases hd : (1e-15 : ℝ) < d <;> by_cases he : isEnd i = true
    · simp only [drPure, redM, redW, if_pos hd, if_pos he, List.cons_append, List.nil_append]
      have hz := hplace acc zw zm fa hacc hfull hzm hzw
      rw [llLoopW_cons hmm, llLoopW_cons hmm]
      simp only [llLoopW_small ha (hz9 _), hz,
        hrec 0 0 0 0 _ _ (by simp) (by simp) le_rfl (fun _ => rfl) (fun _ => rfl) le_rfl]
      simp only [add_zero, add_right_comm]
    · have hef : isEnd i = false := by simpa using he
      simp only [drPure, redM, redW, if_pos hd, if_neg he, List.cons_append, List.nil_append]
      have hne : ds = [] → zm = 0 := fun h => absurd (hnil h) he
      obtain ⟨hA, hF⟩ := hnext acc zm zw fa hacc hfull hef
      rw [llLoopW_cons hmm, llLoopW_cons hmm]
      simp only [hrec acc zw zm fa _ _ hA hF hzm hzw hne ha]
      simp only [add_zero, add_right_comm]
    · have hd9 := hdw hd
      simp only [drPure, redM, redW, if_neg hd, if_pos he, List.cons_append, List.nil_append]
      have hm' : m = c i * r := by simpa using hprop 0 (by simp) (by simpa using hd)
      have hz := hplace (acc + m) (zw + w * r) (zm + r) (fa + m * w)
        (by rw [hacc, hm']; ring) (by rw [hfull, hm']; ring) (by linarith)
        (by
          intro h
          have h1 : zm = 0 := by linarith
          have h2 : r = 0 := by linarith
          rw [hzw h1, h2]; ring)
      rw [llLoopW_small (by linarith) (hz9 _), hz,
        hrec 0 0 0 0 _ _ (by simp) (by simp) le_rfl (fun _ => rfl) (fun _ => rfl) le_rfl,
        llLoopW_small hmm hd9]
      congr 1; ring
    · have hd9 := hdw hd
      have hef : isEnd i = false := by simpa using he
      simp only [drPure, redM, redW, if_neg hd, if_neg he, List.nil_append]
      have hm' : m = c i * r := by simpa using hprop 0 (by simp) (by simpa using hd)
      have hne : ds = [] → zm + r = 0 := fun h => absurd (hnil h) he
      obtain ⟨hA, hF⟩ := hnext (acc + m) (zm + r) (zw + w * r) (fa + m * w)
        (by rw [hacc, hm']; ring) (by rw [hfull, hm']; ring) hef
      rw [hrec (acc + m) (zw + w * r) (zm + r) (fa + m * w) _ _ hA hF (by linarith)
        (by
          intro h
          have h1 : zm = 0 := by linarith
          have h2 : r = 0 := by linarith
          rw [hzw h1, h2]; ring) hne (by linarith), llLoopW_small hmm hd9]
      congr 1; ring

/-! ### linearity -/

theorem redM_linear (isEnd : Nat → Bool) (n : ℝ) : ∀ (ds as bs : List ℝ) (i : Nat) (x y : ℝ)
    (ha : ds.length = as.length) (hb : ds.length = bs.length),
    redM isEnd i (x + n * y) ds (List.zipWith (fun a b => a + n * b) as bs) =
      List.zipWith (fun a b => a + n * b) (redM isEnd i x ds as) (redM isEnd i y ds bs)
  | [], [], [], _, _, _, _, _ => by simp [redM]
  | d :: ds, a :: as, b :: bs, i, x, y, ha, hb => by
    have h1 := fun x y => redM_linear isEnd n ds as bs (i + 1) x y (by simpa using ha)
      (by simpa using hb)
    have h2 : x + n * y + (a + n * b) = (x + a) + n * (y + b) := by ring
    have h3 := h1 0 0
    simp only [mul_zero, add_zero] at h3
    by_cases hd : (1e-15 : ℝ) < d <;> by_cases he : isEnd i = true <;>
      simp [redM, hd, he, h1, h2, h3]

theorem zipWith_add_comm_length {n : ℝ} {a b : List ℝ} (h : a.length = b.length) :
    (List.zipWith (fun a b => a + n * b) a b).length = a.length := by simp [h]

/-- Whole-range `addTemplate` is element-wise. -/
theorem addTemplate_zip {n : ℝ} {t total : List ℝ} (h : t.length = total.length) :
    addTemplate 0 total.length n t total =
      .ok (List.zipWith (fun a b => a + n * b) total t) := by
  obtain ⟨T, h1, h2, h3⟩ := addTemplate_ok (first := 0) (stop := total.length) (n := n) (t := t)
    (total := total) (by omega) (by omega) (by omega)
  rw [h1]; congr 1
  apply ext_val (by simp [h2, h])
  intro k hk
  rw [h3, if_pos (by omega)]
  have hk' : k < total.length := by omega
  have hk'' : k < t.length := by omega
  simp [val, List.getElem?_zipWith, List.getElem?_eq_getElem hk', List.getElem?_eq_getElem hk'']

theorem addTemplates_red (isEnd : Nat → Bool) (ds : List ℝ) : ∀ (norms : List ℝ)
    (ts : List (List ℝ)) (total : List ℝ) (ht : SameLength ds.length ts)
    (hT : total.length = ds.length),
    ∃ T, addTemplates 0 total.length norms ts total = .ok T ∧ T.length = ds.length ∧
      addTemplates 0 (redM isEnd 0 0 ds total).length norms (ts.map (redM isEnd 0 0 ds))
        (redM isEnd 0 0 ds total) = .ok (redM isEnd 0 0 ds T)
  | [], ts, total, _, hT => ⟨total, by simp [addTemplates], hT, by simp [addTemplates]⟩
  | _ :: _, [], total, _, hT => ⟨total, by simp [addTemplates], hT, by simp [addTemplates]⟩
  | n :: ns, t :: ts, total, ht, hT => by
    have htl : t.length = ds.length := ht t (by simp)
    have hz : (List.zipWith (fun a b => a + n * b) total t).length = total.length := by
      simp; omega
    obtain ⟨T, h1, h2, h3⟩ := addTemplates_red isEnd ds ns ts
      (List.zipWith (fun a b => a + n * b) total t) (fun t' h' => ht t' (by simp [h'])) (by omega)
    refine ⟨T, ?_, h2, ?_⟩
    · rw [addTemplates, addTemplate_zip (by omega), Res.bind_ok]
      rwa [hz] at h1
    · have hl1 : (redM isEnd 0 0 ds t).length = (redM isEnd 0 0 ds total).length := by
        rw [redM_length _ _ _ _ _ (by omega), redM_length _ _ _ _ _ (by omega)]
      have hl2 := redM_length isEnd ds (List.zipWith (fun a b => a + n * b) total t) 0 0 (by omega)
      have hl3 := redM_length isEnd ds total 0 0 (by omega)
      have hlin := redM_linear isEnd n ds total t 0 0 0 (by omega) (by omega)
      simp only [mul_zero, add_zero] at hlin
      rw [List.map_cons, addTemplates, addTemplate_zip hl1, Res.bind_ok, ← hlin]
      rwa [hl2, ← hl3] at h3

theorem sumModel_full {norms : List ℝ} {ts : List (List ℝ)} {fixed total : List ℝ}
    (hf : fixed.length = total.length) (hn : ts.length = norms.length) :
    sumModel norms ts fixed total 0 0 = addTemplates 0 fixed.length norms ts fixed := by
  unfold sumModel
  rw [if_neg (by simp [hf]), if_neg (by simp [hn])]
  simp only [rangeStop, if_true]
  rw [if_neg (by omega)]
  obtain ⟨T0, h1, h2, h3⟩ := loop_inv (lo := 0) (n := total.length - 0) (s := total)
    (body := fun k t => do
        let x ← vget fixed k
        vset t k x)
    (fun i T => T.length = total.length ∧
      ∀ k, val T k = if k < i then val fixed k else val total k)
    ⟨rfl, fun k => by simp⟩
    (by
      rintro i T hi hi' ⟨hl, hv⟩
      refine ⟨T.set i (val fixed i), ?_, by simp [hl], ?_⟩
      · rw [vget_val (show i < fixed.length by omega), Res.bind_ok, vset_lt _ _ _ (by omega)]
      · intro k
        rw [val_set (by omega), hv k]
        by_cases hk : k = i
        · subst hk; rw [if_pos rfl, if_pos (by omega)]
        · rw [if_neg hk]
          by_cases h2 : k < i
          · rw [if_pos h2, if_pos (by omega)]
          · rw [if_neg h2, if_neg (by omega)])
  have : T0 = fixed := by
    apply ext_val (by omega)
    intro k hk
    rw [h3, if_pos (by omega)]
  rw [h1, Res.bind_ok, this, hf]

end Verif.FitUtils
