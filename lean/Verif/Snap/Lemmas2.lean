import Verif.Snap.Cache
import Verif.Snap.Spec2
import Verif.Snap.Props
import Verif.FitUtils.Props
import Mathlib.Data.List.Sort
/-
Lemmas on the templates of a scan cache.
-/
set_option linter.unusedSectionVars false
set_option linter.unusedSimpArgs false
set_option linter.unusedVariables false
set_option linter.unnecessarySeqFocus false
namespace Verif.Snap
open Spec FitUtils

variable {κ : Type} [LinearOrder κ]

theorem bin_val (v : List ℝ) (b : Nat) : bin v b = val v b := by
  simp [bin, val, List.getD_eq_getElem?_getD]

/-- The counts at normalisation `r`. -/
def atRef (shape : Shape κ) (p : κ × Src κ) (r : ℝ) : List ℝ :=
  (shape p.2.spec p.2.funcs p.2.norm.scale).map fun x => r * x

theorem sumCounts_cons (shape : Shape κ) (p : κ × Src κ) (l : List (κ × Src κ)) (b : Nat) :
    sumCounts shape (p :: l) b = bin (counts shape p.2) b + sumCounts shape l b := by
  simp [sumCounts]

/-! ### Lists of sources -/

theorem ext_mem {m m' : List (κ × Src κ)} (h : StdMap.Sorted m) (h' : StdMap.Sorted m')
    (he : ∀ p, p ∈ m ↔ p ∈ m') : m = m' := by
  apply StdMap.ext h h'
  intro k
  cases h1 : StdMap.find m k with
  | some a => exact (StdMap.find_of_mem h' ((he _).1 (StdMap.find_some_mem h1))).symm
  | none =>
    cases h2 : StdMap.find m' k with
    | none => rfl
    | some a =>
      rw [StdMap.find_of_mem h ((he _).2 (StdMap.find_some_mem h2))] at h1; cases h1

theorem sorted_filter {m : List (κ × Src κ)} (h : StdMap.Sorted m) (p : κ × Src κ → Bool) :
    StdMap.Sorted (m.filter p) :=
  List.Pairwise.sublist (List.filter_sublist.map _) h

theorem names_eq {m : List (κ × Src κ)} (h : StdMap.Sorted m) {names : List κ}
    (hs : names.Pairwise (· < ·)) (hm : ∀ n ∈ names, n ∈ m.map Prod.fst) :
    names = (m.filter (·.1 ∈ names)).map Prod.fst := by
  refine List.Pairwise.eq_of_mem_iff hs (sorted_filter h _) fun n => ?_
  simp only [List.mem_map, List.mem_filter, decide_eq_true_eq]
  constructor
  · intro hn
    obtain ⟨p, hp, rfl⟩ := List.mem_map.1 (hm n hn)
    exact ⟨p, ⟨hp, hn⟩, rfl⟩
  · rintro ⟨p, ⟨_, hn⟩, rfl⟩; exact hn

/-! ### Extraction -/

theorem val_add {v w : List ℝ} (h : v.length = w.length) (f : ℝ) (b : Nat) :
    bin (List.zipWith (fun x y => 1 * x + f * y) v w) b = bin v b + f * bin w b := by
  simp only [bin_val]; exact val_axpy h b

theorem vectorAdd_ok {v w : List ℝ} (h : v.length = w.length) (f g : ℝ) :
    vectorAdd v w v f g = .ok (List.zipWith (fun x y => f * x + g * y) v w) := by
  rw [vectorAdd, if_neg (by simp [h])]

/-- What the fold over the fixed sources computes. -/
theorem extractFixed_ok {cnt : Src κ → List ℝ} {nbins : Nat} (hl : ∀ s, (cnt s).length = nbins)
    (test : κ) (latched : List κ) : ∀ (m : List (κ × Src κ)) (f : List ℝ), f.length = nbins →
    ∃ f', m.foldlM (fun f p =>
        if p.1 = test then .ok f
        else if p.1 ∈ latched then .ok f
        else if p.2.norm.free then .ok f
        else vectorAdd f (cnt p.2) f 1 1) f = Res.ok f' ∧ f'.length = nbins ∧
      ∀ b, bin f' b = bin f b + ((m.filter fun p => p.1 ≠ test ∧ p.1 ∉ latched ∧
        p.2.norm.free = false).map fun p => bin (cnt p.2) b).sum
  | [], f, h => ⟨f, rfl, h, by simp⟩
  | p :: m, f, h => by
    rw [List.foldlM_cons]
    have ih := extractFixed_ok hl test latched m
    by_cases h1 : p.1 = test
    · obtain ⟨f', e1, e2, e3⟩ := ih f h
      exact ⟨f', by simp only [if_pos h1, Res.bind_ok]; exact e1, e2, by
        intro b; rw [e3, List.filter_cons, if_neg (by simp [h1])]⟩
    by_cases h2 : p.1 ∈ latched
    · obtain ⟨f', e1, e2, e3⟩ := ih f h
      exact ⟨f', by simp only [if_neg h1, if_pos h2, Res.bind_ok]; exact e1, e2, by
        intro b; rw [e3, List.filter_cons, if_neg (by simp [h2])]⟩
    cases h3 : p.2.norm.free with
    | true =>
      obtain ⟨f', e1, e2, e3⟩ := ih f h
      exact ⟨f', by simp only [if_neg h1, if_neg h2, if_true, Res.bind_ok]; exact e1, e2, by
        intro b; rw [e3, List.filter_cons, if_neg (by simp [h3])]⟩
    | false =>
      obtain ⟨f', e1, e2, e3⟩ := ih (List.zipWith (fun x y => 1 * x + 1 * y) f (cnt p.2))
        (by simp [h, hl])
      refine ⟨f', ?_, e2, ?_⟩
      · simp only [if_neg h1, if_neg h2, Bool.false_eq_true, if_false]
        rw [vectorAdd_ok (by rw [h, hl])]
        exact e1
      · intro b
        rw [e3, val_add (by rw [h, hl]), List.filter_cons, if_pos (by simp [h1, h2, h3]),
          List.map_cons, List.sum_cons]
        ring

/-- The reference value of a source. -/
noncomputable def refOf (unit : Bool) (p : κ × Src κ) : ℝ :=
  if unit ∧ p.2.norm.value > 0 then 1 else p.2.norm.value

/-- The template of a source. -/
noncomputable def tmplOf (cnt : Src κ → List ℝ) (unit : Bool) (p : κ × Src κ) : List ℝ :=
  if unit ∧ p.2.norm.value > 0 then (cnt p.2).map (· * (1 / p.2.norm.value)) else cnt p.2

theorem extract_ok {cnt : Src κ → List ℝ} {nbins : Nat} (hl : ∀ s, (cnt s).length = nbins)
    (test : κ) (unit : Bool) : ∀ (m : List (κ × Src κ)) (e : Extract κ), e.fixed.length = nbins →
    e.target.length = nbins →
    ∃ e', m.foldlM (extractBody cnt test unit) e = Res.ok e' ∧
      e'.names = e.names ++ (freeSources test m).map Prod.fst ∧
      e'.models = e.models ++ (freeSources test m).map (tmplOf cnt unit) ∧
      e'.refs = e.refs ++ (freeSources test m).map (refOf unit) ∧
      e'.fixed.length = nbins ∧ e'.target.length = nbins ∧
      (∀ b, bin e'.fixed b = bin e.fixed b +
        ((fixedSources test m).map fun p => bin (cnt p.2) b).sum) ∧
      ∀ b, bin e'.target b = bin e.target b +
        ((m.filter fun p => p.1 = test).map fun p => 1 / p.2.norm.value * bin (cnt p.2) b).sum
  | [], e, h, h' => ⟨e, rfl, by simp [freeSources], by simp [freeSources], by simp [freeSources], h, h',
      by simp [fixedSources], by simp⟩
  | p :: m, e, h, h' => by
    rw [List.foldlM_cons]
    have ih := extract_ok hl test unit m
    by_cases h1 : p.1 = test
    · have ef : freeSources test (p :: m) = freeSources test m := by
        simp [freeSources, List.filter_cons, h1]
      have ex : fixedSources test (p :: m) = fixedSources test m := by
        simp [fixedSources, List.filter_cons, h1]
      rw [ef, ex]
      simp only [extractBody, if_pos h1]
      rw [vectorAdd_ok (by rw [h', hl])]
      simp only [Res.bind_ok]
      obtain ⟨e', a1, a2, a3, a4, a5, a6, a7, a8⟩ := ih { e with
        target := List.zipWith (fun x y => 1 * x + 1 / p.2.norm.value * y) e.target (cnt p.2) } h
        (by simp [h', hl])
      refine ⟨e', a1, a2, a3, a4, a5, a6, a7, ?_⟩
      intro b
      rw [a8, val_add (by rw [h', hl]), List.filter_cons, if_pos (by simp [h1]), List.map_cons,
        List.sum_cons]
      ring
    have et : ((p :: m).filter fun p => p.1 = test) = m.filter fun p => p.1 = test := by
      rw [List.filter_cons, if_neg (by simp [h1])]
    rw [et]
    cases h3 : p.2.norm.free with
    | true =>
      have ef : freeSources test (p :: m) = p :: freeSources test m := by
        simp [freeSources, List.filter_cons, h1, h3]
      have ex : fixedSources test (p :: m) = fixedSources test m := by
        simp [fixedSources, List.filter_cons, h1, h3]
      rw [ef, ex]
      have eb : extractBody cnt test unit e p = .ok { e with
          names := e.names ++ [p.1], models := e.models ++ [tmplOf cnt unit p],
          refs := e.refs ++ [refOf unit p] } := by
        simp only [extractBody, if_neg h1, h3, if_true, tmplOf, refOf]
        by_cases hc : unit = true ∧ p.2.norm.value > 0
        · simp only [if_pos hc]
        · simp only [if_neg hc]
      rw [eb]
      simp only [Res.bind_ok]
      obtain ⟨e', a1, a2, a3, a4, a5, a6, a7, a8⟩ := ih { e with
          names := e.names ++ [p.1], models := e.models ++ [tmplOf cnt unit p],
          refs := e.refs ++ [refOf unit p] } h h'
      exact ⟨e', a1, by rw [a2]; simp, by rw [a3]; simp, by rw [a4]; simp, a5, a6, a7, a8⟩
    | false =>
      have ef : freeSources test (p :: m) = freeSources test m := by
        simp [freeSources, List.filter_cons, h1, h3]
      have ex : fixedSources test (p :: m) = p :: fixedSources test m := by
        simp [fixedSources, List.filter_cons, h1, h3]
      rw [ef, ex]
      simp only [extractBody, if_neg h1, h3, Bool.false_eq_true, if_false]
      rw [vectorAdd_ok (by rw [h, hl])]
      simp only [Res.bind_ok]
      obtain ⟨e', a1, a2, a3, a4, a5, a6, a7, a8⟩ := ih
        { e with fixed := List.zipWith (fun x y => 1 * x + 1 * y) e.fixed (cnt p.2) }
        (by simp [h, hl]) h'
      refine ⟨e', a1, a2, a3, a4, a5, a6, ?_, a8⟩
      intro b
      rw [a7, val_add (by rw [h, hl]), List.map_cons, List.sum_cons]
      ring

/-! ### Refactoring -/

theorem curRefs_ok : ∀ (free : List Bool) (refs : List ℝ) (i : Nat), i + free.length ≤ refs.length →
    curRefs refs i free = .ok (freeOf (refs.drop i) free)
  | [], refs, i, h => by cases hd : refs.drop i <;> simp [curRefs, freeOf]
  | f :: fs, refs, i, h => by
    have hi : i < refs.length := by simp at h; omega
    have hdr : refs.drop i = refs[i] :: refs.drop (i + 1) := List.drop_eq_getElem_cons hi
    have ih := curRefs_ok fs refs (i + 1) (by simp at h; omega)
    cases f with
    | true => simp only [curRefs, if_true, vget_lt refs i hi, Res.bind_ok, ih, hdr, freeOf]
    | false => simp only [curRefs, Bool.false_eq_true, if_false, ih, hdr, freeOf]

/-- The reference values run out. -/
theorem curRefs_ub : ∀ (n : Nat) (refs : List ℝ) (i : Nat), i ≤ refs.length →
    refs.length < i + n → curRefs refs i (List.replicate n true) = .ub
  | 0, refs, i, h, h' => by omega
  | n + 1, refs, i, h, h' => by
    rw [List.replicate_succ]
    simp only [curRefs, if_true]
    by_cases hi : i < refs.length
    · rw [vget_lt refs i hi, Res.bind_ok, curRefs_ub n refs (i + 1) (by omega) (by omega)]; rfl
    · rw [vget_ge refs i (by omega)]; rfl

theorem freeOf_zipWith {α β γ : Type} (f : α → β → γ) : ∀ (a : List α) (b : List β) (g : α → Bool),
    a.length = b.length →
    freeOf (List.zipWith f a b) (a.map g) =
      List.zipWith f (a.filter g) (freeOf b (a.map g))
  | [], b, g, h => by simp [freeOf]
  | x :: a, y :: b, g, h => by
    have ih := freeOf_zipWith f a b g (by simpa using h)
    cases hx : g x <;> simp [freeOf, hx, List.filter_cons, ih]

theorem freeOf_length' {β α : Type} : ∀ (a : List α) (b : List β) (g : α → Bool),
    a.length = b.length → (freeOf b (a.map g)).length = (a.filter g).length
  | [], b, g, h => by cases b <;> simp [freeOf]
  | x :: a, y :: b, g, h => by
    have ih := freeOf_length' a b g (by simpa using h)
    cases hx : g x <;> simp [freeOf, hx, List.filter_cons, ih]

theorem bin_map (v : List ℝ) (f : ℝ) (b : Nat) : bin (v.map fun x => f * x) b = f * bin v b := by
  simp only [bin, List.getD_eq_getElem?_getD, List.getElem?_map]
  cases v[b]? <;> simp

theorem statusAndScales_ok (model : List (κ × Src κ)) : ∀ (srcs : List (κ × Src κ)) (refs : List ℝ)
    (i : Nat), (∀ p ∈ srcs, StdMap.find model p.1 = some p.2) → i + srcs.length = refs.length →
    statusAndScales model refs i (srcs.map Prod.fst) = .ok (srcs.map fun p => p.2.norm.free,
      List.zipWith (fun p r => p.2.norm.value / r) srcs (refs.drop i))
  | [], refs, i, _, _ => by simp [statusAndScales]
  | p :: srcs, refs, i, h, hl => by
    have hi : i < refs.length := by simp at hl; omega
    have hdr : refs.drop i = refs[i] :: refs.drop (i + 1) := List.drop_eq_getElem_cons hi
    have ih := statusAndScales_ok model srcs refs (i + 1)
      (fun q hq => h q (List.mem_cons_of_mem _ hq)) (by simp at hl; omega)
    simp only [List.map_cons, statusAndScales, h p (by simp), vget_lt refs i hi, Res.bind_ok, ih, hdr,
      List.zipWith_cons_cons]

/-- The fixed part after refactoring. -/
theorem refactor_fixed (shape : Shape κ) (nbins : Nat)
    (hl : ∀ a b c, (shape a b c).length = nbins) : ∀ (srcs : List (κ × Src κ)) (refs scales fixed : List ℝ)
    (i : Nat) (tout : List (List ℝ)) (sout : List ℝ), srcs.length = refs.length →
    (∀ r ∈ refs, r ≠ 0) → i + srcs.length ≤ scales.length →
    (scales.drop i).take srcs.length = List.zipWith (fun p r => p.2.norm.value / r) srcs refs →
    fixed.length = nbins →
    ∃ fixed', refactorLoop scales i (List.zipWith (atRef shape) srcs refs)
        (srcs.map fun p => p.2.norm.free) (tout, fixed, sout) =
        .ok (tout ++ freeOf (List.zipWith (atRef shape) srcs refs) (srcs.map fun p => p.2.norm.free),
          fixed', sout ++ freeOf (List.zipWith (fun p r => p.2.norm.value / r) srcs refs)
            (srcs.map fun p => p.2.norm.free)) ∧
      fixed'.length = nbins ∧
      ∀ b, bin fixed' b = bin fixed b +
        sumCounts shape (srcs.filter fun p => p.2.norm.free = false) b
  | [], refs, scales, fixed, i, tout, sout, h1, h2, h3, h4, h5 =>
    ⟨fixed, by simp [refactorLoop, freeOf], h5, by simp [sumCounts]⟩
  | p :: srcs, r :: refs, scales, fixed, i, tout, sout, h1, h2, h3, h4, h5 => by
    have hi : i < scales.length := by simp at h3; omega
    have hdr : scales.drop i = scales[i] :: scales.drop (i + 1) := List.drop_eq_getElem_cons hi
    rw [hdr] at h4
    simp only [List.length_cons, List.take_succ_cons, List.zipWith_cons_cons, List.cons.injEq] at h4
    obtain ⟨h4a, h4b⟩ := h4
    have hr : r ≠ 0 := h2 r (by simp)
    have ih := refactor_fixed shape nbins hl srcs refs scales
    simp only [List.zipWith_cons_cons, List.map_cons, refactorLoop, vget_lt scales i hi, Res.bind_ok,
      h4a]
    cases hf : p.2.norm.free with
    | true =>
      obtain ⟨fixed', a1, a2, a3⟩ := ih fixed (i + 1) (tout ++ [atRef shape p r])
        (sout ++ [p.2.norm.value / r]) (by simpa using h1) (fun x hx => h2 x (by simp [hx]))
        (by simp at h3; omega) h4b h5
      refine ⟨fixed', ?_, a2, ?_⟩
      · rw [if_pos rfl, a1]; simp [freeOf]
      · intro b; rw [a3, List.filter_cons, if_neg (by simp [hf])]
    | false =>
      have hlen : fixed.length = (atRef shape p r).length := by rw [h5]; simp [atRef, hl]
      obtain ⟨fixed', a1, a2, a3⟩ := ih
        (List.zipWith (fun x y => 1 * x + p.2.norm.value / r * y) fixed (atRef shape p r)) (i + 1) tout
        sout (by simpa using h1) (fun x hx => h2 x (by simp [hx]))
        (by simp at h3; omega) h4b (by simp [h5, ← hlen])
      refine ⟨fixed', ?_, a2, ?_⟩
      · simp only [Bool.false_eq_true, if_false]
        rw [vectorAdd_ok hlen, Res.bind_ok, a1]; simp [freeOf]
      · intro b
        rw [a3, val_add hlen, List.filter_cons, if_pos (by simp [hf]), sumCounts_cons, atRef, counts,
          bin_map, bin_map]
        field_simp
        ring

end Verif.Snap
