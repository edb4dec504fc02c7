import Verif.HpxConv.Lemmas
import Mathlib.Analysis.Real.Pi.Bounds
/-
C128: the convolution of maps of the whole sky with the point spread function.
-/
set_option linter.unusedSectionVars false
set_option linter.unusedSimpArgs false
set_option linter.unusedVariables false
namespace Verif.HpxConv
open Spec HpxMap HpxMap.Spec Vec
variable {δ : Type}

/-! ### The image of the point spread function -/

theorem dOrder_le {t : Tools} {a : Nat} (hm : 13 ≤ t.maxOrder) (ha : a < t.maxOrder) (r : Nat) : a + dOrder a r ≤ t.maxOrder := by
  unfold dOrder
  omega

theorem log_pow (a : Nat) : Nat.log 2 (2 ^ a) = a := Nat.log_pow (by norm_num) a

theorem sum_replicate_zero (n : Nat) : (List.replicate n (0 : ℝ)).sum = 0 := by simp

/-- The image of the point spread function at the pole: up to one factor, the pixels of each ring within the radius that
contains 99.5 per cent (at most 180 degrees), and of the first ring beyond, have the mean of the function over finer
pixels, the others are zero; the factor is such that the integral over the sky is the integral of the function within the
radius.  No pixel is negative. -/
theorem C128_psf (t : Tools) (psf : Psf) (a : Nat) (hm : 13 ≤ t.maxOrder) (ha : a < t.maxOrder) (vis rest : List Ring)
    (hr : t.rings (2 ^ a) = vis ++ rest) (hf : Filled (min (psf.radius 0.995) 180 * Real.pi / 180) 0 vis)
    (hc : Contiguous 0 vis) (hs : (vis.map (fun r => r.2.1)).sum ≤ pixels (2 ^ a))
    (hpos : 0 < (blocks t psf a 0 vis).sum) :
    ∃ hp c, fillPole t psf (2 ^ a) = .ok hp ∧
      hp = (blocks t psf a 0 vis ++ List.replicate (pixels (2 ^ a) - (vis.map (fun r : Spec.Ring => r.2.1)).sum) 0).map (fun v => v * c) ∧
      skyIntegral (2 ^ a) hp = psf.integral (min (psf.radius 0.995) 180) ∧
      (0 ≤ psf.integral (min (psf.radius 0.995) 180) → ∀ v ∈ hp, 0 ≤ v) := by
  set raw := blocks t psf a 0 vis ++ List.replicate (pixels (2 ^ a) - (vis.map (fun r : Spec.Ring => r.2.1)).sum) 0 with hraw
  have hfill := fillRings_eq t psf a (min (psf.radius 0.995) 180 * Real.pi / 180) (dOrder_le hm ha) vis rest 0 0 []
    (pixels (2 ^ a)) hf hc hs
  simp only [List.nil_append] at hfill
  have hlen : ∀ (k : Nat) (l : List Ring), (blocks t psf a k l).length = (l.map (fun r => r.2.1)).sum := by
    intro k l
    induction l generalizing k with
    | nil => rfl
    | cons r l ih => rw [blocks, List.length_append, List.length_replicate, ih, List.map_cons, List.sum_cons]
  have hl : raw.length = pixels (2 ^ a) := by
    rw [hraw, List.length_append, hlen, List.length_replicate]; omega
  have hsum : raw.sum = (blocks t psf a 0 vis).sum := by rw [hraw, List.sum_append, sum_replicate_zero, add_zero]
  have hN : (0 : ℝ) < (pixels (2 ^ a) : ℝ) := by unfold pixels; positivity
  have hav : 0 < average raw := by unfold average; rw [hl, hsum]; positivity
  have hpi := Real.pi_pos
  refine ⟨_, 1 / (4 * Real.pi * average raw) * psf.integral (min (psf.radius 0.995) 180), ?_, rfl, ?_, ?_⟩
  · unfold fillPole
    rw [log_pow, if_neg (by simp)]
    simp only
    rw [hr, show List.replicate (12 * 2 ^ a * 2 ^ a) (0 : ℝ) = List.replicate (pixels (2 ^ a)) 0 from rfl, hfill]
    simp only [Res.bind]
    unfold normalize
    rw [if_neg hav.ne']
  · unfold skyIntegral
    rw [sum_scale]
    unfold average
    rw [hl]
    have h1 : raw.sum ≠ 0 := by rw [hsum]; exact hpos.ne'
    field_simp
  · intro h0 v hv
    obtain ⟨w, hw, rfl⟩ := List.mem_map.1 hv
    apply mul_nonneg
    · rw [hraw, List.mem_append] at hw
      rcases hw with hw | hw
      · exact blocks_nonneg _ _ _ _ _ w hw
      · rw [List.eq_of_mem_replicate hw]
    · positivity

/-- If the radius is beyond the last ring (180 degrees, for example), rings that do not exist are read. -/
theorem C128_psf_wide_violates (t : Tools) (psf : Psf) (a : Nat) (hm : 13 ≤ t.maxOrder) (ha : a < t.maxOrder)
    (hr : ∀ r ∈ t.rings (2 ^ a), r.2.2 < min (psf.radius 0.995) 180 * Real.pi / 180)
    (hc : Contiguous 0 (t.rings (2 ^ a))) (hs : ((t.rings (2 ^ a)).map (fun r => r.2.1)).sum ≤ pixels (2 ^ a))
    (h0 : 0 < psf.radius 0.995) : fillPole t psf (2 ^ a) = .ub := by
  have hpi := Real.pi_pos
  have := fillRings_ub t psf a (min (psf.radius 0.995) 180 * Real.pi / 180) (dOrder_le hm ha) (t.rings (2 ^ a)) 0 0 []
    (pixels (2 ^ a)) (by have := lt_min h0 (show (0:ℝ) < 180 by norm_num); positivity) hr hc hs
  simp only [List.nil_append] at this
  unfold fillPole
  rw [log_pow, if_neg (by simp)]
  simp only
  rw [show List.replicate (12 * 2 ^ a * 2 ^ a) (0 : ℝ) = List.replicate (pixels (2 ^ a)) 0 from rfl, this]
  rfl

theorem bind_ok' {α β : Type} {x : Res α} {f : α → Res β} {b : β} (h : x.bind f = .ok b) : ∃ a, x = .ok a ∧ f a = .ok b := by
  cases x with
  | ok a => exact ⟨a, rfl, h⟩
  | throws => cases h
  | ub => cases h

theorem setRing_nonneg {v : ℝ} (hv : 0 ≤ v) : ∀ {n start : Nat} {hp hp' : List ℝ}, (∀ w ∈ hp, 0 ≤ w) →
    setRing start n v hp = .ok hp' → (∀ w ∈ hp', 0 ≤ w) ∧ hp'.length = hp.length
  | 0, start, hp, hp', h0, h => by
    cases h; exact ⟨h0, rfl⟩
  | n + 1, start, hp, hp', h0, h => by
    unfold setRing at h
    rw [loop] at h
    obtain ⟨q, hq, h⟩ := Res.bind_eq_ok.1 h
    unfold vset at hq
    split at hq
    · cases hq
      obtain ⟨i1, i2⟩ := setRing_nonneg hv (n := n) (start := start + 1) (hp := hp.set start v) (hp' := hp') (by
        intro w hw
        rcases List.mem_or_eq_of_mem_set hw with hw | rfl
        · exact h0 w hw
        · exact hv) h
      exact ⟨i1, by simpa using i2⟩
    · cases hq

theorem fillRings_nonneg {t : Tools} {psf : Psf} {order : Nat} {th : ℝ} : ∀ {rest : List Ring} {ring : Nat} {theta : ℝ}
    {hp hp' : List ℝ}, (∀ w ∈ hp, 0 ≤ w) → fillRings t psf order th rest ring theta hp = .ok hp' →
      (∀ w ∈ hp', 0 ≤ w) ∧ hp'.length = hp.length
  | [], ring, theta, hp, hp', h0, h => by
    rw [fillRings.eq_def] at h
    simp only at h
    split at h
    · cases h
    · cases h; exact ⟨h0, rfl⟩
  | r :: rest, ring, theta, hp, hp', h0, h => by
    obtain ⟨start, n, th'⟩ := r
    rw [fillRings.eq_def] at h
    simp only at h
    split at h
    · obtain ⟨v, hv, h⟩ := bind_ok' h
      obtain ⟨q, hq, h⟩ := bind_ok' h
      have hv0 : 0 ≤ v := by
        unfold ringValue at hv
        simp only at hv
        split at hv
        · cases hv
        · cases hv
          apply div_nonneg
          · apply sum_nonneg
            intro w hw
            obtain ⟨i, _, rfl⟩ := List.mem_map.1 hw
            exact le_max_right _ _
          · positivity
      obtain ⟨a, b⟩ := setRing_nonneg hv0 h0 hq
      obtain ⟨c, d⟩ := fillRings_nonneg a h
      exact ⟨c, d.trans b⟩
    · cases h; exact ⟨h0, rfl⟩

theorem fillPole_nonneg {t : Tools} {psf : Psf} {n : Nat} {hp : List ℝ} (hi : ∀ x, 0 ≤ psf.integral x)
    (h : fillPole t psf n = .ok hp) : ∀ v ∈ hp, 0 ≤ v := by
  unfold fillPole at h
  split at h
  · cases h
  · simp only at h
    obtain ⟨q, hq, h⟩ := bind_ok' h
    obtain ⟨a, b⟩ := fillRings_nonneg (by intro w hw; rw [List.eq_of_mem_replicate hw]) hq
    unfold normalize at h
    split at h
    · cases h
    · cases h
      intro v hv
      obtain ⟨w, hw, rfl⟩ := List.mem_map.1 hv
      have hpi := Real.pi_pos
      have := average_nonneg a
      have := hi (min (psf.radius 0.995) 180)
      have := a w hw
      positivity

/-- Maps whose side is not a power of two are refused. -/
theorem C128_side (t : Tools) (psf : Psf) (n : Nat) (h : ∀ a, n ≠ 2 ^ a) : fillPole t psf n = .throws := by
  unfold fillPole
  rw [if_pos (h _)]

/-! ### One image -/

/-- The convolution of an image never has negative pixels, whatever the harmonic transforms give. -/
theorem C128_nonneg (t : Tools) (n : Nat) (f p o : List ℝ) (h : convolve t n f p = .ok o) : ∀ v ∈ o, 0 ≤ v :=
  convolve_nonneg h

/-- An empty image gives an empty image. -/
theorem C128_empty (t : Tools) (n : Nat) (p : List ℝ) :
    convolve t n (List.replicate (pixels n) 0) p = .ok (List.replicate (pixels n) 0) := by
  unfold convolve
  rw [if_pos (by unfold average; simp)]
  rfl

/-- If the harmonic product has no negative pixels, the convolved image has the total of the image. -/
theorem C128_total_partial (t : Tools) (ht : Regular t) (hp : Positive t) (n : Nat) (f p o : List ℝ) (hl : f.length = pixels n)
    (hf : ∀ v ∈ f, 0 ≤ v) (hq : ∀ v ∈ p, 0 ≤ v) (h : convolve t n f p = .ok o) : o.sum = f.sum :=
  convolve_sum ht hp hl hf hq h

/-- The total should always be that of the image.  It is not: what is in pixels smaller than the largest negative value
after the scaling is removed after the scaling. -/
theorem C128_total_violates (t : Tools) (ht : Regular t) (n : Nat) (f p : List ℝ) (hl : f.length = pixels n)
    (h1 : f.sum ≠ 0) (h2 : (t.transform n f p).sum ≠ 0) :
    ∃ (c : ℝ) (o : List ℝ), convolve t n f p = .ok o ∧ ((t.transform n f p).map (fun v => v * c)).sum = f.sum ∧
      ∀ low, low ∈ (t.transform n f p).map (fun v => v * c) → low < 0 → (∀ v ∈ (t.transform n f p).map (fun v => v * c), low ≤ v) →
        f.sum - o.sum = (open Classical in ((t.transform n f p).map (fun v => v * c)).filter (fun v => decide (v < -low))).sum := by
  have hn0 : (pixels n : ℝ) ≠ 0 := by
    intro h
    have h0 : f = [] := List.length_eq_zero_iff.1 (by rw [hl]; exact_mod_cast h)
    rw [h0] at h1; exact h1 rfl
  have ha : average f ≠ 0 := by unfold average; rw [hl]; exact div_ne_zero h1 hn0
  have hb : average (t.transform n f p) ≠ 0 := by unfold average; rw [ht.whole]; exact div_ne_zero h2 hn0
  have hs := scaled_sum (a := f) (b := t.transform n f p) (by rw [ht.whole, hl]) hb
  refine ⟨average f / average (t.transform n f p), _, by unfold convolve; rw [if_neg ha]; simp only; rw [if_neg hb], hs, ?_⟩
  intro low hlow hneg hmin
  rw [clean_sum, hs]
  have hne : (t.transform n f p).map (fun v => v * (average f / average (t.transform n f p))) ≠ [] := List.ne_nil_of_mem hlow
  have e : minimum ((t.transform n f p).map (fun v => v * (average f / average (t.transform n f p)))) = low :=
    le_antisymm (minimum_le hlow) (hmin _ (minimum_mem hne))
  unfold removed
  rw [e, if_pos hneg, abs_of_neg hneg]
  ring

/-- The total changes by at most the largest negative value in each pixel. -/
theorem C128_total_bound (t : Tools) (ht : Regular t) (n : Nat) (f p o : List ℝ) (hl : f.length = pixels n) (low : ℝ) (h0 : low ≤ 0)
    (hlow : ∀ c : ℝ, ((t.transform n f p).map (fun v => v * c)).sum = f.sum → ∀ v ∈ t.transform n f p, low ≤ v * c)
    (h : convolve t n f p = .ok o) : |f.sum - o.sum| ≤ pixels n * (-low) := by
  unfold convolve at h
  split at h
  · rename_i hz
    cases h
    rw [average_zero hz, sum_replicate_zero, sub_zero, abs_zero]
    exact mul_nonneg (Nat.cast_nonneg _) (by linarith)
  · simp only at h
    split at h
    · cases h
    · rename_i h1 h2
      cases h
      have hs := scaled_sum (a := f) (b := t.transform n f p) (by rw [ht.whole, hl]) h2
      rw [clean_sum, hs]
      have hv := hlow _ hs
      set s := (t.transform n f p).map (fun v => v * (average f / average (t.transform n f p))) with hsd
      have hsv : ∀ v ∈ s, low ≤ v := by
        intro v hv'
        obtain ⟨w, hw, rfl⟩ := List.mem_map.1 hv'
        exact hv w hw
      have hslen : s.length = pixels n := by rw [hsd, List.length_map, ht.whole]
      have hrem : ∀ v ∈ removed s, |v| ≤ -low := by
        intro v hv'
        unfold removed at hv'
        split at hv'
        · rename_i hm
          obtain ⟨q1, q2⟩ := List.mem_filter.1 hv'
          have q2 : v < |minimum s| := by simpa using q2
          have hne : s ≠ [] := List.ne_nil_of_mem q1
          have := hsv _ (minimum_mem hne)
          rw [abs_of_neg hm] at q2
          rw [abs_le]
          constructor
          · linarith [hsv v q1]
          · linarith
        · cases hv'
      have hlen : (removed s).length ≤ pixels n := by
        unfold removed
        split
        · rw [← hslen]; exact List.length_filter_le _ _
        · simp
      have hbound : ∀ l : List ℝ, (∀ v ∈ l, |v| ≤ -low) → |l.sum| ≤ l.length * (-low) := by
        intro l
        induction l with
        | nil => intro _; simp
        | cons x l ih =>
          intro hx
          have a := hx x List.mem_cons_self
          have b := ih (fun v hv => hx v (List.mem_cons_of_mem _ hv))
          rw [List.sum_cons, List.length_cons]
          have := abs_add_le x l.sum
          push_cast
          linarith
      have hb := hbound _ hrem
      rw [show f.sum - (f.sum - (removed s).sum) = (removed s).sum by ring]
      have : ((removed s).length : ℝ) ≤ pixels n := by exact_mod_cast hlen
      nlinarith

/-! ### Maps -/

theorem countsOf_val {lib : Library δ} {m : Map} {expo : Option (δ → ℝ)} {l : List ℝ} (i : Nat) :
    val (countsOf lib m expo l) i = val l i * (expo.map (fun f => f (lib.centre m.nside m.nest i))).getD 1 := by
  unfold countsOf
  cases expo with
  | none => simp
  | some f =>
    simp only [Option.map_some, Option.getD_some]
    unfold val
    rw [List.getElem?_map, List.getElem?_zipIdx]
    cases l[i]? <;> simp

theorem countsOf_length {lib : Library δ} {m : Map} {expo : Option (δ → ℝ)} {l : List ℝ} :
    (countsOf lib m expo l).length = l.length := by
  unfold countsOf
  cases expo <;> simp

theorem countsOf_product {lib : Library δ} {m : Map} {expo : Option (δ → ℝ)} {k : Nat} {p : Plane} (hp : m.planes[k]? = some p) (i : Nat) :
    val (countsOf lib m expo p.vals) i = product lib m expo k i := by
  rw [countsOf_val]
  unfold product at'
  rw [hp]
  rfl

/-- Without convolution the image is the product of map and exposure at the given energy, pixel by pixel. -/
theorem C128_exposure (t : Tools) (lib : Library δ) (m : Map) (h : Tidy m) (psf : Psf) (expo : Option (δ → ℝ)) (k : Nat)
    (hk : k < m.energies.length) :
    ∃ m' p, Map.convolve t lib m psf expo false k = .ok m' ∧ m'.planes = [p] ∧ p.nside = m.nside ∧ p.nest = m.nest ∧
      p.vals.length = pixels m.nside ∧ ∀ i < pixels m.nside, nth p.vals i = product lib m expo k i := by
  obtain ⟨q, hq, h1, h2, h3⟩ := h.get hk
  refine ⟨{ m with planes := [⟨q.nside, q.nest, countsOf lib m expo q.vals⟩] }, ⟨q.nside, q.nest, countsOf lib m expo q.vals⟩,
    ?_, rfl, h1, h2, ?_, fun i _ => ?_⟩
  · unfold Map.convolve
    rw [checkIndex_ok hk.le, Res.bind_ok, vget_eq_ok.2 hq, Res.bind_ok]
    rfl
  · simp only; rw [countsOf_length, h3]
  · rw [nth_val]; exact countsOf_product hq i

theorem smear_ok {t : Tools} (ht : Regular t) {m : Map} (hn : 0 < m.nside) {psf : Psf} {nest : Bool} {c o : List ℝ}
    (hl : c.length = pixels m.nside) (h : smear t m psf nest c = .ok o) :
    o.length = pixels m.nside ∧ (∀ v ∈ o, 0 ≤ v) ∧
      (Positive t → (∀ x, 0 ≤ psf.integral x) → (∀ v ∈ c, 0 ≤ v) → o.sum = c.sum) := by
  unfold smear at h
  split at h
  · rw [upgrade_eq ht hn hl, Res.bind_ok] at h
    obtain ⟨p, hp, h⟩ := Res.bind_eq_ok.1 h
    obtain ⟨w, hw, h⟩ := Res.bind_eq_ok.1 h
    have hwl := convolve_length ht hw
    have hw0 := convolve_nonneg hw
    rw [degrade_eq ht hn hwl] at h
    cases h
    refine ⟨by simp, ?_, ?_⟩
    · intro v hv
      obtain ⟨i, _, rfl⟩ := List.mem_map.1 hv
      apply div_nonneg _ (by norm_num)
      apply sum_nonneg
      intro x hx
      obtain ⟨j, _, rfl⟩ := List.mem_map.1 hx
      exact val_nonneg hw0 j
    · intro hpos hi hc
      rw [degrade_sum ht hn hwl, convolve_sum ht hpos (by simp) (by
        intro v hv
        obtain ⟨j, _, rfl⟩ := List.mem_map.1 hv
        exact val_nonneg hc _) (fillPole_nonneg hi hp) hw, upgrade_sum ht hn hl]
      ring
  · rw [nograde_eq ht hn hl, Res.bind_ok] at h
    obtain ⟨p, hp, h⟩ := Res.bind_eq_ok.1 h
    obtain ⟨w, hw, h⟩ := Res.bind_eq_ok.1 h
    have hwl := convolve_length ht hw
    have hw0 := convolve_nonneg hw
    rw [nograde_eq ht hn hwl] at h
    cases h
    refine ⟨by simp, ?_, ?_⟩
    · intro v hv
      obtain ⟨i, _, rfl⟩ := List.mem_map.1 hv
      exact val_nonneg hw0 _
    · intro hpos hi hc
      rw [nograde_sum ht hn hwl, convolve_sum ht hpos (by simp) (by
        intro v hv
        obtain ⟨j, _, rfl⟩ := List.mem_map.1 hv
        exact val_nonneg hc _) (fillPole_nonneg hi hp) hw, nograde_sum ht hn hl]

theorem convolve_result {t : Tools} (ht : Regular t) {lib : Library δ} {m : Map} (h : Tidy m) {psf : Psf} {expo : Option (δ → ℝ)}
    {k : Nat} (hk : k < m.energies.length) {m' : Map} (hr : Map.convolve t lib m psf expo true k = .ok m') :
    ∃ o, m' = { m with planes := [⟨m.nside, false, o⟩] } ∧ o.length = pixels m.nside ∧ (∀ v ∈ o, 0 ≤ v) ∧
      (Positive t → (∀ x, 0 ≤ psf.integral x) → (∀ i < pixels m.nside, 0 ≤ product lib m expo k i) →
        o.sum = ∑ i ∈ Finset.range (pixels m.nside), product lib m expo k i) := by
  obtain ⟨q, hq, h1, h2, h3⟩ := h.get hk
  unfold Map.convolve at hr
  rw [checkIndex_ok hk.le, Res.bind_ok, vget_eq_ok.2 hq, Res.bind_ok] at hr
  simp only [Bool.not_true, Bool.false_eq_true, if_false] at hr
  obtain ⟨o, ho, hr⟩ := Res.bind_eq_ok.1 hr
  cases hr
  have hcl : (countsOf lib m expo q.vals).length = pixels m.nside := by rw [countsOf_length, h3]
  obtain ⟨a, b, c⟩ := smear_ok ht h.side hcl ho
  refine ⟨o, rfl, a, b, fun hp hi hc => ?_⟩
  rw [c hp hi (by
    intro v hv
    obtain ⟨i, hi', rfl⟩ := mem_val hv
    rw [countsOf_product hq]
    exact hc i (by rw [← hcl]; exact hi')), sum_val, hcl]
  exact Finset.sum_congr rfl fun i _ => countsOf_product hq i

/-- The convolved image is one of the whole sky without negative pixels, and if harmonic products have no negative pixels
its total is that of the product of map and exposure. -/
theorem C128_map_partial (t : Tools) (ht : Regular t) (lib : Library δ) (m : Map) (h : Tidy m) (psf : Psf) (expo : Option (δ → ℝ))
    (k : Nat) (hk : k < m.energies.length) (m' : Map) (hr : Map.convolve t lib m psf expo true k = .ok m') :
    ∃ p, m'.planes = [p] ∧ p.nside = m.nside ∧ p.vals.length = pixels m.nside ∧ (∀ v ∈ p.vals, 0 ≤ v) ∧
      (Positive t → (∀ x, 0 ≤ psf.integral x) → (∀ i < pixels m.nside, 0 ≤ product lib m expo k i) →
        p.vals.sum = ∑ i ∈ Finset.range (pixels m.nside), product lib m expo k i) := by
  obtain ⟨o, rfl, a, b, c⟩ := convolve_result ht h hk hr
  exact ⟨⟨m.nside, false, o⟩, rfl, rfl, a, b, c⟩

/-- The result is a map of all energies with one image: at any energy after the first it has no image, and the image of
the first energy is that of the energy asked for. -/
theorem C128_layer_violates (t : Tools) (lib : Library δ) (m : Map) (h : Tidy m) (psf : Psf) (expo : Option (δ → ℝ))
    (k : Nat) (hk : k < m.energies.length) :
    ∃ m', Map.convolve t lib m psf expo false k = .ok m' ∧ m'.energies = m.energies ∧
      (∀ j d, 0 < j → j < m.energies.length → m'.plane lib d j = .ub) ∧
      ∀ i < pixels m.nside, m'.pixelValue i 0 = .ok (product lib m expo k i) := by
  obtain ⟨q, hq, h1, h2, h3⟩ := h.get hk
  refine ⟨{ m with planes := [⟨q.nside, q.nest, countsOf lib m expo q.vals⟩] }, ?_, rfl, ?_, ?_⟩
  · unfold Map.convolve
    rw [checkIndex_ok hk.le, Res.bind_ok, vget_eq_ok.2 hq, Res.bind_ok]
    rfl
  · intro j d h0 hj
    unfold HpxMap.Map.plane
    rw [checkIndex_ok (by simp only; omega), Res.bind_ok, vget_ge _ _ (by simp only [List.length_singleton]; omega), Res.bind_ub]
  · intro i hi
    unfold HpxMap.Map.pixelValue
    rw [checkIndex_ok (by simp only; omega), Res.bind_ok, vget_lt _ _ (by simp), Res.bind_ok]
    simp only [List.getElem_cons_zero]
    rw [vget_val (by rw [countsOf_length, h3]; exact hi), countsOf_product hq]

/-- The pixels of a map should be those at their centres.  The convolved image of a map in nested order is in the order of
rings, while the map is still in nested order: the value of pixel `i` and the value at the centre of pixel `i` are those of
different pixels. -/
theorem C128_order_violates (t : Tools) (ht : Regular t) (lib : Library δ) (hs : Sound lib) (m : Map) (h : Tidy m) (hnest : m.nest = true)
    (hi : m.interp = false) (psf : Psf) (expo : Option (δ → ℝ)) (k : Nat) (hk : k < m.energies.length) (m' : Map)
    (hr : Map.convolve t lib m psf expo true k = .ok m') :
    m'.nest = true ∧ ∃ x : Nat → ℝ, (∀ i < pixels m.nside, m'.pixelValue i 0 = .ok (x i)) ∧
      ∀ i < pixels m.nside, m'.plane lib (lib.centre m'.nside m'.nest i) 0 =
        .ok (x (lib.pixel m.nside false (lib.centre m.nside true i))) := by
  obtain ⟨o, rfl, a, b, c⟩ := convolve_result ht h hk hr
  refine ⟨hnest, fun i => val o i, fun i hi' => ?_, fun i hi' => ?_⟩
  · unfold HpxMap.Map.pixelValue
    rw [checkIndex_ok (by simp only; omega), Res.bind_ok, vget_lt _ _ (by simp), Res.bind_ok]
    simp only [List.getElem_cons_zero]
    rw [vget_val (by omega)]
  · unfold HpxMap.Map.plane
    rw [checkIndex_ok (by simp only; omega), Res.bind_ok, vget_lt _ _ (by simp), Res.bind_ok]
    simp only [List.getElem_cons_zero, hi, Bool.false_eq_true, if_false, hnest]
    rw [vget_val (by rw [a]; exact hs.range _ _ _ h.side)]

/-- A map whose pixels are larger than two thirds of the radius that contains 68 per cent is convolved with pixels of half
the size. -/
theorem C128_finer (size radius : ℝ) (h0 : 0 ≤ radius) (h : 2 * (radius / 3) < size) : upgraded size radius = true := by
  unfold upgraded
  rw [decide_eq_true_eq]
  have h1 : radius / 3 * Real.pi / 180 ≤ radius / 3 := by
    rw [div_le_iff₀ (by norm_num)]
    exact mul_le_mul_of_nonneg_left (by linarith [Real.pi_le_four]) (by linarith)
  linarith

/-- Smaller pixels should not be halved.  They are, if only they are larger than that radius in radians taken for
degrees. -/
theorem C128_units_violates (size radius : ℝ) (h : radius / 20 < size) (h0 : 0 ≤ radius) : upgraded size radius = true := by
  unfold upgraded
  rw [decide_eq_true_eq]
  have h1 : 2 * (radius / 3 * Real.pi / 180) ≤ radius / 20 := by
    have := mul_le_mul_of_nonneg_left Real.pi_le_four h0
    have e : 2 * (radius / 3 * Real.pi / 180) = radius * Real.pi / 270 := by ring
    rw [e]
    linarith
  linarith

/-- So the pixels are halved unless the radius is larger than about a thousand degrees divided by the side of the map, that is
twenty times the size of the pixels. -/
theorem C128_size_violates (t : Tools) (m : Map) (psf : Psf) (nest : Bool) (counts : List ℝ) (hn : 0 < m.nside) (h0 : 0 ≤ psf.radius 0.68)
    (h : psf.radius 0.68 * (m.nside : ℝ) ≤ 1000) : smear t m psf nest counts = (do
      let c ← upgrade t m.nside nest counts
      let p ← fillPole t psf (2 * m.nside)
      let o ← HpxConv.convolve t (2 * m.nside) c p
      degrade t m.nside o) := by
  have hn' : (0 : ℝ) < (m.nside : ℝ) := Nat.cast_pos.2 hn
  have hsz : 50 / (m.nside : ℝ) < pixelSize m := by
    unfold pixelSize HpxMap.Map.solidAngle HpxMap.Map.nPixels
    have h1 : 1 / (m.nside : ℝ) ≤ Real.sqrt (4 * Real.pi / ((12 * m.nside * m.nside : Nat) : ℝ)) := by
      apply Real.le_sqrt_of_sq_le
      rw [div_pow, one_pow, div_le_div_iff₀ (by positivity) (by positivity)]
      push_cast
      nlinarith [Real.pi_gt_three, mul_pos hn' hn']
    have h2 : (50 : ℝ) < 180 / Real.pi := by
      rw [lt_div_iff₀ Real.pi_pos]
      linarith [Real.pi_lt_d2]
    calc 50 / (m.nside : ℝ) = 1 / (m.nside : ℝ) * 50 := by ring
      _ < 1 / (m.nside : ℝ) * (180 / Real.pi) := mul_lt_mul_of_pos_left h2 (by positivity)
      _ ≤ Real.sqrt (4 * Real.pi / ((12 * m.nside * m.nside : Nat) : ℝ)) * (180 / Real.pi) :=
        mul_le_mul_of_nonneg_right h1 (by positivity)
      _ = _ := by ring
  have hu : upgraded (pixelSize m) (psf.radius 0.68) = true := by
    apply C128_units_violates _ _ _ h0
    refine lt_of_le_of_lt ?_ hsz
    rw [div_le_div_iff₀ (by norm_num) hn']
    linarith
  unfold smear
  rw [if_pos hu]

example : (3 : ℝ) * (64 : Nat) ≤ 1000 := by norm_num

example : (3 : ℝ) / 20 < 1 ∧ ¬ (2 * ((3 : ℝ) / 3) < 1) := by norm_num

/-! ### All energies -/

/-- Without convolution, all energies: each image is the product of map and exposure at its energy, and the integrals are
those of the products. -/
theorem C128_all_exposure (t : Tools) (lib : Library δ) (m : Map) (h : Tidy m) (psf : ℝ → Psf) (expo : Option (ℝ → δ → ℝ)) :
    ∃ m', Map.convolveAll t lib m psf expo false = .ok m' ∧ m'.energies = m.energies ∧
      m'.planes.length = m.energies.length ∧ m'.integrals.length = m.energies.length ∧
      ∀ k (hk : k < m.energies.length), (∀ i < pixels m.nside, at' m' k i = product lib m (expo.map (fun f => f m.energies[k])) k i) ∧
        nth m'.integrals k = 4 * Real.pi / (pixels m.nside : ℝ) *
          ∑ i ∈ Finset.range (pixels m.nside), product lib m (expo.map (fun f => f m.energies[k])) k i := by
  have hplane : ∀ k (hk : k < m.energies.length), m.planes[k]? = some (m.planes[k]'(by rw [h.count]; exact hk)) :=
    fun k hk => List.getElem?_eq_getElem (by rw [h.count]; exact hk)
  set g : Nat → Plane := fun k => ⟨m.nside, m.nest, countsOf lib m (expo.map (fun f => f (val m.energies k)))
    ((m.planes[k]?.map (fun p => p.vals)).getD [])⟩ with hg
  have hrun : (List.range m.energies.length).mapM (fun k => do
      let e ← vget m.energies k
      let layer ← Map.convolve t lib m (psf e) (expo.map (fun f : ℝ → δ → ℝ => f e)) false k
      vget layer.planes 0) = .ok ((List.range m.energies.length).map g) := by
    apply mapM_ok
    intro k hk
    rw [List.mem_range] at hk
    obtain ⟨q, hq, h1, h2, h3⟩ := h.get hk
    rw [vget_val hk, Res.bind_ok]
    unfold Map.convolve
    rw [checkIndex_ok hk.le, Res.bind_ok, vget_eq_ok.2 hq, Res.bind_ok]
    simp only [Bool.not_false, if_true, Res.bind_ok]
    rw [vget_lt _ _ (by simp)]
    simp only [List.getElem_cons_zero, hg, hq, h1, h2, Option.map_some, Option.getD_some]
  have hlen : ∀ k, k < m.energies.length → (g k).vals.length = pixels m.nside := by
    intro k hk
    obtain ⟨q, hq, h1, h2, h3⟩ := h.get hk
    simp only [hg, countsOf_length, hq, Option.map_some, Option.getD_some, h3]
  have hcomp := computeIntegrals_ok (m := { m with planes := (List.range m.energies.length).map g }) h.grid (by simp) (by
    intro k hk
    simp only [List.getElem_map, List.getElem_range]
    exact hlen k hk)
  have hat : ∀ k (hk : k < m.energies.length) i, val (g k).vals i = product lib m (expo.map (fun f => f m.energies[k])) k i := by
    intro k hk i
    obtain ⟨q, hq, h1, h2, h3⟩ := h.get hk
    simp only [hg, hq, Option.map_some, Option.getD_some, val_lt hk]
    exact countsOf_product hq i
  have hall : Map.convolveAll t lib m psf expo false = Map.computeIntegrals { m with planes := (List.range m.energies.length).map g } := by
    unfold Map.convolveAll; rw [hrun, Res.bind_ok]
  refine ⟨_, hall.trans hcomp, rfl, by simp, by simp, fun k hk => ⟨fun i hi => ?_, ?_⟩⟩
  · rw [← hat k hk i]
    unfold at'
    simp [hk, val]
  · rw [nth_val]
    simp only
    rw [val_lt (by simp; omega)]
    simp only [List.getElem_map, List.getElem_take, List.getElem_range]
    unfold skyIntegral
    rw [sum_val, hlen k hk]
    congr 1
    exact Finset.sum_congr rfl fun i _ => hat k hk i

/-- With convolution, all energies: if the call succeeds there is an image of the whole sky for each energy, without
negative pixels, whose integral is that of the product of map and exposure if harmonic products have no negative pixels. -/
theorem C128_all_partial (t : Tools) (ht : Regular t) (lib : Library δ) (m : Map) (h : Tidy m) (psf : ℝ → Psf)
    (expo : Option (ℝ → δ → ℝ)) (m' : Map) (hr : Map.convolveAll t lib m psf expo true = .ok m') :
    m'.energies = m.energies ∧ m'.planes.length = m.energies.length ∧
      ∀ k (hk : k < m.energies.length), (∀ i, 0 ≤ at' m' k i) ∧
        (Positive t → (∀ e x, 0 ≤ (psf e).integral x) →
          (∀ i < pixels m.nside, 0 ≤ product lib m (expo.map (fun f => f m.energies[k])) k i) →
          nth m'.integrals k = 4 * Real.pi / (pixels m.nside : ℝ) *
            ∑ i ∈ Finset.range (pixels m.nside), product lib m (expo.map (fun f => f m.energies[k])) k i) := by
  unfold Map.convolveAll at hr
  obtain ⟨ps, hps, hr⟩ := Res.bind_eq_ok.1 hr
  have key : ∀ (n lo : Nat) (ps : List Plane), lo + n ≤ m.energies.length →
      ((List.range n).map (fun i => lo + i)).mapM (fun k => do
        let e ← vget m.energies k
        let layer ← Map.convolve t lib m (psf e) (expo.map (fun f : ℝ → δ → ℝ => f e)) true k
        vget layer.planes 0) = .ok ps → ps.length = n ∧ ∀ i (hi : i < n), ∃ p, ps[i]? = some p ∧ ∃ m1,
          Map.convolve t lib m (psf (val m.energies (lo + i))) (expo.map (fun f => f (val m.energies (lo + i)))) true (lo + i) = .ok m1 ∧
          m1.planes[0]? = some p := by
    intro n
    induction n with
    | zero => intro lo ps _ h; simp at h; subst h; simp
    | succ n ih =>
      intro lo ps hl hps
      rw [List.range_succ_eq_map, List.map_cons, List.mapM_cons] at hps
      obtain ⟨p, hp, hps⟩ := Res.bind_eq_ok.1 hps
      obtain ⟨qs, hqs, hps⟩ := Res.bind_eq_ok.1 hps
      simp only [Res.pure_eq, Res.ok.injEq] at hps
      subst hps
      rw [vget_val (by omega), Res.bind_ok] at hp
      obtain ⟨m1, hm1, hp⟩ := Res.bind_eq_ok.1 hp
      rw [List.map_map] at hqs
      have : (fun i => lo + i) ∘ Nat.succ = fun i => (lo + 1) + i := by funext i; simp only [Function.comp]; omega
      rw [this] at hqs
      obtain ⟨j1, j2⟩ := ih (lo + 1) qs (by omega) hqs
      refine ⟨by simp [j1], fun i hi => ?_⟩
      cases i with
      | zero => exact ⟨p, rfl, m1, hm1, vget_eq_ok.1 hp⟩
      | succ i =>
        obtain ⟨p', hp', m2, hm2, hp2⟩ := j2 i (by omega)
        refine ⟨p', by simpa using hp', m2, ?_, hp2⟩
        rw [show lo + (i + 1) = lo + 1 + i by omega]
        exact hm2
  obtain ⟨hl, hall⟩ := key m.energies.length 0 ps (by omega) (by simpa using hps)
  have hget : ∀ k (hk : k < m.energies.length), ∃ o, ps[k]? = some ⟨m.nside, false, o⟩ ∧ o.length = pixels m.nside ∧ (∀ v ∈ o, 0 ≤ v) ∧
      (Positive t → (∀ x, 0 ≤ (psf m.energies[k]).integral x) →
        (∀ i < pixels m.nside, 0 ≤ product lib m (expo.map (fun f => f m.energies[k])) k i) →
        o.sum = ∑ i ∈ Finset.range (pixels m.nside), product lib m (expo.map (fun f => f m.energies[k])) k i) := by
    intro k hk
    obtain ⟨p, hp, m1, hm1, hp1⟩ := hall k hk
    rw [Nat.zero_add, val_lt hk] at hm1
    obtain ⟨o, rfl, a, b, c⟩ := convolve_result ht h hk hm1
    simp only [List.getElem?_cons_zero, Option.some.injEq] at hp1
    subst hp1
    exact ⟨o, hp, a, b, c⟩
  have hcomp := computeIntegrals_ok (m := { m with planes := ps }) h.grid (by simp [hl]) (by
    intro k hk
    obtain ⟨o, ho, a, _, _⟩ := hget k hk
    have := List.getElem?_eq_some_iff.1 ho
    obtain ⟨q1, q2⟩ := this
    simp only at q2 ⊢
    rw [q2]
    exact a)
  rw [hcomp] at hr
  cases hr
  refine ⟨rfl, hl, fun k hk => ?_⟩
  obtain ⟨o, ho, a, b, c⟩ := hget k hk
  refine ⟨fun i => ?_, fun hp hi hc => ?_⟩
  · unfold at'
    simp only [ho, Option.bind_some]
    exact val_nonneg b i
  · rw [nth_val, ← c hp (hi _) hc]
    simp only
    have ht' : (ps.take m.energies.length)[k]? = some ⟨m.nside, false, o⟩ := by
      rw [List.getElem?_take, if_pos hk, ho]
    unfold val
    rw [List.getElem?_map, ht']
    rfl

/-! ### The hypotheses can be met -/

/-- Four pixels within each, one ring, a transform that leaves maps alone. -/
noncomputable def demoTools : Tools where
  parent _ _ j := j / 4
  swap _ i := i
  rings _ := [(0, 4, 4)]
  theta _ _ := 0
  maxOrder := 29
  transform n f _ := if f.length = pixels n then f else List.replicate (pixels n) 0

theorem four_children (N : Nat) : ∀ i < N, ((List.range (4 * N)).filter (fun j => j / 4 == i)).length = 4 := by
  induction N with
  | zero => intro i hi; omega
  | succ N ih =>
    intro i hi
    rw [show 4 * (N + 1) = 4 * N + 1 + 1 + 1 + 1 by ring]
    simp only [List.range_succ, List.filter_append, List.length_append]
    rcases Nat.lt_or_ge i N with h | h
    · rw [ih i h]
      have : ∀ x, x / 4 ≠ i → (List.filter (fun j => j / 4 == i) [x]).length = 0 := by
        intro x hx
        rw [List.filter_cons_of_neg (by simpa using hx)]; rfl
      rw [this _ (by omega), this _ (by omega), this _ (by omega), this _ (by omega)]
    · have hi' : i = N := by omega
      subst hi'
      have hz : (List.filter (fun j => j / 4 == i) (List.range (4 * i))).length = 0 := by
        rw [List.length_eq_zero_iff, List.filter_eq_nil_iff]
        intro x hx
        rw [List.mem_range] at hx
        simp only [beq_iff_eq]
        omega
      have : ∀ x, x / 4 = i → (List.filter (fun j => j / 4 == i) [x]).length = 1 := by
        intro x hx
        rw [List.filter_cons_of_pos (by simpa using hx)]; rfl
      rw [hz, this _ (by omega), this _ (by omega), this _ (by omega), this _ (by omega)]

theorem demoTools_regular : Regular demoTools where
  inside n s j hn hj := by
    rw [pixels_two] at hj
    simp only [demoTools]
    omega
  four n s i hn hi := by
    rw [pixels_two]
    exact four_children (pixels n) i hi
  perm n hn := by
    simp only [demoTools, List.map_id']
    exact List.Perm.refl _
  whole n f p := by
    simp only [demoTools]
    split
    · assumption
    · simp

theorem demoTools_positive : Positive demoTools := by
  intro n f p hf hp v hv
  simp only [demoTools] at hv
  split at hv
  · exact hf v hv
  · rw [List.eq_of_mem_replicate hv]

/-- A point spread function with a radius of one degree. -/
noncomputable def demoPsf : Psf := ⟨fun _ => 1, fun _ => 1, fun _ => 1⟩

theorem demo_fill (a : Nat) (ha : a < 29) : ∃ hp, fillPole demoTools demoPsf (2 ^ a) = .ok hp := by
  obtain ⟨hp, c, h, _⟩ := C128_psf demoTools demoPsf a (by simp [demoTools]) ha [(0, 4, 4)] [] rfl
    (by
      apply Filled.next
      · have := Real.pi_pos
        simp only [demoPsf]
        have : (0:ℝ) < min 1 180 := by norm_num
        positivity
      · apply Filled.stop
        simp only [demoPsf]
        have : min (1:ℝ) 180 = 1 := by norm_num
        rw [this]
        linarith [Real.pi_le_four])
    ⟨rfl, trivial⟩ (by
      have : 1 ≤ 2 ^ a := Nat.one_le_two_pow
      simp only [pixels, List.map_cons, List.map_nil, List.sum_cons, List.sum_nil]
      nlinarith) (by
      simp only [blocks, List.append_nil]
      have : 0 < ringMean demoTools demoPsf a 0 0 := by
        unfold ringMean
        simp only [demoPsf]
        rw [show max (0:ℝ) 1 = 1 by norm_num, Finset.sum_const, Finset.card_range]
        simp only [nsmul_eq_mul, mul_one]
        positivity
      simp only [List.sum_replicate, nsmul_eq_mul]
      positivity)
  exact ⟨hp, h⟩

theorem demo_convolve {n : Nat} (f p : List ℝ) (hl : f.length = pixels n) : ∃ o, convolve demoTools n f p = .ok o := by
  unfold convolve
  split
  · exact ⟨_, rfl⟩
  · rename_i h
    have : demoTools.transform n f p = f := if_pos hl
    rw [this]
    simp only [h, if_false]
    exact ⟨_, rfl⟩

/-- A map of side four is convolved. -/
example : ∃ m', Map.convolve demoTools demo demoMap demoPsf none true 1 = .ok m' := by
  have hk : 1 < demoMap.energies.length := by simp [demoMap]
  obtain ⟨q, hq, h1, h2, h3⟩ := demoMap_tidy.get hk
  have hn : demoMap.nside = 4 := rfl
  unfold Map.convolve
  rw [checkIndex_ok hk.le, Res.bind_ok, vget_eq_ok.2 hq, Res.bind_ok]
  simp only [Bool.not_true, Bool.false_eq_true, if_false]
  have hs : ∃ o, smear demoTools demoMap demoPsf q.nest (countsOf demo demoMap none q.vals) = .ok o := by
    have hl : (countsOf demo demoMap none q.vals).length = pixels demoMap.nside := by rw [countsOf_length, h3]
    unfold smear
    split
    · rw [upgrade_eq demoTools_regular (by rw [hn]; norm_num) hl, Res.bind_ok]
      obtain ⟨p, hp⟩ := demo_fill 3 (by norm_num)
      have : 2 * demoMap.nside = 2 ^ 3 := rfl
      rw [this, hp, Res.bind_ok]
      obtain ⟨o, ho⟩ := demo_convolve (n := 2 ^ 3) ((List.range (pixels (2 ^ 3))).map (fun j =>
        val (countsOf demo demoMap none q.vals) (demoTools.parent demoMap.nside q.nest j))) p (by simp)
      rw [ho, Res.bind_ok, degrade_eq demoTools_regular (by rw [hn]; norm_num) (by rw [convolve_length demoTools_regular ho, this])]
      exact ⟨_, rfl⟩
    · rw [nograde_eq demoTools_regular (by rw [hn]; norm_num) hl, Res.bind_ok]
      obtain ⟨p, hp⟩ := demo_fill 2 (by norm_num)
      have : demoMap.nside = 2 ^ 2 := rfl
      rw [this, hp, Res.bind_ok]
      obtain ⟨o, ho⟩ := demo_convolve (n := 2 ^ 2) ((List.range (pixels (2 ^ 2))).map (fun j =>
        val (countsOf demo demoMap none q.vals) (if q.nest then demoTools.swap (2 ^ 2) j else j))) p (by simp)
      rw [ho, Res.bind_ok, nograde_eq demoTools_regular (by norm_num) (by rw [convolve_length demoTools_regular ho])]
      exact ⟨_, rfl⟩
  obtain ⟨o, ho⟩ := hs
  rw [ho, Res.bind_ok]
  exact ⟨_, rfl⟩

/-- Tools whose harmonic product has a negative pixel. -/
noncomputable def demoBad : Tools where
  parent _ _ j := j / 4
  swap _ i := i
  rings _ := [(0, 4, 4)]
  theta _ _ := 0
  maxOrder := 29
  transform n _ _ := if n = 1 then [-1, 1 / 2, 25 / 2, 0, 0, 0, 0, 0, 0, 0, 0, 0] else List.replicate (pixels n) 0

/-- With negative values in the harmonic product the total changes: twelve becomes twelve and a half. -/
example : ∃ (t : Tools) (o : List ℝ), Regular t ∧ convolve t 1 (List.replicate 12 1) [] = .ok o ∧ o.sum = 25 / 2 := by
  have e1 : average (List.replicate 12 (1:ℝ)) = 1 := by unfold average; norm_num
  have e0 : demoBad.transform 1 (List.replicate 12 (1:ℝ)) [] = [(-1 : ℝ), 1 / 2, 25 / 2, 0, 0, 0, 0, 0, 0, 0, 0, 0] := by
    simp only [demoBad, if_true]
  have e2 : average (demoBad.transform 1 (List.replicate 12 (1:ℝ)) []) = 1 := by rw [e0]; unfold average; norm_num
  have h : convolve demoBad 1 (List.replicate 12 1) [] = .ok (clean ((demoBad.transform 1 (List.replicate 12 (1:ℝ)) []).map
      (fun v => v * (1 / 1)))) := by
    unfold convolve
    rw [e1, if_neg (by norm_num)]
    simp only
    rw [e2, if_neg (by norm_num)]
  refine ⟨demoBad, _, ?_, h, ?_⟩
  · exact ⟨demoTools_regular.inside, demoTools_regular.four, demoTools_regular.perm, by
      intro n f p
      simp only [demoBad]
      split
      · rename_i h; rw [h]; rfl
      · simp⟩
  · rw [clean_sum, e0]
    norm_num [removed, minimum, List.filter]

end Verif.HpxConv
