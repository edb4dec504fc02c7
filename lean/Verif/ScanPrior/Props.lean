import Verif.ScanPrior.Lemmas
/-
C124: priors of scans.
-/
set_option linter.unusedSectionVars false
set_option linter.unusedSimpArgs false
set_option linter.unusedVariables false
namespace Verif.ScanPrior
open Spec Verif.Vec

/-! ### Lemmas on priors with a covariance -/

theorem idxRed_true : ∀ (n k : Nat), (idxRed k (List.replicate n true)).length = n
  | 0, _ => rfl
  | n + 1, k => by
    rw [List.replicate_succ, idxRed, if_pos rfl, List.length_cons, idxRed_true n (k + 1)]

theorem idxRed_length : ∀ (bs : List Bool) (k : Nat), (idxRed k bs).length = bs.count true
  | [], _ => rfl
  | true :: bs, k => by
    rw [idxRed, if_pos rfl, List.length_cons, idxRed_length bs (k + 1)]
    simp
  | false :: bs, k => by
    rw [idxRed, if_neg (by simp), idxRed_length bs (k + 1)]
    simp

theorem updateCov_ok {inv : Sym → Option Sym} {c : List ℝ} {v h : Sym} (hi : inv v = some h) (hh : h.n = v.n) {n : Nat}
    (hn : v.n = n) (incl : Bool) : updateCov inv c v (List.replicate n true) incl =
      .ok ⟨if incl then c ++ [0] else c, v,
        if incl then ⟨n + 1, fun i j => if i < h.n ∧ j < h.n then h.at' i j else 0⟩ else h, List.replicate n true, incl⟩ := by
  unfold updateCov latchMatrix reduced
  simp only
  rw [idxRed_true, if_neg (by omega), Res.bind_ok, hi]
  simp only
  cases incl with
  | false => rfl
  | true =>
    rw [if_pos rfl]
    unfold Sym.extend
    rw [if_pos (by omega), Res.bind_ok]
    rfl

theorem inverse_apply {v h : Sym} (hI : ∀ i k, i < v.n → k < v.n →
    ∑ j ∈ Finset.range v.n, h.at' i j * v.at' j k = if i = k then 1 else 0) {d w : Nat → ℝ}
    (hd : ∀ i < v.n, d i = ∑ j ∈ Finset.range v.n, v.at' i j * w j) {i : Nat} (hi : i < v.n) :
    ∑ j ∈ Finset.range v.n, h.at' i j * d j = w i := by
  rw [Finset.sum_congr rfl (fun j hj => by
    rw [hd j (Finset.mem_range.1 hj), Finset.mul_sum]), Finset.sum_comm]
  rw [Finset.sum_congr rfl (g := fun k => (if i = k then 1 else 0) * w k) (fun k hk => by
    rw [← hI i k hi (Finset.mem_range.1 hk), Finset.sum_mul]
    exact Finset.sum_congr rfl fun j _ => (mul_assoc _ _ _).symm)]
  simp [hi]

theorem logLike_cov {v h : Sym} (hI : ∀ i k, i < v.n → k < v.n →
    ∑ j ∈ Finset.range v.n, h.at' i j * v.at' j k = if i = k then 1 else 0) (hh : h.n = v.n) {c : List ℝ}
    (hc : c.length = v.n) {bs : List Bool} (t : Bool) {x : List ℝ} (hx : x.length = v.n + if t then 1 else 0) {w : Nat → ℝ}
    (hw : ∀ i < v.n, x[i]?.getD 0 - c[i]?.getD 0 = ∑ j ∈ Finset.range v.n, v.at' i j * w j) :
    Prior.logLike ⟨if t then c ++ [0] else c, v,
        if t then ⟨v.n + 1, fun i j => if i < h.n ∧ j < h.n then h.at' i j else 0⟩ else h, bs, t⟩ x =
      .ok (-(1 / 2) * ∑ i ∈ Finset.range v.n, (x[i]?.getD 0 - c[i]?.getD 0) * w i) := by
  have key : ∑ i ∈ Finset.range v.n, (x[i]?.getD 0 - c[i]?.getD 0) * w i =
      ∑ i ∈ Finset.range v.n, ∑ j ∈ Finset.range v.n,
        (x[i]?.getD 0 - c[i]?.getD 0) * h.at' i j * (x[j]?.getD 0 - c[j]?.getD 0) := by
    apply Finset.sum_congr rfl
    intro i hi
    rw [← inverse_apply hI hw (Finset.mem_range.1 hi), Finset.mul_sum]
    exact Finset.sum_congr rfl fun j _ => (mul_assoc _ _ _).symm
  unfold Prior.logLike
  cases t with
  | false =>
    simp only [if_false, Bool.false_eq_true, Nat.add_zero] at hx ⊢
    rw [if_neg (by omega), if_neg (by omega), key, hx]
  | true =>
    simp only [if_true] at hx ⊢
    rw [if_neg (by simp; omega), if_neg (by omega), key, hx, Finset.sum_range_succ]
    congr 2
    rw [Finset.sum_eq_zero (s := Finset.range (v.n + 1)) (fun j _ => by
      rw [if_neg (by omega)]; ring), add_zero]
    apply Finset.sum_congr rfl
    intro i hi
    have hi' := Finset.mem_range.1 hi
    rw [Finset.sum_range_succ, if_neg (by omega), mul_zero, zero_mul, add_zero]
    apply Finset.sum_congr rfl
    intro j hj
    have hj' := Finset.mem_range.1 hj
    rw [if_pos (by omega), List.getElem?_append_left (by omega), List.getElem?_append_left (by omega)]

/-- An inverse for matrices of size one, for examples. -/
noncomputable def inv1 (c : Sym) : Option Sym :=
  open Classical in if c.n = 1 ∧ c.at' 0 0 ≠ 0 then some ⟨1, fun _ _ => 1 / c.at' 0 0⟩ else none

theorem inv1_inverts : Inverts inv1 := by
  intro c h e
  unfold inv1 at e
  split at e
  · rename_i hc
    cases e
    refine ⟨hc.1.symm, ?_⟩
    intro i k hi hk
    rw [hc.1] at hi hk ⊢
    obtain rfl : i = 0 := by omega
    obtain rfl : k = 0 := by omega
    simp [hc.2]
  · cases e

/-- A cache without priors, for examples. -/
def start (n : Nat) (test : Bool) : St :=
  ⟨n, List.replicate n 1, List.replicate n true, List.replicate (n + if test then 1 else 0) 1,
   ⟨n + if test then 1 else 0, fun i j => if i = j then 4 else 0⟩, test, none, none, none, none, none, none, none, none⟩

/-! ### The priors of parameters -/

/-- C124: after the priors of the normalizations of sources were read, whatever is done with the cache (other free
sources, test source, fits, other priors), the prior of the parameters contributes the sum of the Gaussian
priors of the free parameters, also with the test source, which has none.  `_partial`: reference values below 1e-15 are
excluded, see `C124_reference_violates`. -/
theorem C124_init_partial (inv : Sym → Option Sym) (ps : List (Option (ℝ × ℝ))) (free : List Bool) (scales : List ℝ) (os : List Op)
    (st st' : St) (hl : st.refv.length = ps.length) (hn : st.nbkg = ps.length) (hr : ∀ r ∈ st.refv, (1e-15 : ℝ) ≤ r)
    (hf : free.length = ps.length) (hs : free.length ≤ scales.length) (hq : ∀ o ∈ os, Quiet o)
    (hrun : run inv (.remake ps free scales :: os) st = .ok st') (t : Bool) (x : List ℝ) (hx : x.length = npar st'.free t) :
    contribution (getPrior st' .init t) x = .ok (logPrior ps st.refv st'.free x) := by
  rw [run] at hrun
  obtain ⟨st1, e1, e2⟩ := Res.bind_eq_ok.1 hrun
  rw [step] at e1
  obtain ⟨st0, e0, f0, n0, r0, t0⟩ := extract_ok hl hr
  rw [e0, Res.bind_ok] at e1
  obtain ⟨st2, e3, _, _, i⟩ := refactorModel_ok hl hr f0 (n0.trans hn) r0 hf hs st.test
  rw [e3] at e1
  cases e1
  exact (run_inv hl hr hq i e2).gives t x hx

/-- C124: reading the priors succeeds when the numbers fit, and then every other selection of free sources
succeeds, and is the one in use. -/
theorem C124_total (inv : Sym → Option Sym) (ps : List (Option (ℝ × ℝ))) (f1 f2 : List Bool) (s1 s2 : List ℝ) (test : Bool)
    (st : St) (hl : st.refv.length = ps.length) (hn : st.nbkg = ps.length) (hr : ∀ r ∈ st.refv, (1e-15 : ℝ) ≤ r)
    (hf1 : f1.length = ps.length) (hs1 : f1.length ≤ s1.length) (hf2 : f2.length = ps.length) (hs2 : f2.length ≤ s2.length) :
    ∃ st', run inv [.remake ps f1 s1, .refactor f2 s2 test] st = .ok st' ∧ st'.free = f2 ∧ st'.test = test := by
  obtain ⟨st0, e0, f0, n0, r0, t0⟩ := extract_ok hl hr
  obtain ⟨st1, e1, _, _, i⟩ := refactorModel_ok hl hr f0 (n0.trans hn) r0 hf1 hs1 st.test
  obtain ⟨st2, e2, a, b, _⟩ := refactorModel_ok hl hr i.full i.bkg i.ref hf2 hs2 test
  refine ⟨st2, ?_, a, b⟩
  rw [run, step, e0, Res.bind_ok, e1, Res.bind_ok, run, step, e2, Res.bind_ok, run]

/-- A case in which the hypotheses hold and the prior is not zero: one of two sources has a prior. -/
example : ∃ st', run inv1 [.remake [none, some (3, 2)] [true, true] [1, 1], .refactor [false, true] [1, 1] true] (start 2 true) =
      .ok st' ∧ contribution (getPrior st' .init true) [5, 7] = .ok (-(1 / 2)) := by
  have hr : ∀ r ∈ (start 2 true).refv, (1e-15 : ℝ) ≤ r := by
    intro r h
    have : r = 1 := by simpa [start] using h
    rw [this]; norm_num
  obtain ⟨st', e, a, b⟩ := C124_total inv1 [none, some (3, 2)] [true, true] [false, true] [1, 1] [1, 1] true (start 2 true)
    rfl rfl hr rfl (by simp) rfl (by simp)
  refine ⟨st', e, ?_⟩
  rw [C124_init_partial inv1 [none, some (3, 2)] [true, true] [1, 1] [.refactor [false, true] [1, 1] true] (start 2 true) st'
    rfl rfl hr rfl (by simp) (by simp [Quiet]) e true [5, 7] (by rw [a]; rfl), a]
  simp [logPrior, term, start, List.replicate]
  norm_num

/-- C124 violated: the prior of a source whose reference value is below 1e-15 (or negative) is silently dropped. -/
theorem C124_reference_violates (inv : Sym → Option Sym) (m s r : ℝ) (hr : r < 1e-15) :
    ∃ st st', run inv [.remake [some (m, s)] [true] [1]] st = .ok st' ∧ st.refv = [r] ∧ st'.free = [true] ∧
      ∀ x, contribution (getPrior st' .init false) [x] = .ok 0 := by
  let st : St := ⟨1, [r], [true], [1], ⟨1, fun _ _ => 0⟩, false, none, none, none, none, none, none, none, none⟩
  have hz : (List.zipWith entry [false] [s]) = [(0, 0)] := rfl
  have hu : ∀ incl, updateDiag [m] [s] [false] [true] incl = .ok ⟨[m] ++ (if incl then [0] else []),
      Sym.diag ([0] ++ (if incl then [0] else [])), Sym.diag ([0] ++ (if incl then [0] else [])), [true], incl⟩ := fun incl => by
    rw [updateDiag_ok (c := [m]) (u := [s]) (h := [false]) (bs := [true]) rfl rfl rfl incl]
    rfl
  have hx : extract [some (m, s)] st = .ok { st with
      fullT := some ⟨[m] ++ [0], Sym.diag ([0] ++ [0]), Sym.diag ([0] ++ [0]), [true], true⟩
      fullB := some ⟨[m], Sym.diag [0], Sym.diag [0], [true], false⟩ } := by
    unfold extract
    have hres : ([some (m, s)].zipIdx.map fun p : Option (ℝ × ℝ) × Nat => rescale st.refv p.2 p.1) = [(m, s, false)] := by
      simp [rescale, st, hr]
    simp only
    rw [if_pos (by rfl), if_neg (by simp [st]), hres]
    simp only [List.map_cons, List.map_nil, List.length_singleton, List.replicate_one]
    rw [hu true, Res.bind_ok, hu false, Res.bind_ok]
    rfl
  refine ⟨st, ?_⟩
  rw [run, step, hx, Res.bind_ok]
  unfold refactorModel
  rw [if_neg (by simp [st]), if_neg (by simp)]
  simp only
  have hun : uncertainties ⟨[m], Sym.diag [0], Sym.diag [0], [true], false⟩ = .ok [Real.sqrt 0] := by
    unfold uncertainties
    apply range_mapM
    · rfl
    · intro i hi
      have : i = 0 := by simpa using hi
      subst this
      rfl
  have hz2 : (List.zipWith entry [true] [Real.sqrt 0]) = [(0, 0)] := by
    simp [entry, diagValue]
  have hu2 : ∀ incl, updateDiag [m] [Real.sqrt 0] [true] [true] incl = .ok ⟨[m] ++ (if incl then [0] else []),
      Sym.diag ([0] ++ (if incl then [0] else [])), Sym.diag ([0] ++ (if incl then [0] else [])), [true], incl⟩ := fun incl => by
    rw [updateDiag_ok (c := [m]) (u := [Real.sqrt 0]) (h := [true]) (bs := [true]) rfl rfl rfl incl, hz2]
    rfl
  unfold refactorPrior
  simp only
  rw [hun, Res.bind_ok]
  simp only [List.length_singleton, List.replicate_one]
  rw [hu2 false, Res.bind_ok, hu2 true, Res.bind_ok, Res.bind_ok]
  refine ⟨_, rfl, rfl, rfl, ?_⟩
  intro x
  simp only [getPrior, contribution, if_false, Bool.false_eq_true, List.append_nil]
  rw [logLike_diag (p := ⟨[m], Sym.diag [0], Sym.diag [0], [true], false⟩) (h := [0]) (x := [x]) rfl rfl rfl]
  simp [quad]

/-! ### Priors with a covariance -/

/-- C124: a prior with all parameters constrained is the Gaussian with these central values and this
covariance: if the deviations are the covariance times some vector, minus one half of the product of deviations and
vector.  The test source is not constrained.  `_partial`: all parameters are constrained, see
`C124_constrain_violates`. -/
theorem C124_external_partial (inv : Sym → Option Sym) (hI : Inverts inv) (c : List ℝ) (v : Sym) (hc : c.length = v.n) (glob : Bool)
    (st st' : St) (h : step inv (.external c v (List.replicate v.n true) glob) st = .ok st') (t : Bool) (x : List ℝ)
    (hx : x.length = v.n + if t then 1 else 0) (w : Nat → ℝ)
    (hw : ∀ i < v.n, x[i]?.getD 0 - c[i]?.getD 0 = ∑ j ∈ Finset.range v.n, v.at' i j * w j) :
    contribution (getPrior st' (if glob then .global else .local') t) x =
      .ok (-(1 / 2) * ∑ i ∈ Finset.range v.n, (x[i]?.getD 0 - c[i]?.getD 0) * w i) := by
  have h' : buildExternal inv c v (List.replicate v.n true) glob st = .ok st' := h
  obtain e | ⟨hs, e⟩ : inv v = none ∨ ∃ hs, inv v = some hs := by
    cases inv v with
    | none => exact Or.inl rfl
    | some a => exact Or.inr ⟨a, rfl⟩
  · exfalso
    unfold buildExternal updateCov latchMatrix reduced at h'
    simp only at h'
    rw [idxRed_true, if_neg (by omega), Res.bind_ok, e] at h'
    cases h'
  · obtain ⟨hn, hh⟩ := hI v hs e
    have L := fun t (x : List ℝ) hx hw => logLike_cov hh hn hc (bs := List.replicate v.n true) t (x := x) hx (w := w) hw
    unfold buildExternal at h'
    rw [updateCov_ok e hn rfl true, Res.bind_ok, updateCov_ok e hn rfl false] at h'
    cases glob with
    | true =>
      rw [if_pos rfl] at h'
      split at h'
      · cases h'
      · rw [Res.bind_ok] at h'
        cases h'
        cases t <;> exact L _ x hx hw
    | false =>
      rw [if_neg (by simp), Res.bind_ok] at h'
      cases h'
      cases t <;> exact L _ x hx hw

/-- C124: the prior from the current fit, with all sources free: central values and covariance (times the factor)
are those of the fit, without the test source. -/
theorem C124_current_partial (inv : Sym → Option Sym) (hI : Inverts inv) (scale : ℝ) (glob : Bool) (st st' : St)
    (hp : st.pars.length = st.nbkg + if st.test then 1 else 0) (hv : st.cov.n = st.pars.length)
    (h : step inv (.current (List.replicate st.nbkg true) scale glob) st = .ok st') (t : Bool) (x : List ℝ)
    (hx : x.length = st.nbkg + if t then 1 else 0) (w : Nat → ℝ)
    (hw : ∀ i < st.nbkg, x[i]?.getD 0 - st.pars[i]?.getD 0 = ∑ j ∈ Finset.range st.nbkg, scale * st.cov.at' i j * w j) :
    contribution (getPrior st' (if glob then .global else .local') t) x =
      .ok (-(1 / 2) * ∑ i ∈ Finset.range st.nbkg, (x[i]?.getD 0 - st.pars[i]?.getD 0) * w i) := by
  have h' : buildCurrent inv (List.replicate st.nbkg true) scale glob st = .ok st' := h
  unfold buildCurrent at h'
  cases ht : st.test with
  | true =>
    rw [ht, if_pos rfl] at hp
    rw [ht, if_pos rfl, if_neg (by omega)] at h'
    unfold Sym.top at h'
    rw [if_pos (by omega), Res.bind_ok] at h'
    have hk : ∀ i < st.nbkg, (st.pars.take st.nbkg)[i]?.getD 0 = st.pars[i]?.getD 0 := by
      intro i hi
      rw [List.getElem?_take_of_lt hi]
    have := C124_external_partial inv hI (st.pars.take st.nbkg) ⟨st.nbkg, fun i j => scale * st.cov.at' i j⟩
      (by simp only [List.length_take]; omega) glob st st' h' t x hx w (fun i hi => by rw [hk i hi]; exact hw i hi)
    rw [this]
    congr 2
    exact Finset.sum_congr rfl fun i hi => by rw [hk i (Finset.mem_range.1 hi)]
  | false =>
    rw [ht, if_neg (by simp), Nat.add_zero] at hp
    rw [ht, if_neg (by simp)] at h'
    have hn : st.cov.n = st.nbkg := by omega
    have := C124_external_partial inv hI st.pars ⟨st.cov.n, fun i j => scale * st.cov.at' i j⟩
      (by simp only; omega) glob st st' (by rw [hn]; rw [hn] at h'; exact h') t x (by simp only; omega) w (by
        simp only [hn]; exact hw)
    simp only [hn] at this
    exact this

/-- C124: when the covariance can be inverted, the prior is made, unless a prior for all sources is asked for
while only one for the current selection exists. -/
theorem C124_made (inv : Sym → Option Sym) (hI : Inverts inv) (scale : ℝ) (glob : Bool) (st : St)
    (hp : st.pars.length = st.nbkg + if st.test then 1 else 0) (hv : st.cov.n = st.pars.length)
    (hs : ∃ a, inv ⟨st.nbkg, fun i j => scale * st.cov.at' i j⟩ = some a)
    (hg : glob = true → st.locB = none ∨ st.globB ≠ none) :
    ∃ st', step inv (.current (List.replicate st.nbkg true) scale glob) st = .ok st' := by
  obtain ⟨a, ha⟩ := hs
  have hn : a.n = st.nbkg := (hI _ _ ha).1
  have B : ∀ c : List ℝ, ∃ st', buildExternal inv c ⟨st.nbkg, fun i j => scale * st.cov.at' i j⟩ (List.replicate st.nbkg true) glob st =
      .ok st' := by
    intro c
    unfold buildExternal
    rw [updateCov_ok ha hn rfl true, Res.bind_ok, updateCov_ok ha hn rfl false, Res.bind_ok]
    cases glob with
    | false => exact ⟨_, rfl⟩
    | true =>
      rw [if_pos rfl, if_neg]
      · exact ⟨_, rfl⟩
      · rcases hg rfl with h | h
        · simp [h]
        · obtain ⟨g, e⟩ := Option.ne_none_iff_exists'.1 h
          simp [e]
  show ∃ st', buildCurrent inv (List.replicate st.nbkg true) scale glob st = .ok st'
  unfold buildCurrent
  cases ht : st.test with
  | true =>
    rw [ht, if_pos rfl] at hp
    rw [if_pos rfl, if_neg (by omega)]
    unfold Sym.top
    rw [if_pos (by omega), Res.bind_ok]
    exact B _
  | false =>
    rw [ht, if_neg (by simp), Nat.add_zero] at hp
    rw [if_neg (by simp), show st.cov.n = st.nbkg by omega]
    exact B _

/-- A case in which the hypotheses hold: value 1, covariance 4 times 2, at 5. -/
example : ∃ st', step inv1 (.current [true] 2 true) (start 1 true) = .ok st' ∧
    contribution (getPrior st' .global true) [5, 7] = .ok (-1) := by
  have hs : ∃ a, inv1 ⟨(start 1 true).nbkg, fun i j => 2 * (start 1 true).cov.at' i j⟩ = some a := by
    refine ⟨⟨1, fun _ _ => 1 / (2 * 4)⟩, ?_⟩
    simp [inv1, start]
  obtain ⟨st', e⟩ := C124_made inv1 inv1_inverts 2 true (start 1 true) rfl rfl hs (fun _ => Or.inl rfl)
  refine ⟨st', e, ?_⟩
  have := C124_current_partial inv1 inv1_inverts 2 true (start 1 true) st' rfl rfl e true [5, 7] rfl (fun _ => 1 / 2) (by
    intro i hi
    have : i = 0 := by simpa [start] using hi
    subst this
    simp [start]
    norm_num)
  rw [if_pos rfl] at this
  rw [this]
  simp [start]
  norm_num

/-- C124: another selection of free sources ends the priors of the old selection and keeps those for all sources. -/
theorem C124_lifetime (inv : Sym → Option Sym) (free : List Bool) (scales : List ℝ) (test : Bool) (st st' : St)
    (h : step inv (.refactor free scales test) st = .ok st') (t : Bool) :
    getPrior st' .local' t = none ∧ getPrior st' .global t = getPrior st .global t ∧
      getPrior st' .full t = getPrior st .full t := by
  have h' : refactorModel free scales test st = .ok st' := h
  unfold refactorModel at h'
  split at h'
  · cases h'
  · split at h'
    · cases h'
    · obtain ⟨st1, e, h'⟩ := Res.bind_eq_ok.1 h'
      cases h'
      unfold refactorPrior at e
      simp only at e
      cases hf : st.fullB with
      | none =>
        rw [hf] at e
        cases e
        cases t <;> simp [getPrior, hf]
      | some p =>
        rw [hf] at e
        simp only at e
        obtain ⟨u, _, e⟩ := Res.bind_eq_ok.1 e
        obtain ⟨a, _, e⟩ := Res.bind_eq_ok.1 e
        obtain ⟨b, _, e⟩ := Res.bind_eq_ok.1 e
        cases e
        cases t <;> simp [getPrior, hf]

example : ∃ st', step inv1 (.refactor [true] [3] true) (start 1 false) = .ok st' := by
  refine ⟨_, rfl⟩

/-! ### Violations -/

/-- C124 violated: if only some of the parameters are constrained, every likelihood with the prior fails, for
whatever parameters, because the inverse of the covariance is reduced but the central values are not. -/
theorem C124_constrain_violates (inv : Sym → Option Sym) (hI : Inverts inv) (c : List ℝ) (v : Sym) (hc : c.length = v.n)
    (bs : List Bool) (hb : bs.count true < v.n) (glob : Bool) (st st' : St)
    (h : step inv (.external c v bs glob) st = .ok st') (t : Bool) (x : List ℝ) :
    contribution (getPrior st' (if glob then .global else .local') t) x = .throws := by
  have h' : buildExternal inv c v bs glob st = .ok st' := h
  have U : ∀ incl p, updateCov inv c v bs incl = .ok p → p.logLike x = .throws := by
    intro incl p hp
    unfold updateCov latchMatrix reduced at hp
    simp only at hp
    rw [idxRed_length, if_pos hb] at hp
    obtain ⟨h1, e1, hp⟩ := Res.bind_eq_ok.1 hp
    obtain ⟨r, e2, e1⟩ := Res.bind_eq_ok.1 e1
    obtain ⟨rows, _, e2⟩ := Res.bind_eq_ok.1 e2
    cases e2
    cases hp
    split at e1
    · cases e1
    · rename_i a ha
      have hn := (hI _ _ ha).1
      simp only at hn
      unfold Prior.logLike
      simp only
      cases incl with
      | true =>
        rw [if_pos rfl] at e1
        unfold Sym.extend at e1
        rw [if_pos (by omega)] at e1
        cases e1
        simp only [if_true, List.length_append, List.length_singleton]
        by_cases hx : x.length = c.length + 1
        · rw [if_neg (by omega), if_pos (by omega)]
        · rw [if_pos hx]
      | false =>
        rw [if_neg (by simp)] at e1
        cases e1
        simp only [if_false, Bool.false_eq_true]
        by_cases hx : x.length = c.length
        · rw [if_neg (by omega), if_pos (by omega)]
        · rw [if_pos hx]
  unfold buildExternal at h'
  obtain ⟨p, hp, h'⟩ := Res.bind_eq_ok.1 h'
  cases glob with
  | true =>
    rw [if_pos rfl] at h'
    split at h'
    · cases h'
    · obtain ⟨q, hq, h'⟩ := Res.bind_eq_ok.1 h'
      cases h'
      cases t
      · exact U _ _ hq
      · exact U _ _ hp
  | false =>
    rw [if_neg (by simp)] at h'
    obtain ⟨q, hq, h'⟩ := Res.bind_eq_ok.1 h'
    cases h'
    cases t
    · exact U _ _ hq
    · exact U _ _ hp

/-- The prior of `C124_constrain_violates` is made without complaint. -/
example : ∃ st', step inv1 (.external [1, 2] ⟨2, fun i j => if i = j then 4 else 0⟩ [false, true] true) (start 2 false) = .ok st' := by
  have hi : inv1 ⟨1, fun i j => ((([[4]] : List (List ℝ))[i]?.getD [])[j]?).getD 0⟩ = some ⟨1, fun _ _ => 1 / 4⟩ := by
    simp [inv1]
  have hl : ∀ incl, ∃ h, latchMatrix inv1 ⟨2, fun i j => if i = j then 4 else 0⟩ [false, true] incl = .ok h := by
    intro incl
    have hr : reduced ⟨2, fun i j => if i = j then (4 : ℝ) else 0⟩ (idxRed 0 [false, true]) =
        .ok ⟨1, fun i j => ((([[4]] : List (List ℝ))[i]?.getD [])[j]?).getD 0⟩ := by
      simp [reduced, idxRed, Sym.get]
    unfold latchMatrix
    simp only
    rw [hr, Res.bind_ok, hi]
    simp only
    cases incl with
    | false => exact ⟨_, rfl⟩
    | true => exact ⟨_, by simp [Sym.extend, idxRed]; rfl⟩
  obtain ⟨a, ha⟩ := hl true
  obtain ⟨b, hb⟩ := hl false
  show ∃ st', buildExternal inv1 [1, 2] ⟨2, fun i j => if i = j then 4 else 0⟩ [false, true] true (start 2 false) = .ok st'
  unfold buildExternal updateCov
  rw [ha, Res.bind_ok, Res.bind_ok, hb, Res.bind_ok, Res.bind_ok]
  exact ⟨_, rfl⟩

/-- C124 violated: with at least two sources fixed and the test source in the fit, no prior can be made from the
current fit. -/
theorem C124_fixed_violates (inv : Sym → Option Sym) (bs : List Bool) (scale : ℝ) (glob : Bool) (st : St)
    (ht : st.test = true) (hp : st.pars.length = npar st.free true) (hf : st.free.count true + 2 ≤ st.nbkg) :
    step inv (.current bs scale glob) st = .throws := by
  show buildCurrent inv bs scale glob st = .throws
  unfold buildCurrent
  rw [ht, if_pos rfl, if_pos (by rw [hp]; simp only [npar, if_true]; omega)]

example : npar [false, false, true] true = [(1 : ℝ), 2].length ∧ [false, false, true].count true + 2 ≤ 3 := by decide

/-- C124 violated: with exactly one source fixed, the normalization of the test source is taken for the one of a source of the
model: the prior then has one parameter too many, and every likelihood with it fails. -/
theorem C124_onefixed_violates (inv : Sym → Option Sym) (hI : Inverts inv) (scale : ℝ) (glob : Bool) (st st' : St)
    (ht : st.test = true) (hp : st.pars.length = npar st.free true) (hv : st.cov.n = st.pars.length)
    (hf : st.free.count true + 1 = st.nbkg)
    (h : step inv (.current (List.replicate st.nbkg true) scale glob) st = .ok st') (t : Bool) (x : List ℝ)
    (hx : x.length = npar st.free t) :
    contribution (getPrior st' (if glob then .global else .local') t) x = .throws := by
  have h' : buildCurrent inv (List.replicate st.nbkg true) scale glob st = .ok st' := h
  simp only [npar, if_true] at hp hx
  unfold buildCurrent at h'
  rw [ht, if_pos rfl, if_neg (by omega)] at h'
  unfold Sym.top at h'
  rw [if_pos (by omega), Res.bind_ok] at h'
  simp only at h'
  obtain e | ⟨hs, e⟩ : inv ⟨st.nbkg, fun i j => scale * st.cov.at' i j⟩ = none ∨
      ∃ hs, inv ⟨st.nbkg, fun i j => scale * st.cov.at' i j⟩ = some hs := by
    cases inv ⟨st.nbkg, fun i j => scale * st.cov.at' i j⟩ with
    | none => exact Or.inl rfl
    | some a => exact Or.inr ⟨a, rfl⟩
  · exfalso
    unfold buildExternal updateCov latchMatrix reduced at h'
    simp only at h'
    rw [idxRed_true, if_neg (by omega), Res.bind_ok, e] at h'
    cases h'
  · have hn := (hI _ _ e).1
    have hl : (st.pars.take st.nbkg).length = st.nbkg := by rw [List.length_take]; omega
    unfold buildExternal at h'
    rw [updateCov_ok e hn rfl true, Res.bind_ok, updateCov_ok e hn rfl false, Res.bind_ok] at h'
    have L : ∀ (a b : List ℝ) (p q : Prior), p.central.length = st.nbkg → q.central.length = st.nbkg + 1 →
        (t = false → p.logLike x = .throws) ∧ (t = true → q.logLike x = .throws) := by
      intro a b p q h1 h2
      constructor
      · rintro rfl
        unfold Prior.logLike
        rw [if_pos (by rw [if_neg (by simp)] at hx; omega)]
      · rintro rfl
        unfold Prior.logLike
        rw [if_pos (by rw [if_pos rfl] at hx; omega)]
    cases glob with
    | true =>
      rw [if_pos rfl] at h'
      split at h'
      · cases h'
      · cases h'
        cases t
        · exact (L [] [] _ ⟨st.pars.take st.nbkg ++ [0], st.cov, st.cov, [], true⟩ (by simpa using hl) (by simp [hl])).1 rfl
        · exact (L [] [] ⟨st.pars.take st.nbkg, st.cov, st.cov, [], true⟩ _ hl (by simp; omega)).2 rfl
    | false =>
      rw [if_neg (by simp)] at h'
      cases h'
      cases t
      · exact (L [] [] _ ⟨st.pars.take st.nbkg ++ [0], st.cov, st.cov, [], true⟩ (by simpa using hl) (by simp [hl])).1 rfl
      · exact (L [] [] ⟨st.pars.take st.nbkg, st.cov, st.cov, [], true⟩ _ hl (by simp; omega)).2 rfl

/-- A prior for all sources, asked for while there is only one for the current selection, is written through a null
pointer. -/
theorem C124_global_violates (inv : Sym → Option Sym) (c : List ℝ) (v : Sym) (bs : List Bool) (st st' : St)
    (hg : st.globB = none) (h : step inv (.external c v bs false) st = .ok st') :
    step inv (.external c v bs true) st' = .ub := by
  have h' : buildExternal inv c v bs false st = .ok st' := h
  show buildExternal inv c v bs true st' = .ub
  unfold buildExternal at h' ⊢
  obtain ⟨p, hp, h'⟩ := Res.bind_eq_ok.1 h'
  rw [if_neg (by simp)] at h'
  obtain ⟨q, hq, h'⟩ := Res.bind_eq_ok.1 h'
  cases h'
  rw [hp, Res.bind_ok, if_pos rfl, if_pos (by simp [hg])]

/-- Such a sequence exists. -/
example : ∃ st', step inv1 (.external [1] ⟨1, fun _ _ => 4⟩ [true] false) (start 1 false) = .ok st' ∧ (start 1 false).globB = none := by
  have hi : inv1 ⟨1, fun _ _ => 4⟩ = some ⟨1, fun _ _ => 1 / 4⟩ := by simp [inv1]
  show ∃ st', buildExternal inv1 [1] ⟨1, fun _ _ => 4⟩ (List.replicate 1 true) false (start 1 false) = .ok st' ∧ _
  unfold buildExternal
  rw [updateCov_ok hi rfl rfl true, Res.bind_ok, updateCov_ok hi rfl rfl false, Res.bind_ok]
  exact ⟨_, rfl, rfl⟩

/-- C124 violated: the prior for all sources is not fitted to another selection of free sources: every likelihood
with it fails. -/
theorem C124_selection_violates (inv : Sym → Option Sym) (hI : Inverts inv) (c : List ℝ) (v : Sym) (bs free : List Bool)
    (scales : List ℝ) (test : Bool) (st st' : St) (hf : free.count true ≠ c.length)
    (h : run inv [.external c v bs true, .refactor free scales test] st = .ok st') (t : Bool) (x : List ℝ)
    (hx : x.length = npar free t) : contribution (getPrior st' .global t) x = .throws := by
  rw [run] at h
  obtain ⟨st1, e1, h⟩ := Res.bind_eq_ok.1 h
  rw [run] at h
  obtain ⟨st2, e2, h⟩ := Res.bind_eq_ok.1 h
  cases h
  rw [(C124_lifetime inv free scales test st1 st' e2 t).2.1]
  have h' : buildExternal inv c v bs true st = .ok st1 := e1
  unfold buildExternal at h'
  obtain ⟨p, hp, h'⟩ := Res.bind_eq_ok.1 h'
  rw [if_pos rfl] at h'
  have U : ∀ incl p, updateCov inv c v bs incl = .ok p → p.central = if incl then c ++ [0] else c := by
    intro incl p hp
    unfold updateCov at hp
    obtain ⟨_, _, hp⟩ := Res.bind_eq_ok.1 hp
    cases hp
    rfl
  split at h'
  · cases h'
  · obtain ⟨q, hq, h'⟩ := Res.bind_eq_ok.1 h'
    cases h'
    unfold npar at hx
    cases t with
    | true =>
      show p.logLike x = .throws
      unfold Prior.logLike
      rw [U _ _ hp, if_pos (by simp at hx ⊢; omega)]
    | false =>
      show q.logLike x = .throws
      unfold Prior.logLike
      rw [U _ _ hq, if_pos (by simp at hx ⊢; omega)]

end Verif.ScanPrior
