import Verif.StScan.Lemmas
import Verif.Binned.Props
import Verif.MapInt.Lemmas3
/-
C133: scans of normalizations in energy bins with an optimizer.
-/
set_option linter.unusedSectionVars false
set_option linter.unusedSimpArgs false
set_option linter.unusedVariables false
namespace Verif.StScan
open Spec
open Vec

theorem norms_mem {mle err : ℝ} {n : Nat} {x lo hi : ℝ} (hn : 2 ≤ n) (h : x ∈ norms mle err n) (h1 : lo ≤ first mle err)
    (h2 : first mle err ≤ hi) (h3 : lo ≤ last mle err) (h4 : last mle err ≤ hi) : lo ≤ x ∧ x ≤ hi := by
  unfold norms at h
  obtain ⟨j, hj, rfl⟩ := List.mem_map.1 h
  rw [List.mem_range] at hj
  change lo ≤ first mle err + j * ((last mle err - first mle err) / ((n : ℝ) - 1)) ∧
    first mle err + j * ((last mle err - first mle err) / ((n : ℝ) - 1)) ≤ hi
  set a := first mle err
  set b := last mle err
  have hn' : (0 : ℝ) < (n : ℝ) - 1 := by
    have : (2 : ℝ) ≤ n := by exact_mod_cast hn
    linarith
  have hj1 : (j : ℝ) ≤ (n : ℝ) - 1 := by
    have : ((j + 1 : Nat) : ℝ) ≤ n := by exact_mod_cast hj
    push_cast at this
    linarith
  have hj0 : (0 : ℝ) ≤ j := Nat.cast_nonneg j
  set t := (j : ℝ) / ((n : ℝ) - 1) with ht
  have t0 : 0 ≤ t := div_nonneg hj0 hn'.le
  have t1 : t ≤ 1 := (div_le_one hn').2 hj1
  have e : a + j * ((b - a) / ((n : ℝ) - 1)) = (1 - t) * a + t * b := by
    rw [ht]; field_simp; ring
  rw [e]
  constructor <;> nlinarith

theorem norms_length (mle err : ℝ) (n : Nat) : (norms mle err n).length = n := by unfold norms; simp

theorem norms_get {mle err : ℝ} {n j : Nat} (hj : j < n) :
    (norms mle err n)[j]? = some (first mle err + j * ((last mle err - first mle err) / ((n : ℝ) - 1))) := by
  unfold norms
  rw [List.getElem?_map, List.getElem?_range hj]
  rfl

theorem norms_last {mle err : ℝ} {n : Nat} (hn : 2 ≤ n) : (norms mle err n).getLast? = some (last mle err) := by
  rw [List.getLast?_eq_getElem?, norms_length, norms_get (by omega)]
  have h1 : ((n - 1 : Nat) : ℝ) = (n : ℝ) - 1 := by rw [Nat.cast_sub (by omega)]; simp
  have h2 : (n : ℝ) - 1 ≠ 0 := by
    have : (2 : ℝ) ≤ n := by exact_mod_cast hn
    linarith
  rw [h1]
  congr 1
  field_simp
  ring

/-- The signal after the fit, fixed. -/
theorem after_fit {f : Fitter} (hf : Respects f) {k : List (Nat × Nat)} {ps : List Par} {i : Nat} {p : Par} (hp : ps[i]? = some p) :
    ∃ m, (f.minimize k (flagged ps i true)).1[i]? = some m ∧ m.lo = p.lo ∧ m.hi = p.hi ∧ m.free = true ∧
      Frame ((f.minimize k (flagged ps i true)).1.set i { m with free := false })
        (flagged (f.minimize k (flagged ps i true)).1 i false) ∧
      flagged (f.minimize k (flagged ps i true)).1 i false = (f.minimize k (flagged ps i true)).1.set i { m with free := false } := by
  obtain ⟨m, m1, m2, m3, m4, _⟩ := (hf.minimize k (flagged ps i true)).some (flagged_get true hp)
  have e : flagged (f.minimize k (flagged ps i true)).1 i false = (f.minimize k (flagged ps i true)).1.set i { m with free := false } := by
    unfold flagged at m1 ⊢
    rw [List.modify_eq_set_getElem?, m1]
    rfl
  exact ⟨m, m1, m2, m3, m4, by rw [e]; exact Frame.refl _, e⟩

/-! ### One scan -/

/-- C133: a scan of one likelihood over the energy bins from `kmin` up to `kmax` gives equally spaced normalizations, and for each of them the log
likelihood in these bins with the normalization of the source at this value; if no other parameter is free all others have their best values,
otherwise they are those found by the optimizer.  `_partial`: it ends with the normalization at the last value of the scan
(`C133_left_violates`), the range is that of the first free parameter (`C133_error_violates`), and all normalizations must be within
the bounds of the parameter (`C133_bounds_violates`). -/
theorem C133_scan_partial (f : Fitter) (hf : Respects f) (i kmin kmax n : Nat) (st : St) (p m : Par) (hp : st.pars[i]? = some p)
    (hm : (f.minimize [(kmin, kmax)] (flagged st.pars i true)).1[i]? = some m) (err : ℝ)
    (he : (f.minimize [(kmin, kmax)] (flagged st.pars i true)).2[0]? = some err) (hn : 2 ≤ n)
    (h1 : p.lo ≤ first m.value err ∧ first m.value err ≤ p.hi) (h2 : p.lo ≤ last m.value err ∧ last m.value err ≤ p.hi) :
    ∃ s r, scanNorm .single f i kmin kmax n st = .ok (.done s r) ∧ s.klims = [(kmin, kmax)] ∧ r.mle = m.value ∧
      r.logLike = f.value [(kmin, kmax)] ((f.minimize [(kmin, kmax)] (flagged st.pars i true)).1.map (·.value)) ∧
      r.norms.length = n ∧ r.logLikes.length = n ∧
      (∀ j, j < n → ∃ x, r.norms[j]? = some x ∧
        x = first m.value err + j * ((last m.value err - first m.value err) / ((n : ℝ) - 1)) ∧
        ∃ qs, Frame ((f.minimize [(kmin, kmax)] (flagged st.pars i true)).1.set i { m with value := x, free := false }) qs ∧
          r.logLikes[j]? = some (f.value [(kmin, kmax)] (qs.map (·.value))) ∧
          ((flagged st.pars i true).countP (·.free) = 1 →
            qs = (f.minimize [(kmin, kmax)] (flagged st.pars i true)).1.set i { m with value := x, free := false })) ∧
      ∃ q, s.pars[i]? = some q ∧ q.free = true ∧ q.value = last m.value err := by
  set M := f.minimize [(kmin, kmax)] (flagged st.pars i true) with hM
  obtain ⟨m', a1, a2, a3, a4, a5, a6⟩ := after_fit hf (k := [(kmin, kmax)]) hp
  rw [← hM] at a1 a5 a6
  rw [hm] at a1
  cases a1
  have hi : i < M.1.length := (List.getElem?_eq_some_iff.1 hm).1
  have hcount : countFree M.2 M.1 0 = .ok ((flagged st.pars i true).countP (·.free)) := by
    have e : M.1.countP (·.free) = (flagged st.pars i true).countP (·.free) := frame_countP (hf.minimize _ _)
    rw [countFree_ok _ _ _ (by rw [e, Nat.zero_add, hM, hf.uncertainties]), e, Nat.zero_add]
  have hset : M.1.set i { m with free := false } = M.1.set i { ({ m with free := false } : Par) with value := m.value } := rfl
  obtain ⟨s, ls, r1, r2, r3, r4, w, r5, r6⟩ := points_ok f hf ((flagged st.pars i true).countP (·.free)) i M.1 { m with free := false } hi rfl
    (norms m.value err n) ⟨flagged M.1 i false, [(kmin, kmax)]⟩ m.value (by rw [← hset]; exact a5) (by
      intro x hx
      simp only
      rw [a2, a3]
      exact norms_mem hn hx h1.1 h1.2 h2.1 h2.2)
  have hw := r6 _ (norms_last hn)
  have hb : (M.1.set i { ({ m with free := false } : Par) with value := w })[i]? = some { ({ m with free := false } : Par) with value := w } := by
    rw [List.getElem?_set]; simp [hi]
  obtain ⟨c, c1, c2, c3, c4, c5⟩ := r5.some hb
  refine ⟨⟨setFree s.pars i true, s.klims⟩, ⟨norms m.value err n, m.value, f.value [(kmin, kmax)] (M.1.map (·.value)), ls⟩, ?_, r2, rfl, rfl,
    norms_length _ _ _, by rw [r3, norms_length], ?_, { c with free := true }, ?_, rfl, ?_⟩
  · unfold scanNorm setKlims
    simp only [Res.bind_ok]
    obtain ⟨hlt, hx⟩ := List.getElem?_eq_some_iff.1 hp
    rw [vget_lt _ _ hlt, Res.bind_ok, flagged_eq, ← hM, hcount, Res.bind_ok, vget_eq_ok.2 hm, Res.bind_ok, vget_eq_ok.2 he, Res.bind_ok,
      flagged_eq]
    simp only [r1]
  · intro j hj
    refine ⟨_, norms_get hj, rfl, ?_⟩
    obtain ⟨qs, q1, q2, q3⟩ := r4 j _ (norms_get hj)
    exact ⟨qs, q1, q2, fun h => q3 (by omega) a6⟩
  · exact flagged_get true c1
  · simp only
    rw [c5 rfl, hw]

/-- An optimizer for examples: it does nothing and gives uncertainties of one tenth. -/
noncomputable def idle : Fitter where
  value := fun _ v => -(v.sum)
  minimize := fun _ ps => (ps, List.replicate (ps.countP (·.free)) (1 / 10))
  reminimize := fun _ ps => ps

theorem idle_respects : Respects idle where
  minimize := fun _ ps => Frame.refl ps
  uncertainties := fun _ ps => by simp [idle]
  reminimize := fun _ ps => Frame.refl ps

/-- A case in which the hypotheses hold. -/
example : ∃ s r, scanNorm .single idle 0 1 2 5 ⟨[⟨3, 0, 10, false⟩, ⟨1, 0, 10, false⟩], [(0, 4)]⟩ = .ok (.done s r) ∧ r.mle = 3 := by
  obtain ⟨s, r, h, _, h', _⟩ := C133_scan_partial idle idle_respects 0 1 2 5 ⟨[⟨3, 0, 10, false⟩, ⟨1, 0, 10, false⟩], [(0, 4)]⟩
    ⟨3, 0, 10, false⟩ ⟨3, 0, 10, true⟩ rfl rfl (1 / 10) (by simp [idle, flagged]) (by norm_num)
    ⟨by norm_num [first], by norm_num [first]⟩ ⟨by norm_num [last], by norm_num [last]⟩
  exact ⟨s, r, h, h'⟩

/-- C133 violated: a scan leaves the normalization at its highest value, at least 2.5, and the energy bins restricted. -/
theorem C133_left_violates (f : Fitter) (hf : Respects f) (i kmin kmax n : Nat) (st : St) (p m : Par) (hp : st.pars[i]? = some p)
    (hm : (f.minimize [(kmin, kmax)] (flagged st.pars i true)).1[i]? = some m) (err : ℝ)
    (he : (f.minimize [(kmin, kmax)] (flagged st.pars i true)).2[0]? = some err) (hn : 2 ≤ n)
    (h1 : p.lo ≤ first m.value err ∧ first m.value err ≤ p.hi) (h2 : p.lo ≤ last m.value err ∧ last m.value err ≤ p.hi) :
    ∃ s r, scanNorm .single f i kmin kmax n st = .ok (.done s r) ∧ ∃ q, s.pars[i]? = some q ∧ 2.5 ≤ q.value ∧
      (0 < err → r.mle < q.value) := by
  obtain ⟨s, r, a1, _, a3, _, _, _, _, q, b1, b2, b3⟩ := C133_scan_partial f hf i kmin kmax n st p m hp hm err he hn h1 h2
  refine ⟨s, r, a1, q, b1, by rw [b3]; exact le_max_left _ _, fun h => ?_⟩
  rw [a3, b3]
  exact lt_of_lt_of_le (by linarith) (le_max_right _ _)

/-- C133 violated: the range of a scan is given by the uncertainty of the first free parameter, whichever source it belongs
to: if that of the scanned normalization is another one, the scan starts elsewhere. -/
theorem C133_error_violates (f : Fitter) (hf : Respects f) (i kmin kmax n : Nat) (st : St) (p m : Par) (hp : st.pars[i]? = some p)
    (hm : (f.minimize [(kmin, kmax)] (flagged st.pars i true)).1[i]? = some m) (err own : ℝ)
    (he : (f.minimize [(kmin, kmax)] (flagged st.pars i true)).2[0]? = some err)
    (ho : (f.minimize [(kmin, kmax)] (flagged st.pars i true)).2[((flagged st.pars i true).take i).countP (·.free)]? = some own)
    (hne : own ≠ err) (hpos : 1e-10 < m.value - 10 * own) (hn : 2 ≤ n)
    (h1 : p.lo ≤ first m.value err ∧ first m.value err ≤ p.hi) (h2 : p.lo ≤ last m.value err ∧ last m.value err ≤ p.hi) :
    ∃ s r x, scanNorm .single f i kmin kmax n st = .ok (.done s r) ∧ r.norms[0]? = some x ∧ x ≠ m.value - 10 * own := by
  obtain ⟨s, r, a1, _, _, _, _, _, a4, _⟩ := C133_scan_partial f hf i kmin kmax n st p m hp hm err he hn h1 h2
  obtain ⟨x, x1, x2, _⟩ := a4 0 (by omega)
  refine ⟨s, r, x, a1, x1, ?_⟩
  rw [x2]
  simp only [Nat.cast_zero, zero_mul, add_zero]
  unfold first
  intro h
  rcases max_choice (1e-10 : ℝ) (m.value - 10 * err) with c | c
  · rw [c] at h
    linarith
  · rw [c] at h
    exact hne (by linarith)

/-- Uncertainties that differ, for examples. -/
noncomputable def uneven : Fitter where
  value := fun _ v => -(v.sum)
  minimize := fun _ ps => (ps, (List.range (ps.countP (·.free))).map (fun j : Nat => if j = 0 then 1 / 10 else 2 / 10))
  reminimize := fun _ ps => ps

theorem uneven_respects : Respects uneven where
  minimize := fun _ ps => Frame.refl ps
  uncertainties := fun _ ps => by simp [uneven]
  reminimize := fun _ ps => Frame.refl ps

/-- A case in which the hypotheses hold: the second of two free parameters is scanned. -/
example : ∃ s r x, scanNorm .single uneven 1 0 1 3 ⟨[⟨1, 0, 10, true⟩, ⟨5, 0, 10, true⟩], [(0, 4)]⟩ = .ok (.done s r) ∧
    r.norms[0]? = some x ∧ x ≠ 5 - 10 * (2 / 10) :=
  C133_error_violates uneven uneven_respects 1 0 1 3 ⟨[⟨1, 0, 10, true⟩, ⟨5, 0, 10, true⟩], [(0, 4)]⟩ ⟨5, 0, 10, true⟩ ⟨5, 0, 10, true⟩ rfl rfl
    (1 / 10) (2 / 10) (by simp [uneven, flagged, List.range_succ]) (by simp [uneven, flagged, List.range_succ]) (by norm_num) (by norm_num) (by norm_num)
    ⟨by norm_num [first], by norm_num [first]⟩ ⟨by norm_num [last], by norm_num [last]⟩

/-- C133 violated: a source whose normalization may not reach 2.5 cannot be scanned: whatever the fit gives there is an exception, after
which the normalization is fixed and the likelihood is restricted to the energy bins of the scan. -/
theorem C133_bounds_violates (f : Fitter) (hf : Respects f) (i kmin kmax n : Nat) (st : St) (p : Par) (hp : st.pars[i]? = some p)
    (hh : p.hi < 2.5) (hn : 2 ≤ n) :
    ∃ s, scanNorm .single f i kmin kmax n st = .ok (.thrown s) ∧ s.klims = [(kmin, kmax)] ∧
      ∃ q, s.pars[i]? = some q ∧ q.free = false := by
  set M := f.minimize [(kmin, kmax)] (flagged st.pars i true) with hM
  obtain ⟨m, a1, a2, a3, a4, a5, a6⟩ := after_fit hf (k := [(kmin, kmax)]) hp
  rw [← hM] at a1 a5 a6
  have hi : i < M.1.length := (List.getElem?_eq_some_iff.1 a1).1
  have hcp : 0 < (flagged st.pars i true).countP (·.free) := by
    rw [List.countP_pos_iff]
    exact ⟨_, List.mem_of_getElem? (flagged_get true hp), rfl⟩
  have hcount : countFree M.2 M.1 0 = .ok ((flagged st.pars i true).countP (·.free)) := by
    have e : M.1.countP (·.free) = (flagged st.pars i true).countP (·.free) := frame_countP (hf.minimize _ _)
    rw [countFree_ok _ _ _ (by rw [e, Nat.zero_add, hM, hf.uncertainties]), e, Nat.zero_add]
  obtain ⟨err, he⟩ : ∃ err, M.2[0]? = some err := by
    have : 0 < M.2.length := by rw [hM, hf.uncertainties]; exact hcp
    exact ⟨_, List.getElem?_eq_getElem this⟩
  have hset : M.1.set i { m with free := false } = M.1.set i { ({ m with free := false } : Par) with value := m.value } := rfl
  obtain ⟨s, r1, r2, w, r3⟩ := points_thrown f hf ((flagged st.pars i true).countP (·.free)) i M.1 { m with free := false } hi rfl
    (norms m.value err n) ⟨flagged M.1 i false, [(kmin, kmax)]⟩ m.value (by rw [← hset]; exact a5) (by
      refine ⟨last m.value err, List.mem_of_getLast? (norms_last hn), ?_⟩
      simp only
      rw [a3]
      intro h
      have := le_max_left (2.5 : ℝ) (m.value + 10 * err)
      have h' : last m.value err ≤ p.hi := h.2
      unfold last at h'
      linarith)
  have hb : (M.1.set i { ({ m with free := false } : Par) with value := w })[i]? = some { ({ m with free := false } : Par) with value := w } := by
    rw [List.getElem?_set]; simp [hi]
  obtain ⟨c, c1, c2, c3, c4, c5⟩ := r3.some hb
  refine ⟨s, ?_, r2, c, c1, c4⟩
  unfold scanNorm setKlims
  simp only [Res.bind_ok]
  obtain ⟨hlt, hx⟩ := List.getElem?_eq_some_iff.1 hp
  rw [vget_lt _ _ hlt, Res.bind_ok, flagged_eq, ← hM, hcount, Res.bind_ok, vget_eq_ok.2 a1, Res.bind_ok, vget_eq_ok.2 he, Res.bind_ok,
    flagged_eq]
  simp only [r1]

example : ∃ s, scanNorm .single idle 0 1 2 5 ⟨[⟨1, 0, 2, false⟩], [(0, 4)]⟩ = .ok (.thrown s) := by
  obtain ⟨s, h, _⟩ := C133_bounds_violates idle idle_respects 0 1 2 5 ⟨[⟨1, 0, 2, false⟩], [(0, 4)]⟩ ⟨1, 0, 2, false⟩ rfl (by norm_num) (by norm_num)
  exact ⟨s, h⟩

/-! ### All energy bins -/

theorem scanNorm_klims {w : Like} {f : Fitter} {i kmin kmax n : Nat} {st s : St} {r : Scan}
    (h : scanNorm w f i kmin kmax n st = .ok (.done s r)) : ∃ s0, setKlims w kmin kmax st = .ok s0 ∧
      ∀ l, r.logLikes = l → r.logLikes.length = r.norms.length := by
  unfold scanNorm at h
  obtain ⟨s0, h1, h⟩ := Res.bind_eq_ok.1 h
  refine ⟨s0, h1, fun l _ => ?_⟩
  obtain ⟨_, h2, h⟩ := Res.bind_eq_ok.1 h
  obtain ⟨nf, h3, h⟩ := Res.bind_eq_ok.1 h
  obtain ⟨p, h4, h⟩ := Res.bind_eq_ok.1 h
  obtain ⟨e, h5, h⟩ := Res.bind_eq_ok.1 h
  have key : ∀ (xs : List ℝ) (st s : St) (ls : List ℝ), points f nf i xs st = (s, some ls) → ls.length = xs.length := by
    intro xs
    induction xs with
    | nil =>
      intro st s ls h
      rw [points] at h
      cases h
      rfl
    | cons x xs ih =>
      intro st s ls h
      rw [points] at h
      split at h
      · cases h
      · rename_i ps _
        simp only [Prod.mk.injEq] at h
        obtain ⟨_, h2⟩ := h
        obtain ⟨l, l1, l2⟩ := Option.map_eq_some_iff.1 h2
        rw [← l2, List.length_cons, List.length_cons, ih _ _ l (Prod.ext rfl l1)]
  simp only at h
  split at h
  · cases h
  · rename_i s' ls hp
    cases h
    exact key _ _ _ _ hp

/-- C133: the results for energies are those of one scan per energy bin `k`, in the bins from `k` up to `k + 1`, each started from the state that
the scan before leaves, one set of results per bin. -/
theorem C133_bins (w : Like) (f : Fitter) (i n nE : Nat) (st s : St) (rs : List Scan)
    (h : sedBinned w f i n nE st = .ok (.done s rs)) :
    rs.length = nE ∧ ∃ sts : List St, sts.length = nE + 1 ∧ sts[0]? = some st ∧
      (∀ k, k < nE → ∃ a b r, sts[k]? = some a ∧ sts[k + 1]? = some b ∧ rs[k]? = some r ∧
        scanNorm w f i k (k + 1) n a = .ok (.done b r) ∧ r.logLikes.length = r.norms.length) ∧
      ∃ e, sts[nE]? = some e ∧ s.pars = e.pars := by
  have key : ∀ (m k : Nat) (st s : St) (rs : List Scan), bins w f i n m k st = .ok (.done s rs) →
      rs.length = m ∧ ∃ sts : List St, sts.length = m + 1 ∧ sts[0]? = some st ∧ sts[m]? = some s ∧
        ∀ j, j < m → ∃ a b r, sts[j]? = some a ∧ sts[j + 1]? = some b ∧ rs[j]? = some r ∧
          scanNorm w f i (k + j) (k + j + 1) n a = .ok (.done b r) := by
    intro m
    induction m with
    | zero =>
      intro k st s rs h
      rw [bins] at h
      cases h
      exact ⟨rfl, [st], rfl, rfl, rfl, fun j hj => absurd hj (by omega)⟩
    | succ m ih =>
      intro k st s rs h
      rw [bins] at h
      obtain ⟨r, h1, h⟩ := Res.bind_eq_ok.1 h
      cases r with
      | thrown t => cases h
      | done t a =>
        simp only at h
        obtain ⟨r', h2, h⟩ := Res.bind_eq_ok.1 h
        cases r' with
        | thrown t => cases h
        | done t' as =>
          cases h
          obtain ⟨e1, sts, e2, e3, e4, e5⟩ := ih (k + 1) t s as h2
          refine ⟨by simp [e1], st :: sts, by simp [e2], rfl, by rw [List.getElem?_cons_succ]; exact e4, ?_⟩
          intro j hj
          cases j with
          | zero => exact ⟨st, t, a, rfl, by rw [List.getElem?_cons_succ]; exact e3, rfl, h1⟩
          | succ j =>
            obtain ⟨x, y, z, z1, z2, z3, z4⟩ := e5 j (by omega)
            refine ⟨x, y, z, by rw [List.getElem?_cons_succ]; exact z1, by rw [List.getElem?_cons_succ]; exact z2,
              by rw [List.getElem?_cons_succ]; exact z3, ?_⟩
            rw [show k + (j + 1) = k + 1 + j by omega]
            exact z4
  unfold sedBinned at h
  obtain ⟨r, h1, h⟩ := Res.bind_eq_ok.1 h
  cases r with
  | thrown t => cases h
  | done t as =>
    simp only at h
    obtain ⟨s', h2, h⟩ := Res.bind_eq_ok.1 h
    cases h
    obtain ⟨e1, sts, e2, e3, e4, e5⟩ := key nE 0 st t rs h1
    refine ⟨e1, sts, e2, e3, ?_, t, e4, ?_⟩
    · intro k hk
      obtain ⟨x, y, z, z1, z2, z3, z4⟩ := e5 k hk
      rw [Nat.zero_add] at z4
      exact ⟨x, y, z, z1, z2, z3, z4, (scanNorm_klims z4).choose_spec.2 _ rfl⟩
    · unfold setKlims at h2
      cases w with
      | single => cases h2; rfl
      | summed b m =>
        simp only at h2
        obtain ⟨r, _, h3⟩ := Res.bind_eq_ok.1 h2
        cases h3
        rfl

theorem idle_scan (k : Nat) (kl : List (Nat × Nat)) (x : ℝ) (h0 : 0 ≤ x) (h1 : x ≤ 5) :
    ∃ s r, scanNorm .single idle 0 k (k + 1) 2 ⟨[⟨x, 0, 10, true⟩], kl⟩ = .ok (.done s r) := by
  have hl : last x (1 / 10) ≤ 10 := by unfold last; exact max_le (by norm_num) (by linarith)
  have hf' : first x (1 / 10) ≤ 10 := by unfold first; exact max_le (by norm_num) (by linarith)
  obtain ⟨s, r, h, _⟩ := C133_scan_partial idle idle_respects 0 k (k + 1) 2 ⟨[⟨x, 0, 10, true⟩], kl⟩ ⟨x, 0, 10, true⟩ ⟨x, 0, 10, true⟩ rfl rfl
    (1 / 10) (by simp [idle, flagged]) (by norm_num)
    ⟨le_max_of_le_left (by norm_num), hf'⟩ ⟨le_max_of_le_left (by norm_num), hl⟩
  exact ⟨s, r, h⟩

/-- A case in which the hypotheses hold. -/
example : ∃ s rs, sedBinned .single idle 0 2 1 ⟨[⟨1, 0, 10, true⟩], [(0, 1)]⟩ = .ok (.done s rs) := by
  obtain ⟨s, r, h⟩ := idle_scan 0 [(0, 1)] 1 (by norm_num) (by norm_num)
  unfold sedBinned
  rw [bins, h, Res.bind_ok]
  simp only [bins, Res.bind_ok, setKlims]
  exact ⟨_, _, rfl⟩

/-- C133 violated: after a scan of all `nE` energy bins one likelihood is left with one bin more than it has. -/
theorem C133_range_violates (f : Fitter) (i n nE : Nat) (st s : St) (rs : List Scan)
    (h : sedBinned .single f i n nE st = .ok (.done s rs)) : s.klims = [(0, nE + 1)] := by
  unfold sedBinned at h
  obtain ⟨r, h1, h⟩ := Res.bind_eq_ok.1 h
  cases r with
  | thrown t => cases h
  | done t as =>
    simp only [setKlims, Res.bind_ok] at h
    cases h
    rfl

/-- C133 violated: with this range the next evaluation of the likelihood, after any history, is undefined. -/
theorem C133_reset_violates {ν : Type} [LinearOrder ν] (e : Binned.Env)
    (he : e.Ok) (hev : 0 ≤ e.ev)
    (L : ν → Bool × (Nat → List ℝ)) (ops : List (Binned.Op ν)) (hc : Binned.CoveredRun e L (Binned.Ideal.new e) ops) :
    ∃ st, Binned.run e (Binned.St.new e) ops = .ok st ∧ Binned.value e (Binned.setKlims st 0 (e.nebins + 1)) = .ub := by
  obtain ⟨st, h1, h⟩ := Binned.run_rel he hev ops _ _ (Binned.rel_new (e := e) (L := L)) hc
  refine ⟨st, h1, ?_⟩
  have hi : Binned.Inv e L (Binned.setKlims st 0 (e.nebins + 1)) := ⟨h.inv.sorted, h.inv.sortedM, h.inv.src, h.inv.map, h.inv.cacheEv,
    h.inv.nodup, h.inv.fixedIn, h.inv.countsLen, h.inv.countsVal, h.inv.sized, h.inv.specVal⟩
  obtain ⟨st1, u1, u2, u3, u4, u5, u6, u7⟩ := Binned.updateFixed_ok hi he hev
  have hcopy : Binned.copyOnZeros st1.fixedCounts e.filled.length = .ok st1.fixedCounts := by
    unfold Binned.copyOnZeros
    rw [if_pos (by rw [u2.countsLen]), u2.countsLen]; simp
  have hfix : Binned.fixedNpred st1 true = .ub := by
    unfold Binned.fixedNpred
    rw [show st1.kmin = 0 from u4, show st1.kmax = e.nebins + 1 from u5]
    apply MapInt.loop_ub (k := e.nebins) (by omega)
    · intro k acc h1 h2
      simp only [if_true]
      rw [vget_lt _ _ (by rw [u2.sized.edispWt]; omega), Res.bind_ok]
      exact ⟨_, rfl⟩
    · intro acc
      simp only [if_true]
      rw [vget_ge _ _ (by rw [u2.sized.edispWt]; omega), Res.bind_ub]
  unfold Binned.value Binned.computeModel
  rw [u1, Res.bind_ok, hcopy, Res.bind_ok, hfix, Res.bind_ub, Res.bind_ub]

/-- A case in which the hypotheses hold. -/
example : ∃ st, Binned.run Binned.toy (Binned.St.new Binned.toy) Binned.toyOps = .ok st ∧
    Binned.value Binned.toy (Binned.setKlims st 0 2) = .ub :=
  C133_reset_violates Binned.toy Binned.toy_ok (by decide) Binned.toyL Binned.toyOps Binned.toyOps_covered

/-- C133 violated: in a sum of likelihoods the range of every component is empty, for every range asked for. -/
theorem C133_summed_violates (bins : List (List Int)) (n kmin kmax : Nat) (st s : St)
    (h : setKlims (.summed bins n) kmin kmax st = .ok s) : s.klims.length = n ∧ ∀ r ∈ s.klims, r.1 = r.2 := by
  unfold setKlims at h
  obtain ⟨r, h1, h2⟩ := Res.bind_eq_ok.1 h
  cases h2
  have key : ∀ (l : List Nat) (r : List (Nat × Nat)), l.mapM (fun i => localRange bins kmin i) = .ok r →
      r.length = l.length ∧ ∀ x ∈ r, x.1 = x.2 := by
    intro l
    induction l with
    | nil => intro r h; rw [List.mapM_nil] at h; cases h; simp
    | cons a l ih =>
      intro r h
      rw [List.mapM_cons] at h
      obtain ⟨x, h1, h⟩ := Res.bind_eq_ok.1 h
      obtain ⟨y, h2, h⟩ := Res.bind_eq_ok.1 h
      cases h
      obtain ⟨i1, i2⟩ := ih y h2
      refine ⟨by simp [i1], ?_⟩
      intro z hz
      rcases List.mem_cons.1 hz with e | e
      · subst e
        unfold localRange at h1
        obtain ⟨row, g1, h1⟩ := Res.bind_eq_ok.1 h1
        obtain ⟨a1, g2, h1⟩ := Res.bind_eq_ok.1 h1
        obtain ⟨row', g3, h1⟩ := Res.bind_eq_ok.1 h1
        obtain ⟨b1, g4, h1⟩ := Res.bind_eq_ok.1 h1
        rw [g1] at g3
        cases g3
        rw [g2] at g4
        cases g4
        split at h1
        · cases h1; rfl
        · cases h1; rfl
      · exact i2 z e
  obtain ⟨k1, k2⟩ := key _ _ h1
  exact ⟨by simpa using k1, k2⟩

example : setKlims (.summed [[0, 1], [1, -1]] 2) 0 1 ⟨[], []⟩ = .ok ⟨[], [(0, 0), (1, 1)]⟩ := rfl

/-- C133 violated: for such a component no bin contributes to the log likelihood, after any history: a scan of a
sum is flat. -/
theorem C133_flat_violates {ν : Type} [LinearOrder ν] (e : Binned.Env)
    (he : e.Ok) (hev : 0 ≤ e.ev)
    (L : ν → Bool × (Nat → List ℝ)) (ops : List (Binned.Op ν)) (hc : Binned.CoveredRun e L (Binned.Ideal.new e) ops) (k : Nat)
    (hk : k ≤ e.nebins) :
    ∃ st st', Binned.run e (Binned.St.new e) ops = .ok st ∧ Binned.value e (Binned.setKlims st k k) = .ok (st',
      (((Binned.Ideal.new e).run ops).srcs.map (fun x => (x.2.pars.map (fun p => p.logPrior p.value)).sum)).sum) := by
  obtain ⟨st, h1, h⟩ := Binned.run_rel he hev ops _ _ (Binned.rel_new (e := e) (L := L)) hc
  have hi : Binned.Inv e L (Binned.setKlims st k k) := ⟨h.inv.sorted, h.inv.sortedM, h.inv.src, h.inv.map, h.inv.cacheEv,
    h.inv.nodup, h.inv.fixedIn, h.inv.countsLen, h.inv.countsVal, h.inv.sized, h.inv.specVal⟩
  obtain ⟨st', v, _⟩ := Binned.value_ok hi he hev hk
  refine ⟨st, st', h1, ?_⟩
  rw [v]
  unfold Binned.logLike
  rw [show (Binned.setKlims st k k).kmin = k from rfl, show (Binned.setKlims st k k).kmax = k from rfl, Finset.Ico_self, Finset.sum_empty,
    zero_add, show (Binned.setKlims st k k).srcs = st.srcs from rfl, h.srcs]

/-- A case in which the hypotheses hold. -/
example : ∃ st st', Binned.run Binned.toy (Binned.St.new Binned.toy) Binned.toyOps = .ok st ∧
    Binned.value Binned.toy (Binned.setKlims st 0 0) = .ok (st',
      (((Binned.Ideal.new Binned.toy).run Binned.toyOps).srcs.map (fun x => (x.2.pars.map (fun p => p.logPrior p.value)).sum)).sum) :=
  C133_flat_violates Binned.toy Binned.toy_ok (by decide) Binned.toyL Binned.toyOps Binned.toyOps_covered 0 (by decide)

/-! ### Free parameters -/

theorem freeNorms_get {ν : Type} [DecidableEq ν] (b : Bool) (ns : List ν) (m m' : List (ν × Flags))
    (h : freeNorms b ns m = .ok m') : (∀ n ∈ ns, n ∈ m.map (·.1)) ∧ m'.length = m.length ∧
      ∀ (j : Nat) (x : ν × Flags), m[j]? = some x → ∃ y : ν × Flags, m'[j]? = some y ∧ y.1 = x.1 ∧ y.2.norm = x.2.norm ∧ y.2.free.length = x.2.free.length ∧
        ∀ i : Nat, i < x.2.free.length → y.2.free[i]? = some (if x.1 ∈ ns ∧ i = x.2.norm then b else x.2.free.getD i false) := by
  induction ns generalizing m with
  | nil =>
    rw [freeNorms] at h
    cases h
    refine ⟨by simp, rfl, fun j x hx => ⟨x, hx, rfl, rfl, rfl, fun i hi => ?_⟩⟩
    simp [hi]
  | cons n ns ih =>
    rw [freeNorms] at h
    split at h
    · rename_i hn
      obtain ⟨h1, h2, h3⟩ := ih _ h
      have hkeys : (m.map (fun x => if x.1 = n then (x.1, ({ x.2 with free := x.2.free.set x.2.norm b } : Flags)) else x)).map (·.1) = m.map (·.1) := by
        rw [List.map_map]
        apply List.map_congr_left
        intro x _
        simp only [Function.comp]
        split <;> rfl
      rw [hkeys] at h1
      refine ⟨fun k hk => ?_, by rw [h2, List.length_map], fun j x hx => ?_⟩
      · rcases List.mem_cons.1 hk with e | e
        · rw [e]; exact hn
        · exact h1 k e
      · obtain ⟨y, y1, y2, y3, y4, y5⟩ := h3 j _ (by rw [List.getElem?_map, hx]; rfl)
        by_cases hxn : x.1 = n
        · simp only [if_pos hxn] at y2 y3 y4 y5
          rw [List.length_set] at y4 y5
          refine ⟨y, y1, y2, y3, y4, fun i hi => ?_⟩
          rw [y5 i hi]
          congr 1
          by_cases hin : i = x.2.norm
          · subst hin
            simp [hxn, hi]
          · have hin' : ¬ x.2.norm = i := fun h => hin h.symm
            simp [hin, hin', List.getElem?_set]
        · simp only [if_neg hxn] at y2 y3 y4 y5
          refine ⟨y, y1, y2, y3, y4, fun i hi => ?_⟩
          rw [y5 i hi]
          simp [hxn]
    · cases h

/-- C133: freezing all parameters and freeing the normalizations of some sources leaves exactly the normalizations of
these sources free. -/
theorem C133_free {ν : Type} [DecidableEq ν] (m : List (ν × Flags)) (ns : List ν) (hns : ∀ n ∈ ns, n ∈ m.map (·.1)) :
    ∃ m', freeNorms true ns (freezeAll m) = .ok m' ∧ m'.length = m.length ∧
      ∀ (j : Nat) (n : ν) (s : Flags), m[j]? = some (n, s) → ∃ s' : Flags, m'[j]? = some (n, s') ∧ s'.norm = s.norm ∧ s'.free.length = s.free.length ∧
        ∀ i : Nat, i < s.free.length → (s'.free[i]? = some true ↔ n ∈ ns ∧ i = s.norm) := by
  have tot : ∀ (ns : List ν) (m : List (ν × Flags)), (∀ n ∈ ns, n ∈ m.map (·.1)) → ∃ m', freeNorms true ns m = .ok m' := by
    intro ns
    induction ns with
    | nil => intro m _; exact ⟨m, rfl⟩
    | cons n ns ih =>
      intro m h
      rw [freeNorms, if_pos (h n List.mem_cons_self)]
      apply ih
      intro k hk
      have := h k (List.mem_cons_of_mem _ hk)
      obtain ⟨x, x1, x2⟩ := List.mem_map.1 this
      rw [List.map_map]
      refine List.mem_map.2 ⟨x, x1, ?_⟩
      simp only [Function.comp]
      split <;> exact x2
  have hk : (freezeAll m).map (·.1) = m.map (·.1) := by
    unfold freezeAll
    rw [List.map_map]
    rfl
  obtain ⟨m', h⟩ := tot ns (freezeAll m) (by rw [hk]; exact hns)
  obtain ⟨h1, h2, h3⟩ := freeNorms_get true ns _ m' h
  refine ⟨m', h, by rw [h2]; simp [freezeAll], fun j n s hj => ?_⟩
  obtain ⟨⟨y1, y2⟩, g1, g2, g3, g4, g5⟩ := h3 j (n, freezeSource s) (by unfold freezeAll; rw [List.getElem?_map, hj]; rfl)
  simp only [freezeSource, List.length_map] at g2 g3 g4 g5
  subst g2
  refine ⟨y2, g1, g3, g4, fun i hi => ?_⟩
  rw [g5 i hi]
  by_cases c : y1 ∈ ns ∧ i = s.norm
  · simp [c]
  · simp only [if_neg c, Option.some.injEq, List.getD_eq_getElem?_getD, List.getElem?_map]
    constructor
    · intro h
      cases e : s.free[i]? <;> simp [e] at h
    · intro h
      exact absurd h c

example : freeNorms true [1] (freezeAll [(0, ⟨[true, true], 0⟩), (1, ⟨[false, true], 0⟩)]) =
    .ok [(0, ⟨[false, false], 0⟩), (1, ⟨[true, false], 0⟩)] := rfl

/-- C133: a source that is not in the model is undefined behaviour. -/
theorem C133_unknown {ν : Type} [DecidableEq ν] (b : Bool) (m : List (ν × Flags)) (ns : List ν) (n : ν) (hn : n ∈ ns)
    (h : n ∉ m.map (·.1)) : freeNorms b ns m = .ub := by
  cases e : freeNorms b ns m with
  | ok m' => exact absurd ((freeNorms_get b ns m m' e).1 n hn) h
  | ub => rfl
  | throws =>
    exfalso
    induction ns generalizing m with
    | nil => cases e
    | cons k ns ih =>
      rw [freeNorms] at e
      split at e
      · rename_i hk
        have key : ∀ (ns : List ν) (m : List (ν × Flags)), freeNorms b ns m ≠ .throws := by
          intro ns
          induction ns with
          | nil => intro m h; cases h
          | cons k ns ih =>
            intro m h
            rw [freeNorms] at h
            split at h
            · exact ih _ h
            · cases h
        exact key _ _ e
      · cases e

example : freeNorms true [1] [(0, ⟨[true, true], 0⟩)] = .ub := rfl

end Verif.StScan
