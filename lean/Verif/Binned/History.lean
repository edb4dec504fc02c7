import Verif.Binned.Calculus
set_option linter.unusedVariables false
set_option linter.unusedSimpArgs false
set_option linter.unusedSectionVars false
namespace Verif.Binned

open Verif.Vec Verif.Edisp Verif.Drm
open Verif.StdMap (find put erase keys)
open scoped BigOperators

variable {ν : Type} [LinearOrder ν] {e : Env} {L : ν → Bool × (Nat → List ℝ)} {st : St ν}

/-- The object stands for the ideal one. -/
structure Rel (e : Env) (L : ν → Bool × (Nat → List ℝ)) (a : Ideal ν) (st : St ν) : Prop where
  inv : Inv e L st
  srcs : st.srcs = a.srcs
  kmin : st.kmin = a.kmin
  kmax : st.kmax = a.kmax
  range : st.kmax ≤ e.nebins
  modelLen : st.current = true → st.model.length = e.filled.length
  latched : ∀ n ∈ st.fixedNames, n ∉ a.changed → ∀ σ m, find st.srcs n = some σ →
    find st.maps n = some m → m.latched = σ.vals
  fresh : a.stale = false → st.current = false ∨ Evaluated e st

theorem rel_new : Rel e L (Ideal.new e) (St.new e : St ν) := by
  refine ⟨⟨StdMap.sorted_nil, StdMap.sorted_nil, ?_, ?_, rfl, List.nodup_nil, ?_, ?_, ?_, ?_, ?_⟩,
    rfl, rfl, rfl, le_refl _, ?_, ?_, fun _ => Or.inl rfl⟩
  · intro n σ h; simp [St.new, find] at h
  · intro n m h; simp [St.new, find] at h
  · intro n h; simp [St.new] at h
  · simp [St.new]
  · intro k _ j _ _; simp [St.new]
  · exact ⟨by simp [St.new, zeroSpectra], by simp [St.new, zeroSpectra],
      by simp [St.new, zeroSpectra], by simp [St.new, zeroSpectra]⟩
  · intro k _; simp [St.new, zeroSpectra]
  · intro h; simp [St.new] at h
  · intro n h; simp [St.new] at h

/-- Adding a source that is not there keeps the invariant. -/
theorem inv_put_src (h : Inv e L st) {n : ν} {σ : Src} (hn : n ∉ keys st.srcs) (hσ : σ.Ok e)
    (hL : (σ.useEdisp, σ.tmpl) = L n) :
    Inv e L { st with srcs := put st.srcs n σ } ∧ n ∉ st.fixedNames := by
  have hnf : n ∉ st.fixedNames := by
    intro hh
    obtain ⟨⟨σ', hs⟩, -⟩ := h.fixedIn n hh
    exact hn (StdMap.mem_keys_of_find hs)
  have hf : ∀ x, find (put st.srcs n σ) x = if x = n then some σ else find st.srcs x :=
    fun x => StdMap.find_put h.sorted
  have hne : ∀ x ∈ st.fixedNames, x ≠ n := fun x hx hh => hnf (hh ▸ hx)
  refine ⟨⟨StdMap.sorted_put h.sorted _ _, h.sortedM, ?_, h.map, h.cacheEv, h.nodup, ?_,
    h.countsLen, ?_, h.sized, ?_⟩, hnf⟩
  · intro x τ hx
    have hx' : find (put st.srcs n σ) x = some τ := hx
    rw [hf] at hx'
    by_cases hxn : x = n
    · rw [if_pos hxn] at hx'; cases hx'; rw [hxn]; exact ⟨hσ, hL⟩
    · rw [if_neg hxn] at hx'; exact h.src x τ hx'
  · intro x hx
    change (∃ τ, find (put st.srcs n σ) x = some τ) ∧ _
    rw [hf, if_neg (hne x hx)]
    exact h.fixedIn x hx
  · intro k hk j h1 h2
    refine (h.countsVal k hk j h1 h2).trans (sum_congr_mem fun x hx => ?_)
    unfold contrib
    simp only [hf, if_neg (hne x hx)]
  · intro k hk
    refine (h.specVal k hk).trans (sum_congr_mem fun x hx => ?_)
    unfold wcontrib
    simp only [hf, if_neg (hne x hx)]

theorem addSource_ok {a : Ideal ν} (h : Rel e L a st) (he : e.Ok) (hev : 0 ≤ e.ev) {n : ν} {σ : Src}
    (hn : n ∉ keys st.srcs) (hσ : σ.Ok e) (hL : (σ.useEdisp, σ.tmpl) = L n) :
    ∃ st', addSource e st n σ = .ok st' ∧ Rel e L (a.step (.addSource n σ)) st' ∧
      st'.current = st.current ∧ (σ.fixed = false → st'.model = st.model ∧
        st'.fixedNames = st.fixedNames) := by
  obtain ⟨i1, hnf⟩ := inv_put_src h.inv hn hσ hL
  set st1 : St ν := { st with srcs := put st.srcs n σ } with hst1
  have hf : ∀ x, find (put st.srcs n σ) x = if x = n then some σ else find st.srcs x :=
    fun x => StdMap.find_put h.inv.sorted
  have hfn : find st1.srcs n = some σ := by
    change find (put st.srcs n σ) n = _; rw [hf, if_pos rfl]
  have hstep : a.step (.addSource n σ) = { a with srcs := put a.srcs n σ
                                                  changed := a.changed.filter (fun x => decide (x ≠ n))
                                                  stale := true } := by
    unfold Ideal.step
    simp only
    rw [if_neg (by rw [← h.srcs]; exact hn)]
  rw [hstep]
  unfold addSource
  rw [if_neg hn]
  simp only
  by_cases hfx : σ.fixed = true
  · rw [if_pos hfx]
    have hnf1 : n ∉ st1.fixedNames := hnf
    obtain ⟨st', b1, b2, b3, b4, b5, b6, b7, -, b8⟩ := addFixed_ok i1 he hev hfn hnf1
    refine ⟨st', b1, ⟨b2, by rw [b3, hst1, ← h.srcs], by rw [b5]; exact h.kmin,
      by rw [b6]; exact h.kmax, by rw [b6]; exact h.range, ?_, ?_, by simp⟩, b7, by simp [hfx]⟩
    · intro hc
      rw [b8.1]
      exact h.modelLen (by rw [b7] at hc; exact hc)
    · intro x hx hx' τ m' hs hm
      rw [b3] at hs
      rw [b4, List.mem_append, List.mem_singleton] at hx
      by_cases hxn : x = n
      · subst hxn
        rw [hfn] at hs; cases hs
        exact b8.2.1 m' hm
      · rw [b8.2.2 x hxn] at hm
        change find (put st.srcs n σ) x = _ at hs
        rw [hf, if_neg hxn] at hs
        refine h.latched x (hx.resolve_right hxn) ?_ τ m' hs hm
        intro hh
        exact hx' (List.mem_filter.2 ⟨hh, by simpa using hxn⟩)
  · rw [if_neg hfx]
    obtain ⟨m, g1, g2, g3⟩ := getMap_ok i1 he hev hfn
    rw [g1, Res.bind_ok]
    obtain ⟨j1, j2⟩ := putMap_inv i1 g2 g3
    refine ⟨st1.putMap n m, rfl, ⟨j1, by change put st.srcs n σ = _; rw [h.srcs], h.kmin, h.kmax, h.range, h.modelLen,
      ?_, by simp⟩, rfl, fun _ => ⟨rfl, rfl⟩⟩
    intro x hx hx' τ m' hs hm
    have hxn : x ≠ n := fun hh => hnf (hh ▸ hx)
    change find (put st.srcs n σ) x = _ at hs
    change find (put st.maps n m) x = _ at hm
    rw [hf, if_neg hxn] at hs
    rw [StdMap.find_put h.inv.sortedM, if_neg hxn] at hm
    refine h.latched x hx ?_ τ m' hs hm
    intro hh
    exact hx' (List.mem_filter.2 ⟨hh, by simpa using hxn⟩)

/-- What subtracting a cached source from the fixed model does, whatever its parameters. -/
theorem subtractFixed_ok (h : Inv e L st) (he : e.Ok) (hev : 0 ≤ e.ev) {n : ν} {σ : Src}
    (hn : find st.srcs n = some σ) (hnf : n ∈ st.fixedNames) :
    ∃ m out sp, subtractFixed e st n = .ok { st.putMap n m with
          fixedCounts := out, fixedSpec := sp, fixedNames := st.fixedNames.erase n } ∧
      Fit e (L n).1 (L n).2 m ∧ (∀ m0, find st.maps n = some m0 → m.latched = m0.latched) ∧
      out.length = e.filled.length ∧ Sized e sp ∧
      (∀ k < e.nebins, ∀ j, val e.first k ≤ j → j < val e.first (k + 1) →
        val out j = val st.fixedCounts j - counts e σ σ.vals k (val e.filled j)) ∧
      ∀ k < e.nebins, val sp.edispWt k = val st.fixedSpec.edispWt k - wcounts e σ σ.vals k := by
  obtain ⟨m, out, a1, a2, a3, a4, a5, a6, a7⟩ := addCounts_ok h he hev hn h.countsLen true false
  obtain ⟨sp, p1, p2, p3⟩ := addNpreds_ok a2 he hev (h.mapOk he hn a2 a3) true h.sized
  refine ⟨m, out, sp, ?_, a2, a5 rfl, a6, p2, ?_, ?_⟩
  · unfold subtractFixed
    rw [if_pos hnf, hn]
    simp only
    rw [a1, Res.bind_ok]
    simp only
    have e1 : (st.putMap n m).fixedSpec = st.fixedSpec := rfl
    rw [e1, p1, Res.bind_ok]
    rfl
  · intro k hk j h1 h2
    rw [a7 k hk j h1 h2]; simp [sub_eq_add_neg]
  · intro k hk
    rw [p3 k hk, h.wdisp hn a3]; simp [sub_eq_add_neg]

theorem deleteSource_ok {a : Ideal ν} (h : Rel e L a st) (he : e.Ok) (hev : 0 ≤ e.ev) {n : ν}
    (hn : n ∈ keys st.srcs) (hc : n ∉ a.changed) :
    ∃ st', deleteSource e st n = .ok st' ∧ Rel e L (a.step (.deleteSource n)) st' := by
  have hstep : a.step (.deleteSource n) = { a with srcs := erase a.srcs n, stale := true } := by
    unfold Ideal.step
    simp only
    rw [if_pos (by rw [← h.srcs]; exact hn)]
  rw [hstep]
  obtain ⟨σ, hσ⟩ := StdMap.mem_keys_iff.1 hn
  have hfe : ∀ x, find (erase st.srcs n) x = if x = n then none else find st.srcs x :=
    fun x => StdMap.find_erase h.inv.sorted
  have hsrc : ∀ x τ, find (erase st.srcs n) x = some τ → τ.Ok e ∧ (τ.useEdisp, τ.tmpl) = L x := by
    intro x τ hx
    rw [hfe] at hx
    by_cases hxn : x = n
    · rw [if_pos hxn] at hx; cases hx
    · rw [if_neg hxn] at hx; exact h.inv.src x τ hx
  unfold deleteSource
  rw [if_pos hn]
  by_cases hnf : n ∈ st.fixedNames
  · obtain ⟨m, out, sp, s1, s2, s3, s4, s5, s6, s7⟩ := subtractFixed_ok h.inv he hev hσ hnf
    obtain ⟨j1, j2⟩ := putMap_inv h.inv s2 s3
    obtain ⟨m0, hm0⟩ := (h.inv.fixedIn n hnf).2
    have hlat : m0.latched = σ.vals := h.latched n hnf hc σ m0 hσ hm0
    rw [s1, Res.bind_ok]
    have hmem : ∀ x ∈ st.fixedNames.erase n, x ≠ n ∧ x ∈ st.fixedNames := by
      intro x hx
      exact h.inv.nodup.mem_erase_iff.1 hx
    have hfm : ∀ x, find (put st.maps n m) x = if x = n then some m else find st.maps x :=
      fun x => StdMap.find_put h.inv.sortedM
    refine ⟨_, rfl, ⟨⟨StdMap.sorted_erase h.inv.sorted _, j1.sortedM, hsrc, j1.map, h.inv.cacheEv,
      h.inv.nodup.erase _, ?_, s4, ?_, s5, ?_⟩, by change erase st.srcs n = _; rw [h.srcs], h.kmin,
      h.kmax, h.range, h.modelLen, ?_, by simp⟩⟩
    · intro x hx
      obtain ⟨x1, x2⟩ := hmem x hx
      change (∃ τ, find (erase st.srcs n) x = some τ) ∧ ∃ m', find (put st.maps n m) x = some m'
      rw [hfe, if_neg x1, hfm, if_neg x1]
      exact h.inv.fixedIn x x2
    · intro k hk j h1 h2
      have hperm := List.perm_cons_erase hnf
      have hv := h.inv.countsVal k hk j h1 h2
      rw [(hperm.map _).sum_eq, List.map_cons, List.sum_cons] at hv
      have hcn : contrib e st n k (val e.filled j) = counts e σ σ.vals k (val e.filled j) := by
        unfold contrib; simp only [hσ, hm0, hlat]
      change val out j = ((st.fixedNames.erase n).map _).sum
      rw [s6 k hk j h1 h2, hv, hcn, add_sub_cancel_left]
      apply sum_congr_mem
      intro x hx
      obtain ⟨x1, x2⟩ := hmem x hx
      unfold contrib St.putMap
      simp only [hfe, hfm, if_neg x1]
    · intro k hk
      have hperm := List.perm_cons_erase hnf
      have hv := h.inv.specVal k hk
      rw [(hperm.map _).sum_eq, List.map_cons, List.sum_cons] at hv
      have hcn : wcontrib e st n k = wcounts e σ σ.vals k := by
        unfold wcontrib; simp only [hσ, hm0, hlat]
      change val sp.edispWt k = ((st.fixedNames.erase n).map _).sum
      rw [s7 k hk, hv, hcn, add_sub_cancel_left]
      apply sum_congr_mem
      intro x hx
      obtain ⟨x1, x2⟩ := hmem x hx
      unfold wcontrib St.putMap
      simp only [hfe, hfm, if_neg x1]
    · intro x hx hx' τ m' hs hm
      obtain ⟨x1, x2⟩ := hmem x hx
      change find (erase st.srcs n) x = _ at hs
      change find (put st.maps n m) x = _ at hm
      rw [hfe, if_neg x1] at hs
      rw [hfm, if_neg x1] at hm
      exact h.latched x x2 hx' τ m' hs hm
  · have hsub : subtractFixed e st n = .ok st := by unfold subtractFixed; rw [if_neg hnf]
    rw [hsub, Res.bind_ok]
    have hne : ∀ x ∈ st.fixedNames, x ≠ n := fun x hx hh => hnf (hh ▸ hx)
    refine ⟨_, rfl, ⟨⟨StdMap.sorted_erase h.inv.sorted _, h.inv.sortedM, hsrc, h.inv.map,
      h.inv.cacheEv, h.inv.nodup, ?_, h.inv.countsLen, ?_, h.inv.sized, ?_⟩,
      by change erase st.srcs n = _; rw [h.srcs], h.kmin,
      h.kmax, h.range, h.modelLen, ?_, by simp⟩⟩
    · intro x hx
      change (∃ τ, find (erase st.srcs n) x = some τ) ∧ _
      rw [hfe, if_neg (hne x hx)]
      exact h.inv.fixedIn x hx
    · intro k hk j h1 h2
      refine (h.inv.countsVal k hk j h1 h2).trans (sum_congr_mem fun x hx => ?_)
      unfold contrib
      simp only [hfe, if_neg (hne x hx)]
    · intro k hk
      refine (h.inv.specVal k hk).trans (sum_congr_mem fun x hx => ?_)
      unfold wcontrib
      simp only [hfe, if_neg (hne x hx)]
    · intro x hx hx' τ m' hs hm
      change find (erase st.srcs n) x = _ at hs
      rw [hfe, if_neg (hne x hx)] at hs
      exact h.latched x hx hx' τ m' hs hm

theorem setPars_inv (h : Inv e L st) {n : ν} {σ : Src} (hn : find st.srcs n = some σ)
    (ps : List Par) (c : Bool) :
    Inv e L { st with srcs := put st.srcs n { σ with pars := ps }, current := c } := by
  have hf : ∀ x, find (put st.srcs n { σ with pars := ps }) x =
      if x = n then some { σ with pars := ps } else find st.srcs x :=
    fun x => StdMap.find_put h.sorted
  have hσ := h.src n σ hn
  refine ⟨StdMap.sorted_put h.sorted _ _, h.sortedM, ?_, h.map, h.cacheEv, h.nodup, ?_,
    h.countsLen, ?_, h.sized, ?_⟩
  · intro x τ hx
    change find (put st.srcs n { σ with pars := ps }) x = _ at hx
    rw [hf] at hx
    by_cases hxn : x = n
    · rw [if_pos hxn] at hx; cases hx; rw [hxn]
      exact ⟨⟨hσ.1.tmpl, hσ.1.spec, hσ.1.dspec⟩, hσ.2⟩
    · rw [if_neg hxn] at hx; exact h.src x τ hx
  · intro x hx
    change (∃ τ, find (put st.srcs n { σ with pars := ps }) x = some τ) ∧ _
    rw [hf]
    refine ⟨?_, (h.fixedIn x hx).2⟩
    by_cases hxn : x = n
    · rw [if_pos hxn]; exact ⟨_, rfl⟩
    · rw [if_neg hxn]; exact (h.fixedIn x hx).1
  · intro k hk j h1 h2
    refine (h.countsVal k hk j h1 h2).trans (sum_congr_mem fun x hx => ?_)
    unfold contrib
    simp only [hf]
    by_cases hxn : x = n
    · subst hxn
      simp only [if_true, hn]
      cases find st.maps x <;> rfl
    · simp only [if_neg hxn]
  · intro k hk
    refine (h.specVal k hk).trans (sum_congr_mem fun x hx => ?_)
    unfold wcontrib
    simp only [hf]
    by_cases hxn : x = n
    · subst hxn
      simp only [if_true, hn]
      cases find st.maps x <;> rfl
    · simp only [if_neg hxn]

theorem setPars_ok {a : Ideal ν} (h : Rel e L a st) {n : ν} {σ : Src}
    (hn : find st.srcs n = some σ) (ps : List Par) (sync : Bool) :
    ∃ st', setPars st n ps sync = .ok st' ∧ Rel e L (a.step (.setPars n ps sync)) st' := by
  have hstep : a.step (.setPars n ps sync) = { a with srcs := put a.srcs n { σ with pars := ps }
                                                      changed := n :: a.changed, stale := !sync } := by
    unfold Ideal.step
    simp only
    rw [← h.srcs, hn]
  rw [hstep]
  unfold setPars
  rw [hn]
  refine ⟨_, rfl, ⟨setPars_inv h.inv hn ps _, ?_, h.kmin, h.kmax, h.range, ?_, ?_, ?_⟩⟩
  · change put st.srcs n _ = put a.srcs n _
    rw [h.srcs]
  · intro hc
    apply h.modelLen
    change (if sync = true then false else st.current) = true at hc
    cases sync <;> simp_all
  · intro x hx hx' τ m' hs hm
    have hxn : x ≠ n := by
      intro hh; apply hx'; rw [hh]; exact List.mem_cons_self
    change find (put st.srcs n _) x = _ at hs
    rw [StdMap.find_put h.inv.sorted, if_neg hxn] at hs
    exact h.latched x hx (fun hh => hx' (List.mem_cons_of_mem _ hh)) τ m' hs hm
  · intro hs
    left
    change (if sync = true then false else st.current) = false
    cases sync <;> simp_all

theorem value_rel {a : Ideal ν} (h : Rel e L a st) (he : e.Ok) (hev : 0 ≤ e.ev) :
    ∃ st', value e st = .ok (st', logLike e a.srcs a.kmin a.kmax) ∧
      Rel e L (a.step .value) st' := by
  obtain ⟨st', c1, c2, c3, c4, c5, c6, c7⟩ := value_ok h.inv he hev h.range
  refine ⟨st', by rw [c1, h.srcs, h.kmin, h.kmax], ⟨c2, by rw [c3, h.srcs]; rfl,
    by rw [c4, h.kmin]; rfl, by rw [c5, h.kmax]; rfl, by rw [c5]; exact h.range,
    fun _ => c7.modelLen, ?_, fun _ => Or.inr c7⟩⟩
  intro x hx _ τ m' hs hm
  exact c7.cur x hx τ m' hs hm

theorem getFreeDerivs_rel {a : Ideal ν} (h : Rel e L a st) (he : e.Ok) (hev : 0 ≤ e.ev) :
    ∃ st' out, getFreeDerivs e st = .ok (st', out) ∧ Rel e L (a.step .getFreeDerivs) st' ∧
      (a.stale = false → out = (a.srcs.map (fun x => x.2.freeIdx.map
          (gradEntry e a.srcs a.kmin a.kmax x.2))).flatten) := by
  obtain ⟨st', out, c1, c2, c3, c4, c5, c6, c7, c8, -⟩ :=
    getFreeDerivs_safe h.inv he hev h.range h.modelLen
  refine ⟨st', out, c1, ⟨c2, by rw [c3, h.srcs]; rfl, by rw [c4, h.kmin]; rfl,
    by rw [c5, h.kmax]; rfl, by rw [c5]; exact h.range, fun _ => c6, ?_, ?_⟩, ?_⟩
  · intro x hx hx' τ m' hs hm
    exact c8 x hx τ m' hs hm (fun hn σ m1 g1 g2 => h.latched x hn hx' σ m1 g1 g2)
  · intro hs
    exact Or.inr (c7 (h.fresh hs)).1
  · intro hs
    rw [(c7 (h.fresh hs)).2, h.srcs, h.kmin, h.kmax]

/-- Any covered history. -/
theorem run_rel (he : e.Ok) (hev : 0 ≤ e.ev) (ops : List (Op ν)) (a : Ideal ν) (st : St ν)
    (h : Rel e L a st) (hc : CoveredRun e L a ops) :
    ∃ st', run e st ops = .ok st' ∧ Rel e L (a.run ops) st' := by
  induction ops generalizing a st with
  | nil => exact ⟨st, rfl, h⟩
  | cons op ops ih =>
    obtain ⟨hc1, hc2⟩ := hc
    unfold run Ideal.run
    cases op with
    | addSource n σ =>
      simp only [step]
      by_cases hn : n ∈ keys st.srcs
      · have h1 : addSource e st n σ = .throws := by unfold addSource; rw [if_pos hn]
        have h2 : a.step (.addSource n σ) = a := by
          unfold Ideal.step; simp only; rw [if_pos (by rw [← h.srcs]; exact hn)]
        rw [h1]
        rw [h2] at hc2 ⊢
        exact ih a st h hc2
      · obtain ⟨st1, b1, b2, -⟩ := addSource_ok h he hev hn hc1.1 hc1.2
        rw [b1]
        exact ih _ st1 b2 hc2
    | deleteSource n =>
      simp only [step]
      by_cases hn : n ∈ keys st.srcs
      · obtain ⟨st1, b1, b2⟩ := deleteSource_ok h he hev hn hc1
        rw [b1]
        exact ih _ st1 b2 hc2
      · have h1 : deleteSource e st n = .throws := by unfold deleteSource; rw [if_neg hn]
        have h2 : a.step (.deleteSource n) = a := by
          unfold Ideal.step; simp only; rw [if_neg (by rw [← h.srcs]; exact hn)]
        rw [h1]
        rw [h2] at hc2 ⊢
        exact ih a st h hc2
    | setPars n ps sync =>
      simp only [step]
      cases hn : find st.srcs n with
      | none =>
        have h1 : setPars st n ps sync = .throws := by unfold setPars; rw [hn]
        have h2 : a.step (.setPars n ps sync) = a := by
          unfold Ideal.step; simp only; rw [← h.srcs, hn]
        rw [h1]
        rw [h2] at hc2 ⊢
        exact ih a st h hc2
      | some σ =>
        obtain ⟨st1, b1, b2⟩ := setPars_ok h hn ps sync
        rw [b1]
        exact ih _ st1 b2 hc2
    | setKlims x y =>
      simp only [step]
      refine ih _ _ ⟨⟨h.inv.sorted, h.inv.sortedM, h.inv.src, h.inv.map, h.inv.cacheEv, h.inv.nodup,
        h.inv.fixedIn, h.inv.countsLen, h.inv.countsVal, h.inv.sized, h.inv.specVal⟩, h.srcs, rfl,
        rfl, hc1, ?_, h.latched, fun _ => Or.inl rfl⟩ hc2
      intro hh; simp [setKlims] at hh
    | value =>
      simp only [step]
      obtain ⟨st1, b1, b2⟩ := value_rel h he hev
      rw [b1, Res.bind_ok]
      exact ih _ st1 b2 hc2
    | getFreeDerivs =>
      simp only [step]
      obtain ⟨st1, out, b1, b2, -⟩ := getFreeDerivs_rel h he hev
      rw [b1, Res.bind_ok]
      exact ih _ st1 b2 hc2

/-- Value of an object without sources, whatever is in the cached fixed model. -/
theorem value_residue (he : e.Ok) (hsrc : st.srcs = []) (hnames : st.fixedNames = [])
    (hlen : st.fixedCounts.length = e.filled.length) (hsz : Sized e st.fixedSpec)
    (hk : st.kmax ≤ e.nebins) {R : Nat → Nat → ℝ}
    (hR : ∀ k < e.nebins, ∀ j, val e.first k ≤ j → j < val e.first (k + 1) →
      val st.fixedCounts j = R k (val e.filled j)) :
    ∃ st', value e st = .ok (st', ∑ k ∈ Finset.Ico st.kmin st.kmax,
      (∑ p ∈ Finset.range e.npix, (if 0 < val e.data (k * e.npix + p) ∧ 0 < R k p then
        val e.data (k * e.npix + p) * Real.log (R k p) else 0) - val st.fixedSpec.edispWt k)) := by
  have lay := lay_of he
  have hupd : updateFixed e st = .ok st := by
    unfold updateFixed fixedModelUpdated
    rw [if_neg (by rw [hnames]; simp)]
    simp only [hsrc, hnames, fixedNow, keys, List.filter_nil, List.map_nil, List.any_nil,
      List.length_nil, ne_eq, not_true, decide_false, Bool.or_false, changedLoop, Res.bind_ok]
    rfl
  have hcopy : copyOnZeros st.fixedCounts e.filled.length = .ok st.fixedCounts := by
    unfold copyOnZeros
    rw [if_pos (by rw [hlen]), hlen]; simp
  have hfix : fixedNpred st true = .ok (∑ k ∈ Finset.Ico st.kmin st.kmax,
      val st.fixedSpec.edispWt k) := by
    unfold fixedNpred
    rw [loop_sum (fun k => val st.fixedSpec.edispWt k)]
    · rw [zero_add, Finset.sum_Ico_eq_sum_range]
    · intro k acc h1 h2
      simp only [if_true]
      rw [vget_val (by rw [hsz.edispWt]; omega), Res.bind_ok]
  obtain ⟨model, w1, w2, w3⟩ := stretch_upd lay (v := List.replicate e.filled.length 0) (by simp)
    (kmin := st.kmin) (kmax := st.kmax) hk
    (body := fun k j model => do
      let x ← vget st.fixedCounts j
      vset model j x)
    (fun k j _ => val st.fixedCounts j)
    (by
      intro k j w h1 h2 h3 h4 hw
      have hlast := lay.last (k + 1) (by omega)
      simp only [List.length_replicate] at hw
      rw [vget_val (by omega), Res.bind_ok, vset_lt _ _ _ (by omega)])
  have hsel : selectModel e st.kmin st.kmax st.fixedCounts = .ok model := w1
  have hd : dataTerm e { st with model := model, current := true } =
      .ok (0 + ∑ k ∈ Finset.Ico st.kmin st.kmax,
      ∑ p ∈ Finset.range e.npix, if 0 < val e.data (k * e.npix + p) then
        (if 0 < R k p then val e.data (k * e.npix + p) * Real.log (R k p) else 0) else 0) := by
    unfold dataTerm
    apply stretch_sum lay hk
      (fun k j => if 0 < val model j then
        val e.data (k * e.npix + val e.filled j) * Real.log (val model j) else 0)
    · intro k j acc h1 h2 h3 h4
      have hk2 : k < e.nebins := by omega
      have hlast := lay.last (k + 1) (by omega)
      have hml : model.length = e.filled.length := by rw [w2]; simp
      rw [vget_val (by simp only; omega), Res.bind_ok]
      by_cases hm : val model j ≤ 0
      · rw [if_pos hm, if_neg (not_lt.2 hm), add_zero]
      · rw [if_neg hm, if_pos (not_le.1 hm), vget_val (by omega), Res.bind_ok,
          vget_val (by rw [he.data]; exact idx_lt (lay.pix k hk2 j h3 h4) hk2), Res.bind_ok]
    · intro k h1 h2 j h3 h4
      rw [w3 k h1 h2 j h3 h4, hR k (by omega) j h3 h4]
  refine ⟨{ st with model := model, current := true }, ?_⟩
  unfold value computeModel
  have hloop : evalLoop e true st.srcs st st.fixedCounts (∑ k ∈ Finset.Ico st.kmin st.kmax,
      val st.fixedSpec.edispWt k) = .ok (st, st.fixedCounts, ∑ k ∈ Finset.Ico st.kmin st.kmax,
      val st.fixedSpec.edispWt k) := by rw [hsrc]; rfl
  rw [hupd, Res.bind_ok, hcopy, Res.bind_ok, hfix, Res.bind_ok, hloop, Res.bind_ok]
  simp only
  rw [hsel, Res.bind_ok]
  simp only [Res.bind_ok]
  rw [hd, Res.bind_ok]
  congr 2
  unfold priorSum
  simp only [hsrc, List.map_nil, List.sum_nil, add_zero, zero_add]
  rw [← Finset.sum_sub_distrib]
  apply Finset.sum_congr rfl
  intro k _
  congr 1
  apply Finset.sum_congr rfl
  intro p _
  by_cases h1 : 0 < val e.data (k * e.npix + p)
  · by_cases h2 : 0 < R k p <;> simp [h1, h2]
  · simp [h1]

/-- With a map under the name, the template of the source is not looked at. -/
theorem value_tmpl (n : ν) (σ : Src) (t : Nat → List ℝ) (m : MapObj) (hfx : σ.fixed = false)
    (hm : find st.maps n = some m) (hnames : st.fixedNames = []) {v : ℝ} {s' : St ν}
    (h : value e { st with srcs := [(n, { σ with tmpl := t })] } = .ok (s', v)) :
    ∃ s, value e { st with srcs := [(n, σ)] } = .ok (s, v) := by
  have hupd : ∀ τ : Src, τ.fixed = false → updateFixed e { st with srcs := [(n, τ)] } =
      .ok { st with srcs := [(n, τ)] } := by
    intro τ hτ
    unfold updateFixed fixedModelUpdated
    rw [if_neg (by simp only; rw [hnames]; simp)]
    simp only [hnames, fixedNow, keys, hτ, List.filter_cons_of_neg, List.filter_nil, List.map_nil,
      List.any_nil, List.length_nil, ne_eq, not_true, decide_false, Bool.or_false, changedLoop,
      Bool.false_eq_true, if_false, not_false_iff, Res.bind_ok]
  have hget : ∀ (s : St ν) (τ : Src) (m : MapObj), find s.maps n = some m →
      getMap e s n τ = .ok (s.putMap n (setSource m τ), setSource m τ) := by
    intro s τ m hs
    unfold getMap; rw [hs]
  unfold value computeModel at h ⊢
  rw [hupd _ hfx]
  rw [hupd { σ with tmpl := t } hfx] at h
  simp only [Res.bind_ok] at h ⊢
  obtain ⟨x, h1, h2⟩ := Res.bind_eq_ok.1 h
  obtain ⟨mc, h3, h4⟩ := Res.bind_eq_ok.1 h1
  obtain ⟨np, h5, h6⟩ := Res.bind_eq_ok.1 h4
  obtain ⟨y, h7, h8⟩ := Res.bind_eq_ok.1 h6
  obtain ⟨model, h9, h10⟩ := Res.bind_eq_ok.1 h8
  injection h10 with h10
  subst h10
  rw [h3, Res.bind_ok]
  have h5' : fixedNpred { st with srcs := [(n, σ)] } true = .ok np := h5
  rw [h5', Res.bind_ok]
  -- the single source
  have hev : evalLoop e true [(n, σ)] { st with srcs := [(n, σ)] } mc np =
      .ok ({ y.1 with srcs := [(n, σ)] }, y.2.1, y.2.2) ∧
      y.1.srcs = [(n, { σ with tmpl := t })] := by
    unfold evalLoop at h7 ⊢
    obtain ⟨z, g1, g2⟩ := Res.bind_eq_ok.1 h7
    unfold npredValue at g1 ⊢
    rw [hget ({ st with srcs := [(n, { σ with tmpl := t })] } : St ν) _ m hm, Res.bind_ok] at g1
    rw [hget { st with srcs := [(n, σ)] } σ m hm, Res.bind_ok]
    simp only at g1 ⊢
    obtain ⟨mr, g3, g4⟩ := Res.bind_eq_ok.1 g1
    obtain ⟨sv, g5, g6⟩ := Res.bind_eq_ok.1 g4
    have g3' : refreshCache e (setSpectral (setSource m σ) σ false) = .ok mr := g3
    rw [g3', Res.bind_ok]
    have g5' : summedCounts mr.cache
      (({ st with srcs := [(n, σ)] } : St ν).putMap n (setSource m σ)).kmin
      (({ st with srcs := [(n, σ)] } : St ν).putMap n (setSource m σ)).kmax
      (edispFlag (({ st with srcs := [(n, σ)] } : St ν).putMap n (setSource m σ)) σ) true = .ok sv := g5
    rw [g5', Res.bind_ok, Res.bind_ok]
    simp only
    injection g6 with g6
    subst g6
    have hnn : n ∉ st.fixedNames := by rw [hnames]; simp
    have hn1 : n ∉ ((({ st with srcs := [(n, σ)] } : St ν).putMap n (setSource m σ)).putMap n mr).fixedNames := hnn
    rw [if_neg hn1]
    simp only at g2
    rw [if_neg (show n ∉ ((({ st with srcs := [(n, { σ with tmpl := t })] } : St ν).putMap n
      (setSource m { σ with tmpl := t })).putMap n mr).fixedNames from hnn)] at g2
    obtain ⟨w, k1, k2⟩ := Res.bind_eq_ok.1 g2
    unfold addCounts at k1 ⊢
    by_cases hlen : mc.length ≠ e.filled.length
    · rw [if_pos hlen] at k1; cases k1
    · rw [if_neg hlen] at k1 ⊢
      -- the map is found
      obtain ⟨q, k3, k4⟩ := Res.bind_eq_ok.1 k1
      set maps' := put (put st.maps n (setSource m σ)) n mr with hmaps'
      have hfind : ∃ m1, find maps' n = some m1 := by
        cases hq : find maps' n with
        | some m1 => exact ⟨m1, rfl⟩
        | none =>
          rw [StdMap.find_none] at hq
          exact absurd (by rw [hmaps', StdMap.keys_put]; exact Or.inl rfl) hq
      obtain ⟨m1, hm1⟩ := hfind
      rw [hget _ _ m1 hm1] at k3
      rw [hget _ σ m1 hm1, Res.bind_ok]
      injection k3 with k3
      subst k3
      simp only at k4 ⊢
      obtain ⟨mc2, k5, k6⟩ := Res.bind_eq_ok.1 k4
      have k5' : addSourceCounts (setSpectral (setSource m1 σ) σ false).map e.filled e.first false mc =
        .ok mc2 := k5
      rw [k5', Res.bind_ok, Res.bind_ok]
      injection k6 with k6
      subst k6
      simp only [evalLoop] at k2 ⊢
      injection k2 with k2
      subst k2
      exact ⟨rfl, rfl⟩
  obtain ⟨hev, hy⟩ := hev
  rw [hev, Res.bind_ok]
  simp only
  rw [h9, Res.bind_ok]
  simp only at h2
  simp only [Res.bind_ok] at h2 ⊢
  obtain ⟨d, q1, q2⟩ := Res.bind_eq_ok.1 h2
  injection q2 with q2
  have q3 := congrArg Prod.snd q2
  simp only at q3
  have q1' : dataTerm e ({ y.1 with srcs := [(n, σ)], model := model, current := true } : St ν) = .ok d := q1
  refine ⟨{ y.1 with srcs := [(n, σ)], model := model, current := true }, ?_⟩
  refine Eq.trans (congrArg (· >>= _) q1') ?_
  rw [Res.bind_ok, ← q3]
  unfold priorSum
  simp only [hy]
  rfl

end Verif.Binned
