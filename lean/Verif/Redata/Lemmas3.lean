import Verif.Redata.Lemmas2
set_option linter.unusedVariables false
set_option linter.unusedSimpArgs false
set_option linter.unusedSectionVars false
namespace Verif.Redata

open Verif.Vec Verif.Edisp Verif.Drm Verif.Binned Spec
open Verif.StdMap (find put erase keys)
open scoped BigOperators

variable {ν : Type} [LinearOrder ν] {e : Env} {L : ν → Bool × (Nat → List ℝ)} {st : St ν}

/-! ### Image of a source that is not in the fixed model -/

theorem reL_reL (n : ν) (t t' : Nat → List ℝ) (l : List (ν × Src)) : reL n t (reL n t' l) = reL n t l := by
  unfold reL
  rw [List.map_map]
  apply List.map_congr_left
  intro x _
  simp only [Function.comp_apply]
  unfold reσ
  split <;> rfl

theorem reL_self {n : ν} {σ : Src} {l : List (ν × Src)} (hs : StdMap.Sorted l) (h : find l n = some σ) :
    reL n σ.tmpl l = l := by
  unfold reL
  conv_rhs => rw [← List.map_id l]
  apply List.map_congr_left
  intro x hx
  have hf := StdMap.find_of_mem hs hx
  unfold reσ
  by_cases hk : x.1 = n
  · rw [if_pos hk]
    rw [hk, h] at hf
    injection hf with hf
    rw [hf]
    rfl
  · rw [if_neg hk]; rfl

/-- The map `m` with another image. -/
def withImage (m : MapObj) (img : List ℝ) : MapObj := { m with map := { m.map with model := img } }

theorem fit_image {u : Bool} {t : Nat → List ℝ} {m : MapObj} (h : Fit e u t m) (img : List ℝ) :
    Fit e u (fun _ => img) (withImage m img) :=
  ⟨h.cfg, h.geom, h.npix, rfl, h.cols, h.weights, h.xi, h.kref, h.krefLt⟩

/-- The image is accepted; the map is the old one or a new one. -/
theorem setImage_ok (h : Inv e L st) (he : e.Ok) (hev : 0 ≤ e.ev) {n : ν} {σ : Src} (hn : find st.srcs n = some σ)
    {img : List ℝ} (hi : img.length = (σ.tmpl (e.extra σ.useEdisp)).length) :
    ∃ m, setImage e st n img = .ok (st.putMap n (withImage m img)) ∧ Fit e (L n).1 (L n).2 m ∧
      ∀ m0, find st.maps n = some m0 → m = m0 := by
  unfold setImage
  rw [hn]
  simp only
  unfold mapFor
  cases hm : find st.maps n with
  | some m0 =>
    have hf := h.map n m0 hm
    have hlen : m0.map.model.length = img.length := by
      rw [hf.model, h.useEdisp hn, h.tmpl hn, hi]
    refine ⟨m0, ?_, hf, fun m1 hm1 => by cases hm1; rfl⟩
    simp only
    rw [Res.bind_ok]
    simp only
    rw [if_neg (by rw [hlen]; simp)]
    rfl
  | none =>
    obtain ⟨m, g1, g2, g3⟩ := getMap_ok h he hev hn
    have hlen : m.map.model.length = img.length := by
      rw [g2.model, h.useEdisp hn, h.tmpl hn, hi]
    refine ⟨m, ?_, g2, fun m1 hm1 => by cases hm1⟩
    simp only
    rw [g1, Res.bind_ok]
    simp only
    rw [if_neg (by rw [hlen]; simp), putMap_putMap h]
    rfl

/-- An image of another size is refused. -/
theorem setImage_throws (h : Inv e L st) (he : e.Ok) (hev : 0 ≤ e.ev) {n : ν} {σ : Src} (hn : find st.srcs n = some σ)
    {img : List ℝ} (hi : img.length ≠ (σ.tmpl (e.extra σ.useEdisp)).length)
    (h0 : (σ.tmpl (e.extra σ.useEdisp)).length ≠ 0) : setImage e st n img = .throws := by
  unfold setImage
  rw [hn]
  simp only
  unfold mapFor
  cases hm : find st.maps n with
  | some m0 =>
    have hf := h.map n m0 hm
    simp only
    rw [Res.bind_ok]
    simp only
    rw [if_pos (by rw [hf.model, h.useEdisp hn, h.tmpl hn]; exact ⟨hi, h0⟩)]
  | none =>
    obtain ⟨m, g1, g2, g3⟩ := getMap_ok h he hev hn
    simp only
    rw [g1, Res.bind_ok]
    simp only
    rw [if_pos (by rw [g2.model, h.useEdisp hn, h.tmpl hn]; exact ⟨hi, h0⟩)]

/-- What the names stand for when the source `n` has another map. -/
def relabel (L : ν → Bool × (Nat → List ℝ)) (n : ν) (img : List ℝ) (k : ν) : Bool × (Nat → List ℝ) :=
  if k = n then ((L n).1, fun _ => img) else L k

theorem image_rel {a : Ideal ν} (h : Rel e L a st) {n : ν} {σ : Src} (hn : find a.srcs n = some σ)
    (hnf : n ∉ st.fixedNames) {img : List ℝ} (hi : img.length = (σ.tmpl (e.extra σ.useEdisp)).length) {m : MapObj}
    (hm : Fit e (L n).1 (L n).2 m) :
    Rel e (relabel L n img) { a with srcs := withMap n img a.srcs, stale := true }
      (re n (fun _ => img) (st.putMap n (withImage m img))) := by
  have hn' : find st.srcs n = some σ := by rw [h.srcs]; exact hn
  have hI := h.inv
  have hfs : ∀ x, find (reL n (fun _ => img) st.srcs) x = (find st.srcs x).map (reσ n (fun _ => img) x) := find_reL _
  have hfm : ∀ x, find (put st.maps n (withImage m img)) x = if x = n then some (withImage m img) else find st.maps x :=
    fun x => StdMap.find_put hI.sortedM
  have hne : ∀ x ∈ st.fixedNames, x ≠ n := fun x hx hh => hnf (hh ▸ hx)
  have hso : StdMap.Sorted (reL n (fun _ => img) st.srcs) := by
    have := hI.sorted
    unfold StdMap.Sorted at this ⊢
    rw [keys_reL]; exact this
  have hre : ∀ x ∈ st.fixedNames, find (reL n (fun _ => img) st.srcs) x = find st.srcs x := by
    intro x hx
    rw [hfs]
    cases find st.srcs x with
    | none => rfl
    | some τ => simp only [Option.map_some]; unfold reσ; rw [if_neg (hne x hx)]
  refine ⟨⟨hso, StdMap.sorted_put hI.sortedM _ _, ?_, ?_, hI.cacheEv, hI.nodup, ?_, hI.countsLen, ?_, hI.sized, ?_⟩,
    by show reL n (fun _ => img) st.srcs = _; rw [h.srcs]; rfl, h.kmin, h.kmax, h.range, h.modelLen, ?_, ?_⟩
  · intro x τ hx
    have hx' : find (reL n (fun _ => img) st.srcs) x = some τ := hx
    rw [hfs] at hx'
    obtain ⟨τ0, g1, g2⟩ := Option.map_eq_some_iff.1 hx'
    have hτ := hI.src x τ0 g1
    by_cases hxn : x = n
    · subst hxn
      rw [hn'] at g1; cases g1
      unfold reσ at g2
      rw [if_pos rfl] at g2
      subst g2
      refine ⟨⟨?_, hτ.1.spec, hτ.1.dspec⟩, ?_⟩
      · show img.length = _
        rw [hi]; exact hτ.1.tmpl
      · unfold relabel
        rw [if_pos rfl, hI.useEdisp hn']
    · unfold reσ at g2
      rw [if_neg hxn] at g2
      subst g2
      unfold relabel
      rw [if_neg hxn]
      exact hτ
  · intro x m' hx
    have hx' : find (put st.maps n (withImage m img)) x = some m' := hx
    rw [hfm] at hx'
    unfold relabel
    by_cases hxn : x = n
    · rw [if_pos hxn] at hx' ⊢
      cases hx'
      exact fit_image hm img
    · rw [if_neg hxn] at hx' ⊢
      exact hI.map x m' hx'
  · intro x hx
    have hx' : x ∈ st.fixedNames := hx
    obtain ⟨g1, g2⟩ := hI.fixedIn x hx'
    refine ⟨?_, ?_⟩
    · show ∃ τ, find (reL n (fun _ => img) st.srcs) x = some τ
      rw [hre x hx']; exact g1
    · show ∃ m', find (put st.maps n (withImage m img)) x = some m'
      rw [hfm, if_neg (hne x hx')]; exact g2
  · intro k hk j h1 h2
    refine (hI.countsVal k hk j h1 h2).trans (sum_congr_mem fun x hx => ?_)
    unfold contrib re St.putMap
    simp only [hfm, if_neg (hne x hx), hre x hx]
  · intro k hk
    refine (hI.specVal k hk).trans (sum_congr_mem fun x hx => ?_)
    unfold wcontrib re St.putMap
    simp only [hfm, if_neg (hne x hx), hre x hx]
  · intro x hx hx' τ m' hs hm'
    have hx0 : x ∈ st.fixedNames := hx
    have hs' : find (reL n (fun _ => img) st.srcs) x = some τ := hs
    have hm'' : find (put st.maps n (withImage m img)) x = some m' := hm'
    rw [hre x hx0] at hs'
    rw [hfm, if_neg (hne x hx0)] at hm''
    exact h.latched x hx0 hx' τ m' hs' hm''
  · intro hst
    cases hst

/-! ### Image of a source in the fixed model -/

/-- A fetched map of `n` gives some predicted counts. -/
theorem npred_of_map {n : ν} {σ : Src} {u : Bool} {t : Nat → List ℝ} {m : MapObj} (hs : StdMap.Sorted st.maps)
    (hm : find st.maps n = some m) (hf : Fit e u t m) (hu : σ.useEdisp = u)
    (ht : (t (e.extra u)).length = (e.nebins + 1 + 2 * e.extra u) * e.npix)
    (hw : (σ.spec (e.extra u) σ.vals).length = e.nebins + 2 * e.extra u) (he : e.Ok) (hev : 0 ≤ e.ev)
    (hk : st.kmax ≤ e.nebins) (hce : st.cacheEv = e.ev) :
    ∃ m' v, npredValue e st n σ true = .ok (st.putMap n m', v) ∧ Fit e u t m' ∧ m'.latched = m.latched := by
  obtain ⟨f1, f2⟩ := setSource_fit hf hu
  obtain ⟨s1, s2⟩ := setSpectral_fit f1 σ false
  have hok := s1.ok he ht (by rw [s2]; exact hw)
  obtain ⟨m', r1, r2, r3, r4, r5, r6, r7⟩ := refreshCache_ok s1 he hev hok
  have hflag : edispFlag (st.putMap n (setSource m σ)) σ = 0 → (setSpectral (setSource m σ) σ false).map.ev = 0 := by
    intro hf
    rw [s1.ev]
    unfold edispFlag at hf
    have : (st.putMap n (setSource m σ)).cacheEv = e.ev := hce
    rw [this, hu] at hf
    by_cases hu' : u = true
    · rw [if_pos hu'] at hf ⊢; exact hf
    · rw [if_neg hu']
  have hsum := r7 st.kmin st.kmax _ hk hflag
  refine ⟨m', ∑ k ∈ Finset.Ico st.kmin st.kmax, wdisp e u (t (e.extra u))
    (setSpectral (setSource m σ) σ false).map.specWts k, ?_, r2, by rw [r3]; exact f2⟩
  unfold npredValue getMap
  rw [hm]
  simp only
  rw [Res.bind_ok]
  simp only
  rw [r1, Res.bind_ok]
  have e1 : (st.putMap n (setSource m σ)).kmin = st.kmin := rfl
  have e2 : (st.putMap n (setSource m σ)).kmax = st.kmax := rfl
  rw [e1, e2, hsum, Res.bind_ok]
  unfold St.putMap
  simp only [StdMap.put_put hs]

/-- The states differ in the image of the map of `n`. -/
structure Sim2 (e : Env) (n : ν) (u : Bool) (t t' : Nat → List ℝ) (s s' : St ν) : Prop where
  core : Core s s'
  sorted : StdMap.Sorted s.maps
  sorted' : StdMap.Sorted s'.maps
  other : ∀ k, k ≠ n → find s'.maps k = find s.maps k
  at' : ∃ m m', find s.maps n = some m ∧ find s'.maps n = some m' ∧ Fit e u t m ∧ Fit e u t' m' ∧ m'.latched = m.latched

variable {n : ν} {u : Bool} {t t' : Nat → List ℝ} {s s' : St ν}

theorem Sim2.put (h : Sim2 e n u t t' s s') {k : ν} (hk : k ≠ n) (m : MapObj) :
    Sim2 e n u t t' (s.putMap k m) (s'.putMap k m) := by
  refine ⟨⟨h.core.srcs, h.core.fixedNames, h.core.fixedCounts, h.core.fixedSpec, h.core.kmin, h.core.kmax, h.core.model,
    h.core.current, h.core.cacheEv⟩, StdMap.sorted_put h.sorted _ _, StdMap.sorted_put h.sorted' _ _, ?_, ?_⟩
  · intro x hx
    show find (StdMap.put s'.maps k m) x = find (StdMap.put s.maps k m) x
    rw [StdMap.find_put h.sorted, StdMap.find_put h.sorted', h.other x hx]
  · show ∃ m0 m0', find (StdMap.put s.maps k m) n = some m0 ∧ find (StdMap.put s'.maps k m) n = some m0' ∧ _
    rw [StdMap.find_put h.sorted, StdMap.find_put h.sorted', if_neg (Ne.symm hk), if_neg (Ne.symm hk)]
    exact h.at'

theorem Sim2.putN (h : Sim2 e n u t t' s s') {m m' : MapObj} (hm : Fit e u t m) (hm' : Fit e u t' m')
    (hl : m'.latched = m.latched) : Sim2 e n u t t' (s.putMap n m) (s'.putMap n m') := by
  refine ⟨⟨h.core.srcs, h.core.fixedNames, h.core.fixedCounts, h.core.fixedSpec, h.core.kmin, h.core.kmax, h.core.model,
    h.core.current, h.core.cacheEv⟩, StdMap.sorted_put h.sorted _ _, StdMap.sorted_put h.sorted' _ _, ?_, ?_⟩
  · intro x hx
    show find (StdMap.put s'.maps n m') x = find (StdMap.put s.maps n m) x
    rw [StdMap.find_put h.sorted, StdMap.find_put h.sorted', if_neg hx, if_neg hx, h.other x hx]
  · refine ⟨m, m', ?_, ?_, hm, hm', hl⟩
    · show find (StdMap.put s.maps n m) n = some m
      rw [StdMap.find_put h.sorted, if_pos rfl]
    · show find (StdMap.put s'.maps n m') n = some m'
      rw [StdMap.find_put h.sorted', if_pos rfl]

theorem two2_getMap (h : Sim2 e n u t t' s s') {k : ν} (hk : k ≠ n) (σ : Src) :
    Two (fun x y : St ν × MapObj => Sim2 e n u t t' x.1 y.1 ∧ x.2 = y.2) (getMap e s k σ) (getMap e s' k σ) := by
  unfold getMap
  rw [h.other k hk, h.core.cacheEv]
  cases hf : find s.maps k with
  | some m => exact .ok ⟨h.put hk _, rfl⟩
  | none =>
    refine (Two.refl (newMap e s.cacheEv σ)).bind ?_
    rintro m _ rfl
    exact .ok ⟨h.put hk _, rfl⟩

theorem two2_getMapN (h : Sim2 e n u t t' s s') {σ : Src} (hu : σ.useEdisp = u) :
    Two (fun x y : St ν × MapObj => Sim2 e n u t t' x.1 y.1 ∧ spectrumChanged y.2 σ = spectrumChanged x.2 σ)
      (getMap e s n σ) (getMap e s' n σ) := by
  obtain ⟨m, m', g1, g2, g3, g4, g5⟩ := h.at'
  obtain ⟨f1, f2⟩ := setSource_fit g3 hu
  obtain ⟨f1', f2'⟩ := setSource_fit g4 hu
  unfold getMap
  rw [g1, g2]
  refine .ok ⟨h.putN f1 f1' (by rw [f2, f2', g5]), ?_⟩
  unfold spectrumChanged
  simp only [f2, f2', g5]

theorem two2_npred (h : Sim2 e n u t t' s s') {k : ν} (hk : k ≠ n) (σ : Src) (w : Bool) :
    Two (fun x y : St ν × ℝ => Sim2 e n u t t' x.1 y.1 ∧ x.2 = y.2) (npredValue e s k σ w) (npredValue e s' k σ w) := by
  unfold npredValue
  refine (two2_getMap h hk σ).bind ?_
  rintro ⟨s1, m⟩ ⟨s1', m'⟩ ⟨h1, hm⟩
  simp only at h1 hm ⊢
  subst hm
  refine (Two.refl _).bind ?_
  rintro m1 _ rfl
  have e3 : edispFlag s1' σ = edispFlag s1 σ := by unfold edispFlag; rw [h1.core.cacheEv]
  rw [h1.core.kmin, h1.core.kmax, e3]
  refine (Two.refl _).bind ?_
  rintro v _ rfl
  exact .ok ⟨h1.put hk _, rfl⟩

theorem two2_addCounts (h : Sim2 e n u t t' s s') (mc : List ℝ) {k : ν} (hk : k ≠ n) (σ : Src) (b l : Bool) :
    Two (fun x y : St ν × MapObj × List ℝ => Sim2 e n u t t' x.1 y.1 ∧ x.2 = y.2) (addCounts e s mc k σ b l)
      (addCounts e s' mc k σ b l) := by
  unfold addCounts
  by_cases hl : mc.length ≠ e.filled.length
  · rw [if_pos hl, if_pos hl]; exact .throws
  · rw [if_neg hl, if_neg hl]
    refine (two2_getMap h hk σ).bind ?_
    rintro ⟨s1, m⟩ ⟨s1', m'⟩ ⟨h1, hm⟩
    simp only at h1 hm ⊢
    subst hm
    refine (Two.refl _).bind ?_
    rintro v _ rfl
    exact .ok ⟨h1.put hk _, rfl⟩

theorem two2_changedLoop (rest : List (ν × Src)) (h : Sim2 e n u t t' s s') (b : Bool)
    (hr : ∀ x ∈ rest, x.1 = n → x.2.useEdisp = u) :
    Two (fun x y : St ν × Bool => Sim2 e n u t t' x.1 y.1 ∧ x.2 = y.2) (changedLoop e rest s b) (changedLoop e rest s' b) := by
  induction rest generalizing s s' b with
  | nil => exact .ok ⟨h, rfl⟩
  | cons x rest ih =>
    obtain ⟨k, σ⟩ := x
    have hr' : ∀ x ∈ rest, x.1 = n → x.2.useEdisp = u := fun x hx => hr x (List.mem_cons_of_mem _ hx)
    unfold changedLoop
    by_cases hf : σ.fixed = true
    · rw [if_pos hf, if_pos hf]
      by_cases hk : k = n
      · have hσ : σ.useEdisp = u := hr (k, σ) (by simp) hk
        subst hk
        refine (two2_getMapN h hσ).bind ?_
        rintro ⟨s1, m⟩ ⟨s1', m'⟩ ⟨h1, hm⟩
        simp only at h1 hm ⊢
        rw [hm]
        exact ih h1 _ hr'
      · refine (two2_getMap h hk σ).bind ?_
        rintro ⟨s1, m⟩ ⟨s1', m'⟩ ⟨h1, hm⟩
        simp only at h1 hm ⊢
        subst hm
        exact ih h1 _ hr'
    · rw [if_neg hf, if_neg hf]
      exact ih h _ hr'

theorem getMap_core {s s1 : St ν} {k : ν} {σ : Src} {m : MapObj} (h : getMap e s k σ = .ok (s1, m)) : Core s s1 := by
  unfold getMap at h
  cases hf : find s.maps k with
  | some m0 => rw [hf] at h; cases h; exact ⟨rfl, rfl, rfl, rfl, rfl, rfl, rfl, rfl, rfl⟩
  | none =>
    rw [hf] at h
    obtain ⟨m1, h1, h2⟩ := Res.bind_eq_ok.1 h
    cases h2; exact ⟨rfl, rfl, rfl, rfl, rfl, rfl, rfl, rfl, rfl⟩

theorem Core.trans {a b c : St ν} (h : Core a b) (h' : Core b c) : Core a c :=
  ⟨h'.srcs.trans h.srcs, h'.fixedNames.trans h.fixedNames, h'.fixedCounts.trans h.fixedCounts,
    h'.fixedSpec.trans h.fixedSpec, h'.kmin.trans h.kmin, h'.kmax.trans h.kmax, h'.model.trans h.model,
    h'.current.trans h.current, h'.cacheEv.trans h.cacheEv⟩

/-- Sizes and flags of the source whose image was replaced. -/
structure Usable (e : Env) (u : Bool) (t t' : Nat → List ℝ) (σ : Src) : Prop where
  flag : σ.useEdisp = u
  old : (t (e.extra u)).length = (e.nebins + 1 + 2 * e.extra u) * e.npix
  new' : (t' (e.extra u)).length = (e.nebins + 1 + 2 * e.extra u) * e.npix
  spec : (σ.spec (e.extra u) σ.vals).length = e.nebins + 2 * e.extra u

theorem two2_evalLoop (he : e.Ok) (hev : 0 ≤ e.ev) (rest : List (ν × Src)) (h : Sim2 e n u t t' s s') (mc : List ℝ)
    (np : ℝ) (hr : ∀ x ∈ rest, x.1 = n → Usable e u t t' x.2) (hn : n ∈ s.fixedNames) (hk : s.kmax ≤ e.nebins)
    (hce : s.cacheEv = e.ev) :
    Two (fun x y : St ν × List ℝ × ℝ => Sim2 e n u t t' x.1 y.1 ∧ x.2 = y.2) (evalLoop e true rest s mc np)
      (evalLoop e true rest s' mc np) := by
  induction rest generalizing s s' mc np with
  | nil => exact .ok ⟨h, rfl⟩
  | cons x rest ih =>
    obtain ⟨k, σ⟩ := x
    have hr' : ∀ x ∈ rest, x.1 = n → Usable e u t t' x.2 := fun x hx => hr x (List.mem_cons_of_mem _ hx)
    unfold evalLoop
    by_cases hkn : k = n
    · have hσ : Usable e u t t' σ := hr (k, σ) (by simp) hkn
      subst hkn
      obtain ⟨m, m', g1, g2, g3, g4, g5⟩ := h.at'
      obtain ⟨m1, v1, a1, a2, a3⟩ := npred_of_map h.sorted g1 g3 hσ.flag hσ.old hσ.spec he hev hk hce
      obtain ⟨m2, v2, b1, b2, b3⟩ := npred_of_map h.sorted' g2 g4 hσ.flag hσ.new' hσ.spec he hev
        (by rw [h.core.kmax]; exact hk) (by rw [h.core.cacheEv]; exact hce)
      rw [a1, b1, Res.bind_ok, Res.bind_ok]
      simp only
      have hn1 : k ∈ (s.putMap k m1).fixedNames := hn
      have hn2 : k ∈ (s'.putMap k m2).fixedNames := by
        show k ∈ s'.fixedNames
        rw [h.core.fixedNames]; exact hn
      rw [if_pos hn1, if_pos hn2]
      exact ih (h.putN a2 b2 (by rw [a3, b3, g5])) mc np hr' hn hk hce
    · have h3 : ∀ s1 v, npredValue e s k σ true = .ok (s1, v) → Core s s1 := by
        intro s1 v hv
        unfold npredValue at hv
        obtain ⟨⟨s2, m2⟩, c1, c2⟩ := Res.bind_eq_ok.1 hv
        simp only at c2
        obtain ⟨m3, c3, c4⟩ := Res.bind_eq_ok.1 c2
        obtain ⟨x, c5, c6⟩ := Res.bind_eq_ok.1 c4
        cases c6
        have := getMap_core c1
        exact ⟨this.srcs, this.fixedNames, this.fixedCounts, this.fixedSpec, this.kmin, this.kmax, this.model, this.current,
          this.cacheEv⟩
      have h4 := two2_npred (e := e) h hkn σ true
      generalize hx : npredValue e s k σ true = r at h4 h3
      generalize npredValue e s' k σ true = r' at h4
      cases h4 with
      | throws => exact .throws
      | ub => exact .ub
      | ok h5 =>
        rename_i p p'
        obtain ⟨s1, v⟩ := p
        obtain ⟨s1', v'⟩ := p'
        obtain ⟨h6, hv⟩ := h5
        simp only at h6 hv
        subst hv
        have hc := h3 s1 v rfl
        rw [Res.bind_ok, Res.bind_ok]
        simp only
        rw [h6.core.fixedNames]
        by_cases hf : k ∈ s1.fixedNames
        · rw [if_pos hf, if_pos hf]
          exact ih h6 mc np hr' (by rw [hc.fixedNames]; exact hn) (by rw [hc.kmax]; exact hk) (by rw [hc.cacheEv]; exact hce)
        · rw [if_neg hf, if_neg hf]
          have h7 := two2_addCounts (e := e) h6 mc hkn σ false false
          have h8 : ∀ s2 y, addCounts e s1 mc k σ false false = .ok (s2, y) → Core s1 s2 := by
            intro s2 y hv
            unfold addCounts at hv
            split at hv
            · cases hv
            · obtain ⟨⟨s3, m3⟩, c1, c2⟩ := Res.bind_eq_ok.1 hv
              simp only at c2
              obtain ⟨c, c3, c4⟩ := Res.bind_eq_ok.1 c2
              cases c4
              have := getMap_core c1
              exact ⟨this.srcs, this.fixedNames, this.fixedCounts, this.fixedSpec, this.kmin, this.kmax, this.model,
                this.current, this.cacheEv⟩
          generalize addCounts e s1 mc k σ false false = r at h7 h8
          generalize addCounts e s1' mc k σ false false = r' at h7
          cases h7 with
          | throws => exact .throws
          | ub => exact .ub
          | ok h9 =>
            rename_i p p'
            obtain ⟨s2, m2, mc2⟩ := p
            obtain ⟨s2', m2', mc2'⟩ := p'
            obtain ⟨h10, hm⟩ := h9
            simp only at h10 hm
            cases hm
            have hc2 := h8 s2 _ rfl
            rw [Res.bind_ok, Res.bind_ok]
            simp only
            exact ih h10 _ _ hr' (by rw [hc2.fixedNames, hc.fixedNames]; exact hn)
              (by rw [hc2.kmax, hc.kmax]; exact hk) (by rw [hc2.cacheEv, hc.cacheEv]; exact hce)

/-- Nothing has changed since the fixed model was built. -/
theorem changedLoop_false (he : e.Ok) (hev : 0 ≤ e.ev) (rest : List (ν × Src)) (st : St ν) (h : Inv e L st)
    (hr : ∀ x ∈ rest, find st.srcs x.1 = some x.2) (hc : AllCur st)
    (hf : ∀ x ∈ rest, x.2.fixed = true → x.1 ∈ st.fixedNames) :
    ∃ st', changedLoop e rest st false = .ok (st', false) ∧ Inv e L st' ∧ Keeps st st' := by
  induction rest generalizing st with
  | nil => exact ⟨st, rfl, h, Keeps.refl st⟩
  | cons x rest ih =>
    obtain ⟨n, σ⟩ := x
    have hn : find st.srcs n = some σ := hr (n, σ) (by simp)
    unfold changedLoop
    by_cases hfx : σ.fixed = true
    · rw [if_pos hfx]
      obtain ⟨m, g1, g2, g3⟩ := getMap_ok h he hev hn
      rw [g1, Res.bind_ok]
      simp only
      obtain ⟨i1, i2⟩ := putMap_inv h g2 g3
      have hnf := hf (n, σ) (by simp) hfx
      obtain ⟨m0, hm0⟩ := (h.fixedIn n hnf).2
      have hsp : spectrumChanged m σ = false := by
        unfold spectrumChanged
        rw [g3 m0 hm0, hc n hnf σ m0 hn hm0]
        simp
      rw [hsp]
      obtain ⟨st', b1, b2, b3⟩ := ih (st.putMap n m) i1 (fun y hy => hr y (List.mem_cons_of_mem _ hy)) (hc.keeps h i2)
        (fun y hy => hf y (List.mem_cons_of_mem _ hy))
      exact ⟨st', b1, b2, i2.trans b3⟩
    · rw [if_neg hfx]
      exact ih st h (fun y hy => hr y (List.mem_cons_of_mem _ hy)) hc (fun y hy => hf y (List.mem_cons_of_mem _ hy))

theorem noUpdate (h : Inv e L st) (he : e.Ok) (hev : 0 ≤ e.ev) (hne : 0 < e.nebins) (hv : Evaluated e st) :
    ∃ st', fixedModelUpdated e st = .ok (st', false) ∧ Inv e L st' ∧ Keeps st st' ∧
      changedLoop e st.srcs st false = .ok (st', false) := by
  have hlen : (fixedNow st.srcs).length = st.fixedNames.length := hv.perm.length_eq.symm
  have hany : (fixedNow st.srcs).any (fun n => decide (st.fixedNames.count n ≠ 1)) = false := by
    rw [List.any_eq_false]
    intro n hn
    have hn' : n ∈ st.fixedNames := hv.perm.symm.subset hn
    simp only [decide_eq_true_eq, ne_eq, not_not]
    exact List.count_eq_one_of_mem h.nodup hn'
  obtain ⟨st', b1, b2, b3⟩ := changedLoop_false he hev st.srcs st h (fun x hx => StdMap.find_of_mem h.sorted hx) hv.cur
    (fun x hx hf => hv.perm.symm.subset ((mem_fixedNow h).2 ⟨x.2, StdMap.find_of_mem h.sorted hx, hf⟩))
  refine ⟨st', ?_, b2, b3, b1⟩
  unfold fixedModelUpdated
  rw [if_neg (by rw [h.sized.counts]; rintro ⟨hh, -⟩; omega)]
  simp only [hany, hlen]
  simpa using b1

/-- An evaluation right after the image of a fixed source was replaced returns what it returned before. -/
theorem value_image (h : Inv e L s) (he : e.Ok) (hev : 0 ≤ e.ev) (hne : 0 < e.nebins) (hv : Evaluated e s)
    (hk : s.kmax ≤ e.nebins) (hs : Sim2 e n u t t' s s') (hn : n ∈ s.fixedNames)
    (hu : ∀ σ, find s.srcs n = some σ → Usable e u t t' σ) :
    ∃ st', value e s' = .ok (st', logLike e s.srcs s.kmin s.kmax) := by
  obtain ⟨s1, a1, a2, a3, a4⟩ := noUpdate h he hev hne hv
  have hr : ∀ x ∈ s.srcs, x.1 = n → Usable e u t t' x.2 := by
    intro x hx hxn
    have := StdMap.find_of_mem h.sorted hx
    rw [hxn] at this
    exact hu _ this
  have h2 := two2_changedLoop (e := e) s.srcs hs false (fun x hx hxn => (hr x hx hxn).flag)
  obtain ⟨⟨s1', b⟩, c1, c2, c3⟩ := h2.ok_left a4
  simp only at c2 c3
  subst c3
  have hlen : (fixedNow s.srcs).length = s.fixedNames.length := hv.perm.length_eq.symm
  have hany : (fixedNow s.srcs).any (fun n => decide (s.fixedNames.count n ≠ 1)) = false := by
    rw [List.any_eq_false]
    intro n hn
    have hn' : n ∈ s.fixedNames := hv.perm.symm.subset hn
    simp only [decide_eq_true_eq, ne_eq, not_not]
    exact List.count_eq_one_of_mem h.nodup hn'
  have d1 : fixedModelUpdated e s' = .ok (s1', false) := by
    unfold fixedModelUpdated
    rw [hs.core.fixedSpec, hs.core.fixedNames, hs.core.srcs,
      if_neg (by rw [h.sized.counts]; rintro ⟨hh, -⟩; omega)]
    simp only [hany, hlen]
    simpa using c1
  have u1 : updateFixed e s = .ok s1 := by unfold updateFixed; rw [a1, Res.bind_ok]; rfl
  have u2 : updateFixed e s' = .ok s1' := by unfold updateFixed; rw [d1, Res.bind_ok]; rfl
  have hcm : Two (fun x y : St ν × ℝ => Sim2 e n u t t' x.1 y.1 ∧ x.2 = y.2) (computeModel e true s) (computeModel e true s') := by
    unfold computeModel
    rw [u1, u2, Res.bind_ok, Res.bind_ok]
    have hf : fixedNpred s1' true = fixedNpred s1 true := by
      unfold fixedNpred; rw [c2.core.fixedSpec, c2.core.kmin, c2.core.kmax]
    rw [c2.core.fixedCounts, hf, c2.core.srcs]
    refine (Two.refl _).bind ?_
    rintro c _ rfl
    refine (Two.refl _).bind ?_
    rintro np _ rfl
    refine (two2_evalLoop he hev s1.srcs c2 c np (by rw [a3.srcs]; exact hr) (by rw [a3.fixedNames]; exact hn)
      (by rw [a3.kmax]; exact hk) (by rw [a3.cacheEv]; exact h.cacheEv)).bind ?_
    rintro ⟨s2, mc, v⟩ ⟨s2', mc', v'⟩ ⟨h2, hm⟩
    simp only at h2 hm ⊢
    cases hm
    rw [h2.core.kmin, h2.core.kmax]
    refine (Two.refl _).bind ?_
    rintro md _ rfl
    exact .ok ⟨⟨⟨h2.core.srcs, h2.core.fixedNames, h2.core.fixedCounts, h2.core.fixedSpec, rfl, rfl, rfl,
      rfl, h2.core.cacheEv⟩, h2.sorted, h2.sorted', h2.other, h2.at'⟩, rfl⟩
  have hval : Two (fun x y : St ν × ℝ => Sim2 e n u t t' x.1 y.1 ∧ x.2 = y.2) (value e s) (value e s') := by
    unfold value
    refine hcm.bind ?_
    rintro ⟨s2, v⟩ ⟨s2', v'⟩ ⟨h2, hv⟩
    simp only at h2 hv ⊢
    subst hv
    have hd : dataTerm e s2' = dataTerm e s2 := by
      unfold dataTerm; rw [h2.core.model, h2.core.kmin, h2.core.kmax]
    rw [hd, h2.core.srcs]
    refine (Two.refl _).bind ?_
    rintro d _ rfl
    exact .ok ⟨h2, rfl⟩
  obtain ⟨st', v1, -⟩ := value_ok h he hev hk
  obtain ⟨⟨w, x⟩, w1, w2, w3⟩ := hval.ok_left v1
  simp only at w3
  exact ⟨w, by rw [w1, w3]⟩

end Verif.Redata
