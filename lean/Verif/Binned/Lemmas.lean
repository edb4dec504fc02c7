import Verif.Binned.MapLemmas
import Mathlib.Data.List.Perm.Basic
import Mathlib.Algebra.BigOperators.Group.List.Basic
set_option linter.unusedVariables false
set_option linter.unusedSimpArgs false
set_option linter.unusedSectionVars false
namespace Verif.Binned

open Verif.Vec Verif.Edisp Verif.Drm
open Verif.StdMap (find put erase keys)
open scoped BigOperators

variable {ν : Type} [LinearOrder ν]

/-- Counts of a source summed over the pixels of bin `k`, with the weights. -/
noncomputable def wcounts (e : Env) (σ : Src) (v : List ℝ) (k : Nat) : ℝ :=
  ∑ p ∈ Finset.range e.npix, wt e k p * counts e σ v k p

/-- What source `n` contributed to the cached fixed model in pixel `p` of bin `k`. -/
noncomputable def contrib (e : Env) (st : St ν) (n : ν) (k p : Nat) : ℝ :=
  match find st.srcs n, find st.maps n with
  | some σ, some m => counts e σ m.latched k p
  | _, _ => 0

noncomputable def wcontrib (e : Env) (st : St ν) (n : ν) (k : Nat) : ℝ :=
  match find st.srcs n, find st.maps n with
  | some σ, some m => wcounts e σ m.latched k
  | _, _ => 0

/-- Invariant of a likelihood object.  `L` gives the dispersion flag and the template used
under each name. -/
structure Inv (e : Env) (L : ν → Bool × (Nat → List ℝ)) (st : St ν) : Prop where
  sorted : StdMap.Sorted st.srcs
  sortedM : StdMap.Sorted st.maps
  src : ∀ n σ, find st.srcs n = some σ → σ.Ok e ∧ (σ.useEdisp, σ.tmpl) = L n
  map : ∀ n m, find st.maps n = some m → Fit e (L n).1 (L n).2 m
  cacheEv : st.cacheEv = e.ev
  nodup : st.fixedNames.Nodup
  fixedIn : ∀ n ∈ st.fixedNames, (∃ σ, find st.srcs n = some σ) ∧ ∃ m, find st.maps n = some m
  countsLen : st.fixedCounts.length = e.filled.length
  countsVal : ∀ k < e.nebins, ∀ j, val e.first k ≤ j → j < val e.first (k + 1) →
    val st.fixedCounts j = (st.fixedNames.map (fun n => contrib e st n k (val e.filled j))).sum
  sized : Sized e st.fixedSpec
  specVal : ∀ k < e.nebins, val st.fixedSpec.edispWt k =
    (st.fixedNames.map (fun n => wcontrib e st n k)).sum

variable {e : Env} {L : ν → Bool × (Nat → List ℝ)} {st : St ν}

theorem Inv.useEdisp (h : Inv e L st) {n : ν} {σ : Src} (hn : find st.srcs n = some σ) :
    (L n).1 = σ.useEdisp := by rw [← (h.src n σ hn).2]

theorem Inv.tmpl (h : Inv e L st) {n : ν} {σ : Src} (hn : find st.srcs n = some σ) :
    (L n).2 = σ.tmpl := by rw [← (h.src n σ hn).2]

theorem Inv.fit (h : Inv e L st) {n : ν} {σ : Src} (hn : find st.srcs n = some σ) {m : MapObj} :
    Fit e (L n).1 (L n).2 m ↔ Fit e σ.useEdisp σ.tmpl m := by
  rw [h.useEdisp hn, h.tmpl hn]

/-- Everything but the maps is the same. -/
structure Core (st st' : St ν) : Prop where
  srcs : st'.srcs = st.srcs
  fixedNames : st'.fixedNames = st.fixedNames
  fixedCounts : st'.fixedCounts = st.fixedCounts
  fixedSpec : st'.fixedSpec = st.fixedSpec
  kmin : st'.kmin = st.kmin
  kmax : st'.kmax = st.kmax
  model : st'.model = st.model
  current : st'.current = st.current
  cacheEv : st'.cacheEv = st.cacheEv

/-- Moreover the parameters remembered for the cached fixed sources are the same. -/
structure Keeps (st st' : St ν) : Prop extends Core st st' where
  latched : ∀ n ∈ st.fixedNames, ∀ m, find st.maps n = some m →
    ∃ m', find st'.maps n = some m' ∧ m'.latched = m.latched

theorem Keeps.refl (st : St ν) : Keeps st st :=
  ⟨⟨rfl, rfl, rfl, rfl, rfl, rfl, rfl, rfl, rfl⟩, fun n _ m h => ⟨m, h, rfl⟩⟩

theorem Keeps.trans {a b c : St ν} (h : Keeps a b) (h' : Keeps b c) : Keeps a c where
  srcs := by rw [h'.srcs, h.srcs]
  fixedNames := by rw [h'.fixedNames, h.fixedNames]
  fixedCounts := by rw [h'.fixedCounts, h.fixedCounts]
  fixedSpec := by rw [h'.fixedSpec, h.fixedSpec]
  kmin := by rw [h'.kmin, h.kmin]
  kmax := by rw [h'.kmax, h.kmax]
  model := by rw [h'.model, h.model]
  current := by rw [h'.current, h.current]
  cacheEv := by rw [h'.cacheEv, h.cacheEv]
  latched := by
    intro n hn m hm
    obtain ⟨m1, a1, a2⟩ := h.latched n hn m hm
    obtain ⟨m2, b1, b2⟩ := h'.latched n (by rw [h.fixedNames]; exact hn) m1 a1
    exact ⟨m2, b1, by rw [b2, a2]⟩

/-- The parameters of every cached fixed source are those it was cached with. -/
def AllCur (st : St ν) : Prop :=
  ∀ n ∈ st.fixedNames, ∀ σ m, find st.srcs n = some σ → find st.maps n = some m →
    m.latched = σ.vals

theorem AllCur.keeps {st' : St ν} (h : AllCur st) (hi : Inv e L st) (hk : Keeps st st') :
    AllCur st' := by
  intro n hn σ m hs hm
  rw [hk.fixedNames] at hn
  rw [hk.srcs] at hs
  obtain ⟨_, m0, hm0⟩ := hi.fixedIn n hn
  obtain ⟨m1, h1, h2⟩ := hk.latched n hn m0 hm0
  rw [h1] at hm
  cases hm
  rw [h2]
  exact h n hn σ m0 hs hm0

theorem sum_congr_mem {α : Type} {l : List α} {f g : α → ℝ} (h : ∀ x ∈ l, f x = g x) :
    (l.map f).sum = (l.map g).sum := by rw [List.map_congr_left h]

/-- Replacing a map that fits, with the remembered parameters kept for cached sources. -/
theorem putMap_inv (h : Inv e L st) {n : ν} {m : MapObj} (hm : Fit e (L n).1 (L n).2 m)
    (hl : ∀ m0, find st.maps n = some m0 → m.latched = m0.latched) :
    Inv e L (st.putMap n m) ∧ Keeps st (st.putMap n m) := by
  have hfind : ∀ x, find (put st.maps n m) x = if x = n then some m else find st.maps x :=
    fun x => StdMap.find_put h.sortedM
  have hc : ∀ x ∈ st.fixedNames, ∀ k p, contrib e (st.putMap n m) x k p = contrib e st x k p := by
    intro x hx k p
    obtain ⟨⟨σ, hs⟩, m0, hm0⟩ := h.fixedIn x hx
    unfold contrib St.putMap
    simp only [hfind, hs, hm0]
    by_cases hxn : x = n
    · subst hxn
      simp only [if_true]
      rw [hl m0 hm0]
    · simp only [if_neg hxn]
  have hw : ∀ x ∈ st.fixedNames, ∀ k, wcontrib e (st.putMap n m) x k = wcontrib e st x k := by
    intro x hx k
    obtain ⟨⟨σ, hs⟩, m0, hm0⟩ := h.fixedIn x hx
    unfold wcontrib St.putMap
    simp only [hfind, hs, hm0]
    by_cases hxn : x = n
    · subst hxn
      simp only [if_true]
      rw [hl m0 hm0]
    · simp only [if_neg hxn]
  refine ⟨⟨h.sorted, StdMap.sorted_put h.sortedM _ _, h.src, ?_, h.cacheEv, h.nodup, ?_,
    h.countsLen, ?_, h.sized, ?_⟩, ⟨⟨rfl, rfl, rfl, rfl, rfl, rfl, rfl, rfl, rfl⟩, ?_⟩⟩
  · intro x m' hx
    have : find (put st.maps n m) x = some m' := hx
    rw [hfind] at this
    by_cases hxn : x = n
    · rw [if_pos hxn] at this; cases this; rw [hxn]; exact hm
    · rw [if_neg hxn] at this; exact h.map x m' this
  · intro x hx
    refine ⟨(h.fixedIn x hx).1, ?_⟩
    obtain ⟨m0, hm0⟩ := (h.fixedIn x hx).2
    change ∃ m', find (put st.maps n m) x = some m'
    rw [hfind]
    by_cases hxn : x = n
    · rw [if_pos hxn]; exact ⟨m, rfl⟩
    · rw [if_neg hxn]; exact ⟨m0, hm0⟩
  · intro k hk j h1 h2
    refine (h.countsVal k hk j h1 h2).trans ?_
    exact (sum_congr_mem (fun x hx => hc x hx k _)).symm
  · intro k hk
    refine (h.specVal k hk).trans ?_
    exact (sum_congr_mem (fun x hx => hw x hx k)).symm
  · intro x hx m0 hm0
    change ∃ m', find (put st.maps n m) x = some m' ∧ _
    rw [hfind]
    by_cases hxn : x = n
    · subst hxn; rw [if_pos rfl]; exact ⟨m, rfl, hl m0 hm0⟩
    · rw [if_neg hxn]; exact ⟨m0, hm0, rfl⟩

theorem putMap_putMap (h : Inv e L st) (n : ν) (a b : MapObj) :
    (st.putMap n a).putMap n b = st.putMap n b := by
  unfold St.putMap
  simp only [StdMap.put_put h.sortedM]

theorem getMap_ok (h : Inv e L st) (he : e.Ok) (hev : 0 ≤ e.ev) {n : ν} {σ : Src}
    (hn : find st.srcs n = some σ) :
    ∃ m, getMap e st n σ = .ok (st.putMap n m, m) ∧ Fit e (L n).1 (L n).2 m ∧
      ∀ m0, find st.maps n = some m0 → m.latched = m0.latched := by
  unfold getMap
  cases hm : find st.maps n with
  | some m0 =>
    simp only
    obtain ⟨f1, f2⟩ := setSource_fit (h.map n m0 hm) (h.useEdisp hn).symm
    refine ⟨_, rfl, f1, ?_⟩
    intro m1 hm1; cases hm1; exact f2
  | none =>
    simp only
    obtain ⟨m, f1, f2⟩ := newMap_ok he hev (h.src n σ hn).1
    rw [h.cacheEv, f1, Res.bind_ok]
    exact ⟨m, rfl, (h.fit hn).2 f2, fun m0 hm0 => by cases hm0⟩

/-- A fitting map with this source's spectral weights is usable. -/
theorem Inv.mapOk (h : Inv e L st) (he : e.Ok) {n : ν} {σ : Src} (hn : find st.srcs n = some σ)
    {m : MapObj} (hf : Fit e (L n).1 (L n).2 m) {v : List ℝ}
    (hw : m.map.specWts = σ.spec (e.extra (L n).1) v) : m.map.Ok := by
  have hσ := (h.src n σ hn).1
  rw [h.useEdisp hn] at hw
  exact ((h.fit hn).1 hf).ok he hσ.tmpl (by rw [hw]; exact hσ.spec v)

theorem Inv.pix (h : Inv e L st) (he : e.Ok) (hev : 0 ≤ e.ev) {n : ν} {σ : Src}
    (hn : find st.srcs n = some σ) {m : MapObj} (hf : Fit e (L n).1 (L n).2 m) {v : List ℝ}
    (hw : m.map.specWts = σ.spec (e.extra (L n).1) v) (k p : Nat) :
    m.map.pix m.map.specWts k p = counts e σ v k p := by
  rw [hf.pix he hev, hw, h.useEdisp hn, h.tmpl hn]; rfl

theorem Inv.wdisp (h : Inv e L st) {n : ν} {σ : Src} (hn : find st.srcs n = some σ) {v : List ℝ}
    {w : List (ℝ × ℝ)} (hw : w = σ.spec (e.extra (L n).1) v) (k : Nat) :
    Binned.wdisp e (L n).1 ((L n).2 (e.extra (L n).1)) w k = wcounts e σ v k := by
  rw [hw, h.useEdisp hn, h.tmpl hn]; rfl

theorem npredValue_ok (h : Inv e L st) (he : e.Ok) (hev : 0 ≤ e.ev) (hk : st.kmax ≤ e.nebins)
    {n : ν} {σ : Src} (hn : find st.srcs n = some σ) :
    ∃ st', npredValue e st n σ true =
        .ok (st', ∑ k ∈ Finset.Ico st.kmin st.kmax, wcounts e σ σ.vals k) ∧
      Inv e L st' ∧ Keeps st st' := by
  obtain ⟨m, g1, g2, g3⟩ := getMap_ok h he hev hn
  obtain ⟨s1, s2⟩ := setSpectral_fit g2 σ false
  have hok := h.mapOk he hn s1 s2
  obtain ⟨m', r1, r2, r3, r4, r5, r6, r7⟩ := refreshCache_ok s1 he hev hok
  have hlat : ∀ m0, find st.maps n = some m0 → m'.latched = m0.latched := by
    intro m0 hm0; rw [r3]; exact g3 m0 hm0
  obtain ⟨i1, i2⟩ := putMap_inv h r2 hlat
  refine ⟨st.putMap n m', ?_, i1, i2⟩
  unfold npredValue
  rw [g1, Res.bind_ok]
  simp only
  rw [r1, Res.bind_ok]
  have hflag : edispFlag (st.putMap n m) σ = 0 → (setSpectral m σ false).map.ev = 0 := by
    intro hf
    rw [s1.ev, h.useEdisp hn]
    unfold edispFlag at hf
    have : (st.putMap n m).cacheEv = e.ev := h.cacheEv
    rw [this] at hf
    by_cases hu : σ.useEdisp = true
    · rw [if_pos hu] at hf ⊢; exact hf
    · rw [if_neg hu]
  have hsum := r7 st.kmin st.kmax _ hk hflag
  have e1 : (st.putMap n m).kmin = st.kmin := rfl
  have e2 : (st.putMap n m).kmax = st.kmax := rfl
  rw [e1, e2, hsum, Res.bind_ok, putMap_putMap h]
  congr 2
  apply Finset.sum_congr rfl
  intro k _
  exact h.wdisp hn s2 k

theorem addCounts_ok (h : Inv e L st) (he : e.Ok) (hev : 0 ≤ e.ev) {n : ν} {σ : Src}
    (hn : find st.srcs n = some σ) {mc : List ℝ} (hmc : mc.length = e.filled.length)
    (subtract latch : Bool) :
    ∃ m out, addCounts e st mc n σ subtract latch = .ok (st.putMap n m, m, out) ∧
      Fit e (L n).1 (L n).2 m ∧ m.map.specWts = σ.spec (e.extra (L n).1) σ.vals ∧
      (latch = true → m.latched = σ.vals) ∧
      (latch = false → ∀ m0, find st.maps n = some m0 → m.latched = m0.latched) ∧
      out.length = e.filled.length ∧
      ∀ k < e.nebins, ∀ j, val e.first k ≤ j → j < val e.first (k + 1) →
        val out j = val mc j + (if subtract then -1 else 1) * counts e σ σ.vals k (val e.filled j) := by
  have lay := lay_of he
  obtain ⟨m, g1, g2, g3⟩ := getMap_ok h he hev hn
  obtain ⟨s1, s2⟩ := setSpectral_fit g2 σ latch
  have hok := h.mapOk he hn s1 s2
  obtain ⟨out, a1, a2, a3⟩ := addSourceCounts_ok lay hok s1.nebins s1.npix subtract hmc
  refine ⟨setSpectral m σ latch, out, ?_, s1, s2, ?_, ?_, by omega, ?_⟩
  · unfold addCounts
    rw [if_neg (by omega), g1, Res.bind_ok]
    simp only
    rw [a1, Res.bind_ok, putMap_putMap h]
  · intro hl; simp [setSpectral, hl]
  · intro hl m0 hm0; simp only [setSpectral, hl]; exact g3 m0 hm0
  · intro k hk j h1 h2
    rw [a3 k hk j h1 h2, h.pix he hev hn s1 s2]

/-- Adding a source to the cached fixed model. -/
theorem addFixed_ok (h : Inv e L st) (he : e.Ok) (hev : 0 ≤ e.ev) {n : ν} {σ : Src}
    (hn : find st.srcs n = some σ) (hnf : n ∉ st.fixedNames) :
    ∃ st', addFixed e st n σ = .ok st' ∧ Inv e L st' ∧ st'.srcs = st.srcs ∧
      st'.fixedNames = st.fixedNames ++ [n] ∧ st'.kmin = st.kmin ∧ st'.kmax = st.kmax ∧
      st'.current = st.current ∧ (AllCur st → AllCur st') ∧ st'.model = st.model ∧
      (∀ m, find st'.maps n = some m → m.latched = σ.vals) ∧
      ∀ x, x ≠ n → find st'.maps x = find st.maps x := by
  -- the same state with the name pushed: `addCounts` does not look at the names
  set st1 : St ν := { st with fixedNames := st.fixedNames ++ [n] } with hst1
  obtain ⟨m, out, a1, a2, a3, a4, a5, a6, a7⟩ :=
    addCounts_ok h he hev hn h.countsLen false true
  have hlat := a4 rfl
  have a1' : addCounts e st1 st.fixedCounts n σ false true = .ok (st1.putMap n m, m, out) := by
    have : getMap e st1 n σ = (getMap e st n σ >>= fun x =>
        .ok ({ x.1 with fixedNames := st.fixedNames ++ [n] }, x.2)) := by
      unfold getMap
      have e0 : st1.maps = st.maps := rfl
      have e00 : st1.cacheEv = st.cacheEv := rfl
      rw [e0, e00]
      cases hm : find st.maps n with
      | some m0 => rfl
      | none =>
        simp only
        cases hnm : newMap e st.cacheEv σ <;> rfl
    unfold addCounts at a1 ⊢
    rw [if_neg (by rw [h.countsLen]; simp)] at a1 ⊢
    obtain ⟨⟨sx, mx⟩, b1, b2⟩ := Res.bind_eq_ok.1 a1
    rw [this, b1, Res.bind_ok, Res.bind_ok]
    simp only at b2 ⊢
    obtain ⟨o, b3, b4⟩ := Res.bind_eq_ok.1 b2
    rw [b3, Res.bind_ok]
    injection b4 with b4
    have b5 := congrArg Prod.fst b4
    have b6 := congrArg (fun x => x.2.1) b4
    have b7 := congrArg (fun x => x.2.2) b4
    simp only at b5 b6 b7
    subst b7
    rw [b6] at b5 ⊢
    have b8 := congrArg St.maps b5
    obtain ⟨m', g1, -, -⟩ := getMap_ok h he hev hn
    rw [b1] at g1
    injection g1 with g1
    have g2 := congrArg Prod.fst g1
    simp only at g2
    subst g2
    congr 2
    unfold St.putMap at b8 ⊢
    simp only at b8 ⊢
    rw [b8]
  have hok := h.mapOk he hn a2 a3
  obtain ⟨sp, p1, p2, p3⟩ := addNpreds_ok a2 he hev hok false h.sized
  have hfind : ∀ x, find (put st.maps n m) x = if x = n then some m else find st.maps x :=
    fun x => StdMap.find_put h.sortedM
  refine ⟨{ st1.putMap n m with fixedCounts := out, fixedSpec := sp }, ?_, ?_, rfl, rfl, rfl, rfl,
    rfl, ?_, rfl, ?_, ?_⟩
  · unfold addFixed
    rw [if_neg hnf]
    simp only
    rw [a1', Res.bind_ok]
    simp only
    have e1 : (st1.putMap n m).fixedSpec = st.fixedSpec := rfl
    rw [e1, p1, Res.bind_ok]
  · have hc : ∀ x ∈ st.fixedNames, ∀ k p, contrib e
        ({ st1.putMap n m with fixedCounts := out, fixedSpec := sp } : St ν) x k p =
        contrib e st x k p := by
      intro x hx k p
      have hxn : x ≠ n := fun hh => hnf (hh ▸ hx)
      unfold contrib St.putMap
      simp only [hst1, hfind, if_neg hxn]
    have hw : ∀ x ∈ st.fixedNames, ∀ k, wcontrib e
        ({ st1.putMap n m with fixedCounts := out, fixedSpec := sp } : St ν) x k =
        wcontrib e st x k := by
      intro x hx k
      have hxn : x ≠ n := fun hh => hnf (hh ▸ hx)
      unfold wcontrib St.putMap
      simp only [hst1, hfind, if_neg hxn]
    have hcn : ∀ k p, contrib e
        ({ st1.putMap n m with fixedCounts := out, fixedSpec := sp } : St ν) n k p =
        counts e σ σ.vals k p := by
      intro k p
      unfold contrib St.putMap
      simp only [hst1, hfind, if_true, hn]
      rw [hlat]
    have hwn : ∀ k, wcontrib e
        ({ st1.putMap n m with fixedCounts := out, fixedSpec := sp } : St ν) n k =
        wcounts e σ σ.vals k := by
      intro k
      unfold wcontrib St.putMap
      simp only [hst1, hfind, if_true, hn]
      rw [hlat]
    refine ⟨h.sorted, StdMap.sorted_put h.sortedM _ _, h.src, ?_, h.cacheEv, ?_, ?_, a6, ?_, p2, ?_⟩
    · intro x m' hx
      have : find (put st.maps n m) x = some m' := hx
      rw [hfind] at this
      by_cases hxn : x = n
      · rw [if_pos hxn] at this; cases this; rw [hxn]; exact a2
      · rw [if_neg hxn] at this; exact h.map x m' this
    · change (st.fixedNames ++ [n]).Nodup
      rw [List.nodup_append]
      refine ⟨h.nodup, by simp, ?_⟩
      intro a ha b hb
      simp only [List.mem_singleton] at hb
      subst hb
      exact fun hh => hnf (hh ▸ ha)
    · intro x hx
      have hx' : x ∈ st.fixedNames ++ [n] := hx
      rw [List.mem_append, List.mem_singleton] at hx'
      change (∃ σ, find st.srcs x = some σ) ∧ ∃ m', find (put st.maps n m) x = some m'
      rw [hfind]
      by_cases hxn : x = n
      · rw [if_pos hxn]; subst hxn; exact ⟨⟨σ, hn⟩, m, rfl⟩
      · rw [if_neg hxn]
        exact h.fixedIn x (hx'.resolve_right hxn)
    · intro k hk j h1 h2
      change val out j = ((st.fixedNames ++ [n]).map _).sum
      rw [List.map_append, List.sum_append, List.map_singleton, List.sum_singleton, hcn,
        sum_congr_mem (fun x hx => hc x hx k _), ← h.countsVal k hk j h1 h2, a7 k hk j h1 h2]
      simp
    · intro k hk
      change val sp.edispWt k = ((st.fixedNames ++ [n]).map _).sum
      rw [List.map_append, List.sum_append, List.map_singleton, List.sum_singleton, hwn,
        sum_congr_mem (fun x hx => hw x hx k), ← h.specVal k hk, p3 k hk, h.wdisp hn a3]
      simp
  · intro hcur x hx σ' m' hs hm
    have hx' : x ∈ st.fixedNames ++ [n] := hx
    rw [List.mem_append, List.mem_singleton] at hx'
    have hm' : find (put st.maps n m) x = some m' := hm
    have hs' : find st.srcs x = some σ' := hs
    rw [hfind] at hm'
    by_cases hxn : x = n
    · rw [if_pos hxn] at hm'; cases hm'; subst hxn
      rw [hn] at hs'; cases hs'; exact hlat
    · rw [if_neg hxn] at hm'
      exact hcur x (hx'.resolve_right hxn) σ' m' hs' hm'
  · intro m' hm'
    have : find (put st.maps n m) n = some m' := hm'
    rw [hfind, if_pos rfl] at this
    cases this
    exact hlat
  · intro x hx
    change find (put st.maps n m) x = _
    rw [hfind, if_neg hx]

/-- The loop of `buildFixedModelWts`. -/
theorem buildLoop_ok (he : e.Ok) (hev : 0 ≤ e.ev) (rest : List (ν × Src)) (st : St ν)
    (h : Inv e L st) (hr : ∀ x ∈ rest, find st.srcs x.1 = some x.2) (hnd : (keys rest).Nodup)
    (hdis : ∀ n ∈ keys rest, n ∉ st.fixedNames) (hcur : AllCur st) :
    ∃ st', buildLoop e rest st = .ok st' ∧ Inv e L st' ∧ st'.srcs = st.srcs ∧
      st'.fixedNames = st.fixedNames ++ fixedNow rest ∧ st'.kmin = st.kmin ∧
      st'.kmax = st.kmax ∧ st'.current = st.current ∧ AllCur st' := by
  induction rest generalizing st with
  | nil => exact ⟨st, rfl, h, rfl, by simp [fixedNow, keys], rfl, rfl, rfl, hcur⟩
  | cons x rest ih =>
    obtain ⟨n, σ⟩ := x
    have hn : find st.srcs n = some σ := hr (n, σ) (by simp)
    have hnd' : n ∉ keys rest ∧ (keys rest).Nodup := by
      simpa [keys, List.nodup_cons] using hnd
    unfold buildLoop
    by_cases hf : σ.fixed = true
    · rw [if_pos hf]
      obtain ⟨st1, a1, a2, a3, a4, a5, a6, a7, a8, -⟩ :=
        addFixed_ok h he hev hn (hdis n (by simp [keys]))
      rw [a1, Res.bind_ok]
      obtain ⟨st2, b1, b2, b3, b4, b5, b6, b7, b8⟩ := ih st1 a2
        (fun y hy => by rw [a3]; exact hr y (List.mem_cons_of_mem _ hy)) hnd'.2
        (by
          intro y hy
          rw [a4, List.mem_append, List.mem_singleton]
          rintro (hh | hh)
          · exact hdis y (by simp only [keys, List.map_cons, List.mem_cons] at hy ⊢; exact Or.inr hy) hh
          · exact hnd'.1 (hh ▸ hy)) (a8 hcur)
      refine ⟨st2, b1, b2, by rw [b3, a3], ?_, by rw [b5, a5], by rw [b6, a6], by rw [b7, a7], b8⟩
      rw [b4, a4, fixedNow, fixedNow, List.filter_cons_of_pos (by simpa using hf)]
      simp [keys]
    · rw [if_neg hf]
      obtain ⟨m, g1, g2, g3⟩ := getMap_ok h he hev hn
      rw [g1, Res.bind_ok]
      simp only
      obtain ⟨i1, i2⟩ := putMap_inv h g2 g3
      obtain ⟨st2, b1, b2, b3, b4, b5, b6, b7, b8⟩ := ih (st.putMap n m) i1
        (fun y hy => hr y (List.mem_cons_of_mem _ hy)) hnd'.2
        (fun y hy => hdis y (by
          simp only [keys, List.map_cons, List.mem_cons] at hy ⊢; exact Or.inr hy))
        (hcur.keeps h i2)
      refine ⟨st2, b1, b2, b3, ?_, b5, b6, b7, b8⟩
      rw [b4, fixedNow, fixedNow, List.filter_cons_of_neg (by simpa using hf)]
      rfl

theorem buildFixed_ok (h : Inv e L st) (he : e.Ok) (hev : 0 ≤ e.ev) :
    ∃ st', buildFixed e st = .ok st' ∧ Inv e L st' ∧ st'.srcs = st.srcs ∧
      st'.fixedNames = fixedNow st.srcs ∧ st'.kmin = st.kmin ∧ st'.kmax = st.kmax ∧
      st'.current = st.current ∧ AllCur st' := by
  have h0 : Inv e L ({ st with
      fixedNames := []
      fixedCounts := List.replicate e.filled.length 0
      fixedSpec := zeroSpectra e.nebins } : St ν) := by
    refine ⟨h.sorted, h.sortedM, h.src, h.map, h.cacheEv, List.nodup_nil, ?_, by simp, ?_,
      ⟨by simp [zeroSpectra], by simp [zeroSpectra], by simp [zeroSpectra], by simp [zeroSpectra]⟩, ?_⟩
    · intro n hn; simp at hn
    · intro k _ j _ _; simp
    · intro k _; simp [zeroSpectra]
  obtain ⟨st', b1, b2, b3, b4, b5, b6, b7, b8⟩ := buildLoop_ok he hev st.srcs _ h0
    (fun x hx => StdMap.find_of_mem h.sorted hx) (StdMap.nodup_keys h.sorted)
    (fun n _ => by simp) (by intro n hn; simp at hn)
  exact ⟨st', b1, b2, b3, by rw [b4]; simp, b5, b6, b7, b8⟩

theorem changedLoop_ok (he : e.Ok) (hev : 0 ≤ e.ev) (rest : List (ν × Src)) (st : St ν) (b : Bool)
    (h : Inv e L st) (hr : ∀ x ∈ rest, find st.srcs x.1 = some x.2) :
    ∃ st' b', changedLoop e rest st b = .ok (st', b') ∧ Inv e L st' ∧ Keeps st st' ∧
      (b' = false → b = false ∧ ∀ x ∈ rest, x.2.fixed = true → x.1 ∈ st.fixedNames →
        ∀ m, find st.maps x.1 = some m → m.latched = x.2.vals) := by
  induction rest generalizing st b with
  | nil => exact ⟨st, b, rfl, h, Keeps.refl st, fun hb => ⟨hb, fun x hx => by simp at hx⟩⟩
  | cons x rest ih =>
    obtain ⟨n, σ⟩ := x
    have hn : find st.srcs n = some σ := hr (n, σ) (by simp)
    unfold changedLoop
    by_cases hf : σ.fixed = true
    · rw [if_pos hf]
      obtain ⟨m, g1, g2, g3⟩ := getMap_ok h he hev hn
      rw [g1, Res.bind_ok]
      simp only
      obtain ⟨i1, i2⟩ := putMap_inv h g2 g3
      obtain ⟨st2, b2, c1, c2, c3, c4⟩ := ih (st.putMap n m) (b || spectrumChanged m σ) i1
        (fun y hy => hr y (List.mem_cons_of_mem _ hy))
      refine ⟨st2, b2, c1, c2, i2.trans c3, ?_⟩
      intro hb
      obtain ⟨d1, d2⟩ := c4 hb
      rw [Bool.or_eq_false_iff] at d1
      refine ⟨d1.1, ?_⟩
      intro y hy hyf hyn m0 hm0
      rcases List.mem_cons.1 hy with hy | hy
      · subst hy
        have := d1.2
        unfold spectrumChanged at this
        have := of_decide_eq_false this
        rw [ne_eq, not_not] at this
        rw [← g3 m0 hm0, this]
      · obtain ⟨m1, e1, e2⟩ := i2.latched y.1 hyn m0 hm0
        rw [← e2]
        exact d2 y hy hyf hyn m1 e1
    · rw [if_neg hf]
      obtain ⟨st2, b2, c1, c2, c3, c4⟩ := ih st b h
        (fun y hy => hr y (List.mem_cons_of_mem _ hy))
      refine ⟨st2, b2, c1, c2, c3, ?_⟩
      intro hb
      obtain ⟨d1, d2⟩ := c4 hb
      refine ⟨d1, ?_⟩
      intro y hy hyf hyn m0 hm0
      rcases List.mem_cons.1 hy with hy | hy
      · subst hy; exact absurd hyf hf
      · exact d2 y hy hyf hyn m0 hm0

theorem fixedNow_nodup (h : Inv e L st) : (fixedNow st.srcs).Nodup := by
  have := StdMap.nodup_keys h.sorted
  unfold fixedNow keys
  exact this.sublist (List.Sublist.map _ List.filter_sublist)

theorem mem_fixedNow (h : Inv e L st) {n : ν} :
    n ∈ fixedNow st.srcs ↔ ∃ σ, find st.srcs n = some σ ∧ σ.fixed = true := by
  unfold fixedNow keys
  rw [List.mem_map]
  constructor
  · rintro ⟨x, hx, rfl⟩
    rw [List.mem_filter] at hx
    exact ⟨x.2, StdMap.find_of_mem h.sorted hx.1, hx.2⟩
  · rintro ⟨σ, h1, h2⟩
    exact ⟨(n, σ), List.mem_filter.2 ⟨StdMap.find_some_mem h1, h2⟩, rfl⟩

theorem fixedModelUpdated_ok (h : Inv e L st) (he : e.Ok) (hev : 0 ≤ e.ev) :
    ∃ st' b, fixedModelUpdated e st = .ok (st', b) ∧ Inv e L st' ∧ Keeps st st' ∧
      (b = false → st'.fixedNames.Perm (fixedNow st'.srcs) ∧ AllCur st') := by
  unfold fixedModelUpdated
  by_cases hc : st.fixedSpec.counts.length = 0 ∧ st.fixedNames ≠ []
  · rw [if_pos hc]
    exact ⟨st, true, rfl, h, Keeps.refl st, by simp⟩
  · rw [if_neg hc]
    simp only
    obtain ⟨st', b', c1, c2, c3, c4⟩ := changedLoop_ok he hev st.srcs st
      ((fixedNow st.srcs).any (fun n => decide (st.fixedNames.count n ≠ 1)) ||
        decide ((fixedNow st.srcs).length ≠ st.fixedNames.length)) h
      (fun x hx => StdMap.find_of_mem h.sorted hx)
    refine ⟨st', b', c1, c2, c3, ?_⟩
    intro hb
    obtain ⟨d1, d2⟩ := c4 hb
    rw [Bool.or_eq_false_iff, List.any_eq_false] at d1
    have hlen : (fixedNow st.srcs).length = st.fixedNames.length := by
      have := of_decide_eq_false d1.2
      rwa [ne_eq, not_not] at this
    have hsub : fixedNow st.srcs ⊆ st.fixedNames := by
      intro n hn
      have := d1.1 n hn
      simp only [decide_eq_true_eq, ne_eq, not_not] at this
      exact List.count_pos_iff.1 (by omega)
    have hperm : (fixedNow st.srcs).Perm st.fixedNames :=
      (List.subperm_of_subset (fixedNow_nodup h) hsub).perm_of_length_le (by omega)
    have hall : AllCur st := by
      intro n hn σ m hs hm
      have hn' : n ∈ fixedNow st.srcs := hperm.symm.subset hn
      obtain ⟨σ', g1, g2⟩ := (mem_fixedNow h).1 hn'
      rw [hs] at g1; cases g1
      exact d2 (n, σ) (StdMap.find_some_mem hs) g2 hn m hm
    refine ⟨?_, hall.keeps h c3⟩
    rw [c3.fixedNames, c3.srcs]
    exact hperm.symm

theorem updateFixed_ok (h : Inv e L st) (he : e.Ok) (hev : 0 ≤ e.ev) :
    ∃ st', updateFixed e st = .ok st' ∧ Inv e L st' ∧ st'.srcs = st.srcs ∧ st'.kmin = st.kmin ∧
      st'.kmax = st.kmax ∧ st'.fixedNames.Perm (fixedNow st'.srcs) ∧ AllCur st' := by
  obtain ⟨st1, b, c1, c2, c3, c4⟩ := fixedModelUpdated_ok h he hev
  unfold updateFixed
  rw [c1, Res.bind_ok]
  simp only
  cases b with
  | true =>
    rw [if_pos rfl]
    obtain ⟨st', b1, b2, b3, b4, b5, b6, b7, b8⟩ := buildFixed_ok c2 he hev
    refine ⟨st', b1, b2, by rw [b3, c3.srcs], by rw [b5, c3.kmin], by rw [b6, c3.kmax], ?_, b8⟩
    rw [b4, b3]
  | false =>
    rw [if_neg (by simp)]
    obtain ⟨d1, d2⟩ := c4 rfl
    exact ⟨st1, rfl, c2, c3.srcs, c3.kmin, c3.kmax, d1, d2⟩

/-- The loop over the sources: the ones not in the cached list are added. -/
theorem evalLoop_ok (he : e.Ok) (hev : 0 ≤ e.ev) (rest : List (ν × Src)) (st : St ν)
    (mc : List ℝ) (np : ℝ) (h : Inv e L st) (hk : st.kmax ≤ e.nebins)
    (hr : ∀ x ∈ rest, find st.srcs x.1 = some x.2) (hmc : mc.length = e.filled.length) :
    ∃ st' out, evalLoop e true rest st mc np = .ok (st', out, np +
        ((rest.filter (fun x => decide (x.1 ∉ st.fixedNames))).map (fun x =>
          ∑ k ∈ Finset.Ico st.kmin st.kmax, wcounts e x.2 x.2.vals k)).sum) ∧
      Inv e L st' ∧ Keeps st st' ∧ out.length = e.filled.length ∧
      ∀ k < e.nebins, ∀ j, val e.first k ≤ j → j < val e.first (k + 1) →
        val out j = val mc j + ((rest.filter (fun x => decide (x.1 ∉ st.fixedNames))).map
          (fun x => counts e x.2 x.2.vals k (val e.filled j))).sum := by
  induction rest generalizing st mc np with
  | nil =>
    exact ⟨st, mc, by simp [evalLoop], h, Keeps.refl st, hmc, fun k _ j _ _ => by simp⟩
  | cons x rest ih =>
    obtain ⟨n, σ⟩ := x
    have hn : find st.srcs n = some σ := hr (n, σ) (by simp)
    obtain ⟨st1, a1, a2, a3⟩ := npredValue_ok h he hev hk hn
    have hr1 : ∀ x ∈ rest, find st1.srcs x.1 = some x.2 := by
      intro y hy; rw [a3.srcs]; exact hr y (List.mem_cons_of_mem _ hy)
    unfold evalLoop
    rw [a1, Res.bind_ok]
    simp only
    rw [a3.fixedNames]
    by_cases hf : n ∈ st.fixedNames
    · rw [if_pos hf]
      obtain ⟨st2, out, b1, b2, b3, b4, b5⟩ := ih st1 mc np a2 (by rw [a3.kmax]; exact hk) hr1 hmc
      rw [a3.fixedNames] at b5
      rw [a3.fixedNames, a3.kmin, a3.kmax] at b1
      rw [List.filter_cons_of_neg (by simpa using hf)]
      exact ⟨st2, out, b1, b2, a3.trans b3, b4, b5⟩
    · rw [if_neg hf]
      have hn1 : find st1.srcs n = some σ := by rw [a3.srcs]; exact hn
      obtain ⟨m, out1, d1, d2, d3, d4, d5, d6, d7⟩ := addCounts_ok a2 he hev hn1 hmc false false
      rw [d1, Res.bind_ok]
      simp only
      obtain ⟨i1, i2⟩ := putMap_inv a2 d2 (d5 rfl)
      obtain ⟨st2, out, b1, b2, b3, b4, b5⟩ := ih (st1.putMap n m) out1
        (np + ∑ k ∈ Finset.Ico st.kmin st.kmax, wcounts e σ σ.vals k) i1
        (by rw [i2.kmax, a3.kmax]; exact hk) hr1 d6
      rw [i2.fixedNames, a3.fixedNames] at b5
      rw [i2.fixedNames, a3.fixedNames, i2.kmin, i2.kmax, a3.kmin, a3.kmax] at b1
      rw [List.filter_cons_of_pos (by simpa using hf)]
      refine ⟨st2, out, ?_, b2, (a3.trans i2).trans b3, b4, ?_⟩
      · rw [b1]
        congr 3
        rw [List.map_cons, List.sum_cons, add_assoc]
      · intro k hk' j h1 h2
        rw [b5 k hk' j h1 h2, d7 k hk' j h1 h2, List.map_cons, List.sum_cons]
        simp [add_assoc]

theorem sum_filter_split {α : Type} (l : List α) (P : α → Bool) (f : α → ℝ) :
    (l.map f).sum = ((l.filter P).map f).sum + ((l.filter (fun x => !P x)).map f).sum := by
  induction l with
  | nil => simp
  | cons x l ih =>
    by_cases h : P x = true
    · rw [List.filter_cons_of_pos h, List.filter_cons_of_neg (by simpa using h)]
      simp only [List.map_cons, List.sum_cons, ih]; ring
    · rw [List.filter_cons_of_neg h, List.filter_cons_of_pos (by simpa using h)]
      simp only [List.map_cons, List.sum_cons, ih]; ring

/-- When the cached list is the list of fixed sources, with current parameters, the cached
part plus the other sources is the whole model. -/
theorem split_total (h : Inv e L st) (hp : st.fixedNames.Perm (fixedNow st.srcs)) (hc : AllCur st)
    (f : Src → ℝ) (g : ν → ℝ)
    (hg : ∀ n ∈ st.fixedNames, ∀ σ m, find st.srcs n = some σ → find st.maps n = some m →
      m.latched = σ.vals → g n = f σ) :
    (st.fixedNames.map g).sum +
      ((st.srcs.filter (fun x => decide (x.1 ∉ st.fixedNames))).map (fun x => f x.2)).sum =
      (st.srcs.map (fun x => f x.2)).sum := by
  have h1 : (st.fixedNames.map g).sum =
      ((st.srcs.filter (fun x => x.2.fixed)).map (fun x => f x.2)).sum := by
    rw [(hp.map g).sum_eq, fixedNow, keys, List.map_map]
    apply sum_congr_mem
    intro x hx
    have hx' : x.1 ∈ st.fixedNames := hp.symm.subset (List.mem_map.2 ⟨x, hx, rfl⟩)
    rw [List.mem_filter] at hx
    have hs := StdMap.find_of_mem h.sorted hx.1
    obtain ⟨m, hm⟩ := (h.fixedIn x.1 hx').2
    exact hg x.1 hx' x.2 m hs hm (hc x.1 hx' x.2 m hs hm)
  have h2 : st.srcs.filter (fun x => decide (x.1 ∉ st.fixedNames)) =
      st.srcs.filter (fun x => !x.2.fixed) := by
    apply List.filter_congr
    intro x hx
    have hs := StdMap.find_of_mem h.sorted hx
    have : x.1 ∈ st.fixedNames ↔ x.2.fixed = true := by
      rw [hp.mem_iff, mem_fixedNow h]
      constructor
      · rintro ⟨σ, g1, g2⟩
        have : find st.srcs x.1 = some x.2 := hs
        rw [this] at g1; cases g1; exact g2
      · intro hh; exact ⟨x.2, hs, hh⟩
    by_cases hfx : x.2.fixed = true
    · simp [this, hfx]
    · simp [this, hfx]
  rw [h1, h2]
  exact (sum_filter_split st.srcs (fun x => x.2.fixed) (fun x => f x.2)).symm

/-- The state right after an evaluation. -/
structure Evaluated (e : Env) (st : St ν) : Prop where
  perm : st.fixedNames.Perm (fixedNow st.srcs)
  cur : AllCur st
  modelLen : st.model.length = e.filled.length
  model : ∀ k, st.kmin ≤ k → k < st.kmax → ∀ j, val e.first k ≤ j → j < val e.first (k + 1) →
    val st.model j = total e st.srcs k (val e.filled j)

theorem computeModel_ok (h : Inv e L st) (he : e.Ok) (hev : 0 ≤ e.ev) (hk : st.kmax ≤ e.nebins) :
    ∃ st', computeModel e true st = .ok (st', ∑ k ∈ Finset.Ico st.kmin st.kmax,
        ∑ p ∈ Finset.range e.npix, wt e k p * total e st.srcs k p) ∧ Inv e L st' ∧
      st'.srcs = st.srcs ∧ st'.kmin = st.kmin ∧ st'.kmax = st.kmax ∧ st'.current = true ∧
      Evaluated e st' := by
  have lay := lay_of he
  obtain ⟨st1, u1, u2, u3, u4, u5, u6, u7⟩ := updateFixed_ok h he hev
  have hk1 : st1.kmax ≤ e.nebins := by rw [u5]; exact hk
  have hcopy : copyOnZeros st1.fixedCounts e.filled.length = .ok st1.fixedCounts := by
    unfold copyOnZeros
    rw [if_pos (by rw [u2.countsLen]), u2.countsLen]; simp
  have hfix : fixedNpred st1 true = .ok (∑ k ∈ Finset.Ico st1.kmin st1.kmax,
      (st1.fixedNames.map (fun n => wcontrib e st1 n k)).sum) := by
    unfold fixedNpred
    rw [loop_sum (fun k => (st1.fixedNames.map (fun n => wcontrib e st1 n k)).sum)]
    · rw [zero_add, Finset.sum_Ico_eq_sum_range]
    · intro k acc h1 h2
      simp only [if_true]
      rw [vget_val (by rw [u2.sized.edispWt]; omega), Res.bind_ok, u2.specVal k (by omega)]
  obtain ⟨st2, out, v1, v2, v3, v4, v5⟩ := evalLoop_ok he hev st1.srcs st1 st1.fixedCounts
    (∑ k ∈ Finset.Ico st1.kmin st1.kmax, (st1.fixedNames.map (fun n => wcontrib e st1 n k)).sum)
    u2 hk1 (fun x hx => StdMap.find_of_mem u2.sorted hx) u2.countsLen
  have hout : ∀ k < e.nebins, ∀ j, val e.first k ≤ j → j < val e.first (k + 1) →
      val out j = total e st1.srcs k (val e.filled j) := by
    intro k hk' j h1 h2
    rw [v5 k hk' j h1 h2, u2.countsVal k hk' j h1 h2]
    unfold total
    apply split_total u2 u6 u7 (fun σ => counts e σ σ.vals k (val e.filled j))
      (fun n => contrib e st1 n k (val e.filled j))
    intro n hn σ m hs hm hl
    unfold contrib
    simp only [hs, hm, hl]
  obtain ⟨model, w1, w2, w3⟩ := stretch_upd lay (v := List.replicate e.filled.length 0) (by simp)
    (kmin := st2.kmin) (kmax := st2.kmax) (by rw [v3.kmax]; exact hk1)
    (body := fun k j model => do
      let x ← vget out j
      vset model j x)
    (fun k j _ => val out j)
    (by
      intro k j w h1 h2 h3 h4 hw
      have hlast := lay.last (k + 1) (by rw [v3.kmax] at h2; omega)
      simp only [List.length_replicate] at hw
      rw [vget_val (by omega), Res.bind_ok, vset_lt _ _ _ (by omega)])
  refine ⟨{ st2 with model := model, current := true }, ?_, ?_, ?_, ?_, ?_, rfl, ?_⟩
  · unfold computeModel
    rw [u1, Res.bind_ok, hcopy, Res.bind_ok, hfix, Res.bind_ok, v1, Res.bind_ok]
    simp only
    have hsel : selectModel e st2.kmin st2.kmax out = .ok model := w1
    rw [hsel, Res.bind_ok]
    congr 2
    -- the predicted counts
    have hper : ∀ k, (st1.fixedNames.map (fun n => wcontrib e st1 n k)).sum +
        ((st1.srcs.filter (fun x => decide (x.1 ∉ st1.fixedNames))).map
          (fun x => wcounts e x.2 x.2.vals k)).sum =
        ∑ p ∈ Finset.range e.npix, wt e k p * total e st.srcs k p := by
      intro k
      rw [split_total u2 u6 u7 (fun σ => wcounts e σ σ.vals k) (fun n => wcontrib e st1 n k)
        (by
          intro n hn σ m hs hm hl
          unfold wcontrib
          simp only [hs, hm, hl]), u3]
      unfold total wcounts
      clear h u1 u2 u3 u4 u5 u6 u7 hk1 hcopy hfix v1 v2 v3 v5 hout w1 hsel
      induction st.srcs with
      | nil => simp
      | cons x l ih =>
        simp only [List.map_cons, List.sum_cons, ih]
        rw [← Finset.sum_add_distrib]
        apply Finset.sum_congr rfl
        intro p _; ring
    have hswap : ∀ (l : List (ν × Src)) (s : Finset Nat),
        (l.map (fun x => ∑ k ∈ s, wcounts e x.2 x.2.vals k)).sum =
        ∑ k ∈ s, (l.map (fun x => wcounts e x.2 x.2.vals k)).sum := by
      intro l s
      induction l with
      | nil => simp
      | cons x l ih =>
        simp only [List.map_cons, List.sum_cons, ih]
        rw [← Finset.sum_add_distrib]
    rw [hswap, ← Finset.sum_add_distrib, u4, u5]
    apply Finset.sum_congr rfl
    intro k _
    exact hper k
  · exact ⟨v2.sorted, v2.sortedM, v2.src, v2.map, v2.cacheEv, v2.nodup, v2.fixedIn, v2.countsLen,
      v2.countsVal, v2.sized, v2.specVal⟩
  · change st2.srcs = st.srcs; rw [v3.srcs, u3]
  · change st2.kmin = st.kmin; rw [v3.kmin, u4]
  · change st2.kmax = st.kmax; rw [v3.kmax, u5]
  · refine ⟨?_, ?_, ?_, ?_⟩
    · change st2.fixedNames.Perm (fixedNow st2.srcs)
      rw [v3.fixedNames, v3.srcs]; exact u6
    · have := u7.keeps u2 v3
      exact this
    · change model.length = _
      rw [w2]; simp
    · intro k h1 h2 j h3 h4
      have hk2 : k < e.nebins := by
        have : k < st2.kmax := h2
        rw [v3.kmax] at this; omega
      change val model j = total e st2.srcs k (val e.filled j)
      rw [w3 k h1 h2 j h3 h4, hout k hk2 j h3 h4, v3.srcs]

theorem value_ok (h : Inv e L st) (he : e.Ok) (hev : 0 ≤ e.ev) (hk : st.kmax ≤ e.nebins) :
    ∃ st', value e st = .ok (st', logLike e st.srcs st.kmin st.kmax) ∧ Inv e L st' ∧
      st'.srcs = st.srcs ∧ st'.kmin = st.kmin ∧ st'.kmax = st.kmax ∧ st'.current = true ∧
      Evaluated e st' := by
  have lay := lay_of he
  obtain ⟨st', c1, c2, c3, c4, c5, c6, c7⟩ := computeModel_ok h he hev hk
  refine ⟨st', ?_, c2, c3, c4, c5, c6, c7⟩
  have hd : dataTerm e st' = .ok (0 + ∑ k ∈ Finset.Ico st'.kmin st'.kmax,
      ∑ p ∈ Finset.range e.npix, if 0 < val e.data (k * e.npix + p) then
        (if 0 < total e st'.srcs k p then
          val e.data (k * e.npix + p) * Real.log (total e st'.srcs k p) else 0) else 0) := by
    unfold dataTerm
    apply stretch_sum lay (by rw [c5]; exact hk)
      (fun k j => if 0 < val st'.model j then
        val e.data (k * e.npix + val e.filled j) * Real.log (val st'.model j) else 0)
    · intro k j acc h1 h2 h3 h4
      have hk2 : k < e.nebins := by rw [c5] at h2; omega
      have hlast := lay.last (k + 1) (by omega)
      rw [vget_val (by rw [c7.modelLen]; omega), Res.bind_ok]
      by_cases hm : val st'.model j ≤ 0
      · rw [if_pos hm, if_neg (not_lt.2 hm), add_zero]
      · rw [if_neg hm, if_pos (not_le.1 hm), vget_val (by omega), Res.bind_ok,
          vget_val (by rw [he.data]; exact idx_lt (lay.pix k hk2 j h3 h4) hk2), Res.bind_ok]
    · intro k h1 h2 j h3 h4
      rw [c7.model k h1 h2 j h3 h4]
  unfold value
  rw [c1, Res.bind_ok]
  simp only
  rw [hd, Res.bind_ok, c3, c4, c5]
  unfold logLike priorSum
  congr 3
  rw [zero_add, ← Finset.sum_sub_distrib]
  apply Finset.sum_congr rfl
  intro k _
  rw [← Finset.sum_sub_distrib]
  apply Finset.sum_congr rfl
  intro p _
  congr 1
  by_cases h1 : 0 < val e.data (k * e.npix + p)
  · by_cases h2 : 0 < total e st.srcs k p <;> simp [h1, h2]
  · simp [h1]

end Verif.Binned
