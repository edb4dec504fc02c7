import Verif.TsScan.Model
import Verif.TsScan.Spec
import Verif.Energy.Lemmas
import Mathlib.Tactic.Linarith
import Mathlib.Tactic.Ring
/-
Lemmas for C132.
-/
set_option linter.unusedSectionVars false
set_option linter.unusedSimpArgs false
set_option linter.unusedVariables false
namespace Verif.TsScan
open Vec Spec

/-- A histogram that exists if `ex`, with `n` bins of the values `v`. -/
def Holds (h : Option (List ℝ)) (ex : Bool) (n : Nat) (v : Nat → ℝ) : Prop :=
  if ex then ∃ l, h = some l ∧ l.length = n ∧ ∀ i, i < n → val l i = v i else h = none

theorem Holds.congr {h : Option (List ℝ)} {ex : Bool} {n : Nat} {v w : Nat → ℝ} (hh : Holds h ex n v) (e : ∀ i, i < n → v i = w i) :
    Holds h ex n w := by
  unfold Holds at hh ⊢
  cases ex
  · exact hh
  · obtain ⟨l, a, b, c⟩ := hh
    exact ⟨l, a, b, fun i hi => (c i hi).trans (e i hi)⟩

theorem Holds.set {h : Option (List ℝ)} {ex : Bool} {n : Nat} {v : Nat → ℝ} (hh : Holds h ex n v) {i : Nat} (hi : i < n) (x : ℝ) :
    Holds (h.map (fun l => l.set i x)) ex n (fun j => if j = i then x else v j) := by
  unfold Holds at hh ⊢
  cases ex
  · rw [hh]; rfl
  · obtain ⟨l, a, b, c⟩ := hh
    refine ⟨l.set i x, by rw [a]; rfl, by simp [b], ?_⟩
    intro j hj
    rw [val_set (by omega)]
    by_cases e : j = i
    · simp only [e, if_true]
    · simp only [e, if_false]; exact c j hj

theorem setAll_ok {κ : Type} [DecidableEq κ] (i n : Nat) (f : κ → ℝ) (ex : κ → Bool) (hi : i < n) : ∀ (ks : List κ) (h : κ → Option (List ℝ)) (v : κ → Nat → ℝ),
    (∀ k, Holds (h k) (ex k) n (v k)) → ∃ h', setAll i f ks h = .ok h' ∧
      ∀ k, Holds (h' k) (ex k) n (fun j => if j = i ∧ k ∈ ks then f k else v k j)
  | [], h, v, hh => ⟨h, rfl, fun k => (hh k).congr (fun j _ => by simp)⟩
  | k :: ks, h, v, hh => by
    have hk := hh k
    unfold setAll
    rcases hq : h k with _ | l
    · obtain ⟨h', h1, h2⟩ := setAll_ok i n f ex hi ks h v hh
      refine ⟨h', h1, fun j => ?_⟩
      by_cases c : j = k
      · subst c
        have hex : ex j = false := by
          cases e : ex j
          · rfl
          · unfold Holds at hk
            rw [e, if_pos rfl] at hk
            obtain ⟨l, a, _⟩ := hk
            rw [hq] at a; cases a
        have := h2 j
        unfold Holds at this ⊢
        rw [hex] at this ⊢
        exact this
      · exact (h2 j).congr (fun m _ => by simp [c])
    · simp only
      have hlen : l.length = n := by
        unfold Holds at hk
        cases e : ex k
        · rw [e, hq] at hk; cases hk
        · rw [e, if_pos rfl] at hk
          obtain ⟨l', a, b, _⟩ := hk
          rw [hq] at a; cases a; exact b
      have hv : vset l i (f k) = .ok (l.set i (f k)) := by unfold vset; rw [if_pos (by omega)]
      rw [hv, Res.bind_ok]
      obtain ⟨h', h1, h2⟩ := setAll_ok i n f ex hi ks (fun j => if j = k then some (l.set i (f k)) else h j)
        (fun j m => if j = k ∧ m = i then f k else v j m) (by
          intro j
          by_cases c : j = k
          · subst c
            simp only [if_true, true_and]
            have := hk.set hi (f j)
            rw [hq] at this
            exact this
          · simp only [c, if_false, false_and]
            exact hh j)
      refine ⟨h', h1, fun j => (h2 j).congr (fun m _ => ?_)⟩
      by_cases c : j = k
      · subst c
        by_cases e : m = i
        · simp [e]
        · simp [e]
      · simp [c]

theorem Holds.get {h : Option (List ℝ)} {ex : Bool} {n : Nat} {v : Nat → ℝ} (hh : Holds h ex n v) (he : ex = true) :
    ∃ l, h = some l ∧ l.length = n ∧ ∀ i, i < n → val l i = v i := by
  unfold Holds at hh
  rw [he] at hh
  exact hh

theorem setStatus_ok {h : Option (List ℝ)} {n : Nat} {v : Nat → ℝ} (hh : Holds h true n v) {i : Nat} (hi : i < n) (x : ℝ) :
    ∃ h', setStatus h i x = .ok h' ∧ Holds h' true n (fun j => if j = i then x else v j) := by
  obtain ⟨l, a, b, c⟩ := hh.get rfl
  refine ⟨some (l.set i x), ?_, ?_⟩
  · rw [a]
    unfold setStatus vset
    simp only
    rw [if_pos (by omega)]
    rfl
  · have := hh.set hi x
    rw [a] at this
    exact this

/-- Which maps exist. -/
def mapEx (o : Opts) : MapKey → Bool
  | .ts => true
  | .status => true
  | _ => o.doMap

/-- The histograms have the given values. -/
structure Inv (g : Grid) (o : Opts) (h : Hists) (mv : MapKey → Nat → ℝ) (cv : CubeKey → Nat → ℝ) (sv : ScanKey → Nat → ℝ) : Prop where
  maps : ∀ k, Holds (h.maps k) (mapEx o k) g.nPixels (mv k)
  cubes : ∀ k, Holds (h.cubes k) o.doSed (npix g o * g.nE) (cv k)
  scans : ∀ k, Holds (h.scans k) (decide (0 < o.nNorm)) (npix g o * g.nE * o.nNorm) (sv k)

theorem val_replicate (n i : Nat) : val (List.replicate n (0 : ℝ)) i = 0 := by
  unfold val
  by_cases c : i < n
  · rw [List.getElem?_replicate, if_pos c]; rfl
  · rw [List.getElem?_replicate, if_neg c]; rfl

theorem holds_replicate (b : Bool) (n : Nat) : Holds (if b = true then some (List.replicate n (0 : ℝ)) else none) b n (fun _ => 0) := by
  unfold Holds
  cases b
  · rfl
  · exact ⟨_, rfl, by simp, fun i _ => val_replicate n i⟩

theorem build_inv (g : Grid) (o : Opts) : Inv g o (build g o) (fun _ _ => 0) (fun _ _ => 0) (fun _ _ => 0) where
  maps := by
    intro k
    cases k
    all_goals first | exact holds_replicate true _ | exact holds_replicate o.doMap _
  cubes := fun k => holds_replicate o.doSed _
  scans := by
    intro k
    have := holds_replicate (decide (0 < o.nNorm)) (npix g o * g.nE * o.nNorm)
    simp only [decide_eq_true_eq] at this
    exact this

theorem div_mod_eq {n p e j : Nat} (hp : p < n) : j = p + e * n ↔ j % n = p ∧ j / n = e := by
  constructor
  · rintro rfl
    rw [Nat.add_mul_mod_self_right, Nat.add_mul_div_right _ _ (by omega), Nat.mod_eq_of_lt hp, Nat.div_eq_of_lt hp]
    exact ⟨rfl, by omega⟩
  · rintro ⟨rfl, rfl⟩
    have := Nat.div_add_mod j n
    rw [Nat.mul_comm] at this
    omega

theorem div_lt_of {n m j : Nat} (h : j < n * m) : j / n < m := by
  rcases Nat.eq_zero_or_pos n with c | c
  · rw [c, Nat.zero_mul] at h; omega
  · exact (Nat.div_lt_iff_lt_mul c).2 (by rw [Nat.mul_comm]; exact h)

/-- All cubes are written. -/
theorem cube_keys (k : CubeKey) : k ∈ ([.ts, .status, .norm, .sym, .pos, .neg, .ul, .logLike] : List CubeKey) := by cases k <;> decide

theorem scan_keys (k : ScanKey) : k ∈ ([.norm, .dLogLike] : List ScanKey) := by cases k <;> decide

theorem fillBin_ok (g : Grid) (o : Opts) (ipix iE : Nat) (b : Bin) (h : Hists) (mv : MapKey → Nat → ℝ) (cv : CubeKey → Nat → ℝ)
    (sv : ScanKey → Nat → ℝ) (hi : Inv g o h mv cv sv) (hp : ipix < npix g o) (he : iE < g.nE) (hn : 0 < o.nNorm)
    (h1 : b.norms.length = o.nNorm) (h2 : b.logLikes.length = o.nNorm) :
    ∃ h', fillBin o (npix g o) ipix iE b h = .ok h' ∧ Inv g o h' mv
      (fun k j => if j % npix g o = ipix ∧ j / npix g o = iE then cubeValue b (val b.logLikes 0) k else cv k j)
      (fun k j => if j % npix g o = ipix ∧ iE * o.nNorm ≤ j / npix g o ∧ j / npix g o < iE * o.nNorm + o.nNorm then
        scanValue b (val b.norms (j / npix g o - iE * o.nNorm)) (val b.logLikes (j / npix g o - iE * o.nNorm)) k else sv k j) := by
  set N := npix g o with hN
  have hic : ipix + iE * N < N * g.nE := by
    have := idx_lt (p := ipix) (n := N) (k := iE) (m := g.nE) hp he
    rw [Nat.mul_comm N]; omega
  obtain ⟨cubes, c1, c2⟩ := setAll_ok (ipix + iE * N) (N * g.nE) (cubeValue b (val b.logLikes 0)) (fun _ => o.doSed) hic
    [.ts, .status, .norm, .sym, .pos, .neg, .ul, .logLike] h.cubes cv hi.cubes
  unfold fillBin
  rw [vget_val (by omega), Res.bind_ok, c1, Res.bind_ok]
  obtain ⟨h', p1, p2⟩ := loop_inv (body := fun iN (h : Hists) => (do
      let l ← vget b.logLikes iN
      let x ← vget b.norms iN
      let scans ← setAll (iE * (N * o.nNorm) + ipix + iN * N) (scanValue b x l) [.norm, .dLogLike] h.scans
      .ok ⟨h.maps, h.cubes, scans⟩ : Res Hists))
    (P := fun m h => Inv g o h mv (fun k j => if j % N = ipix ∧ j / N = iE then cubeValue b (val b.logLikes 0) k else cv k j)
      (fun k j => if j % N = ipix ∧ iE * o.nNorm ≤ j / N ∧ j / N < iE * o.nNorm + m then
        scanValue b (val b.norms (j / N - iE * o.nNorm)) (val b.logLikes (j / N - iE * o.nNorm)) k else sv k j))
    (lo := 0) (n := o.nNorm) (s := ⟨h.maps, cubes, h.scans⟩)
    { maps := hi.maps
      cubes := fun k => (c2 k).congr (fun j _ => by
        have q := cube_keys k
        simp only [q, and_true]
        by_cases c : j = ipix + iE * N
        · rw [if_pos c, if_pos ((div_mod_eq hp).1 c)]
        · rw [if_neg c, if_neg (fun e => c ((div_mod_eq hp).2 e))])
      scans := fun k => (hi.scans k).congr (fun j _ => by
        rw [if_neg (by omega)]) } (by
    intro iN h' _ hlt hinv
    have hlt' : iN < o.nNorm := by omega
    rw [vget_val (by omega), Res.bind_ok, vget_val (by omega), Res.bind_ok]
    have hidx : iE * (N * o.nNorm) + ipix + iN * N = ipix + (iE * o.nNorm + iN) * N := by ring
    rw [hidx]
    have hsc : ipix + (iE * o.nNorm + iN) * N < N * g.nE * o.nNorm := by
      have a1 : iE * o.nNorm + iN < g.nE * o.nNorm := idx_lt hlt' he
      have a2 := idx_lt (p := ipix) (n := N) (k := iE * o.nNorm + iN) (m := g.nE * o.nNorm) hp a1
      have a3 : g.nE * o.nNorm * N = N * g.nE * o.nNorm := by ring
      omega
    obtain ⟨scans, s1, s2⟩ := setAll_ok (ipix + (iE * o.nNorm + iN) * N) (N * g.nE * o.nNorm)
      (scanValue b (val b.norms iN) (val b.logLikes iN)) (fun _ => decide (0 < o.nNorm)) hsc [.norm, .dLogLike] h'.scans _ hinv.scans
    rw [s1, Res.bind_ok]
    refine ⟨_, rfl, { maps := hinv.maps, cubes := hinv.cubes, scans := fun k => (s2 k).congr (fun j _ => ?_) }⟩
    have q := scan_keys k
    simp only [q, and_true]
    by_cases c : j = ipix + (iE * o.nNorm + iN) * N
    · have e := (div_mod_eq hp).1 c
      rw [if_pos c, if_pos ⟨e.1, by omega, by omega⟩, e.2, Nat.add_sub_cancel_left]
    · rw [if_neg c]
      have e : ¬ (j % N = ipix ∧ j / N = iE * o.nNorm + iN) := fun e => c ((div_mod_eq hp).2 e)
      by_cases d : j % N = ipix ∧ iE * o.nNorm ≤ j / N ∧ j / N < iE * o.nNorm + iN
      · rw [if_pos d, if_pos ⟨d.1, d.2.1, by omega⟩]
      · rw [if_neg d, if_neg (by
          rintro ⟨d1, d2, d3⟩
          by_cases d4 : j / N = iE * o.nNorm + iN
          · exact e ⟨d1, d4⟩
          · exact d ⟨d1, d2, by omega⟩)])
  rw [Nat.zero_add] at p2
  exact ⟨h', p1, p2⟩

theorem fillSed_ok (g : Grid) (o : Opts) (ipix : Nat) (bins : List Bin) (h : Hists) (mv : MapKey → Nat → ℝ) (cv : CubeKey → Nat → ℝ)
    (sv : ScanKey → Nat → ℝ) (hi : Inv g o h mv cv sv) (hp : ipix < npix g o) (hn : 0 < o.nNorm) (hl : bins.length = g.nE)
    (hb : ∀ b ∈ bins, b.norms.length = o.nNorm ∧ b.logLikes.length = o.nNorm) :
    ∃ h', fillSed g o ipix bins h = .ok h' ∧ Inv g o h' mv
      (fun k j => if j % npix g o = ipix then cubeValue ((bins[j / npix g o]?).getD default)
        (val ((bins[j / npix g o]?).getD default).logLikes 0) k else cv k j)
      (fun k j => if j % npix g o = ipix then scanValue ((bins[j / npix g o / o.nNorm]?).getD default)
        (val ((bins[j / npix g o / o.nNorm]?).getD default).norms (j / npix g o % o.nNorm))
        (val ((bins[j / npix g o / o.nNorm]?).getD default).logLikes (j / npix g o % o.nNorm)) k else sv k j) := by
  unfold fillSed
  obtain ⟨h', p1, p2⟩ := loop_inv (body := fun iE (h : Hists) => (do
      let b ← vget bins iE
      fillBin o (npix g o) ipix iE b h : Res Hists))
    (P := fun m h => Inv g o h mv
      (fun k j => if j % npix g o = ipix ∧ j / npix g o < m then cubeValue ((bins[j / npix g o]?).getD default)
        (val ((bins[j / npix g o]?).getD default).logLikes 0) k else cv k j)
      (fun k j => if j % npix g o = ipix ∧ j / npix g o / o.nNorm < m then scanValue ((bins[j / npix g o / o.nNorm]?).getD default)
        (val ((bins[j / npix g o / o.nNorm]?).getD default).norms (j / npix g o % o.nNorm))
        (val ((bins[j / npix g o / o.nNorm]?).getD default).logLikes (j / npix g o % o.nNorm)) k else sv k j))
    (lo := 0) (n := g.nE) (s := h)
    { maps := hi.maps
      cubes := fun k => (hi.cubes k).congr (fun j _ => by rw [if_neg (fun e => Nat.not_lt_zero _ e.2)])
      scans := fun k => (hi.scans k).congr (fun j _ => by rw [if_neg (fun e => Nat.not_lt_zero _ e.2)]) } (by
    intro iE h' _ hlt hinv
    have hlt' : iE < bins.length := by omega
    have hmem := hb bins[iE] (List.getElem_mem hlt')
    obtain ⟨h'', q1, q2⟩ := fillBin_ok g o ipix iE bins[iE] h' _ _ _ hinv hp (by omega) hn hmem.1 hmem.2
    rw [vget_lt _ _ hlt', Res.bind_ok]
    refine ⟨h'', q1, { maps := q2.maps, cubes := fun k => (q2.cubes k).congr (fun j _ => ?_), scans := fun k => (q2.scans k).congr (fun j _ => ?_) }⟩
    · by_cases c : j % npix g o = ipix ∧ j / npix g o = iE
      · rw [if_pos c, if_pos ⟨c.1, by omega⟩, c.2, List.getElem?_eq_getElem hlt']
        rfl
      · rw [if_neg c]
        by_cases d : j % npix g o = ipix ∧ j / npix g o < iE
        · rw [if_pos d, if_pos ⟨d.1, by omega⟩]
        · rw [if_neg d, if_neg (by
            rintro ⟨d1, d2⟩
            by_cases d3 : j / npix g o = iE
            · exact c ⟨d1, d3⟩
            · exact d ⟨d1, by omega⟩)]
    · have hdm := Nat.div_add_mod (j / npix g o) o.nNorm
      have hml := Nat.mod_lt (j / npix g o) hn
      by_cases c : j % npix g o = ipix ∧ j / npix g o / o.nNorm = iE
      · obtain ⟨c1, c2⟩ := c
        have e : j / npix g o = iE * o.nNorm + j / npix g o % o.nNorm := by rw [c2] at hdm; rw [Nat.mul_comm iE]; omega
        rw [if_pos ⟨c1, by omega, by omega⟩, if_pos ⟨c1, by omega⟩, c2, List.getElem?_eq_getElem hlt']
        have e2 : j / npix g o - iE * o.nNorm = j / npix g o % o.nNorm := by omega
        rw [e2]
        rfl
      · have nc : ¬ (j % npix g o = ipix ∧ iE * o.nNorm ≤ j / npix g o ∧ j / npix g o < iE * o.nNorm + o.nNorm) := by
          rintro ⟨c1, c2, c3⟩
          apply c
          refine ⟨c1, ?_⟩
          rw [Nat.div_eq_iff hn]
          constructor <;> omega
        rw [if_neg nc]
        by_cases d : j % npix g o = ipix ∧ j / npix g o / o.nNorm < iE
        · rw [if_pos d, if_pos ⟨d.1, by omega⟩]
        · rw [if_neg d, if_neg (by
            rintro ⟨d1, d2⟩
            by_cases d3 : j / npix g o / o.nNorm = iE
            · exact c ⟨d1, d3⟩
            · exact d ⟨d1, by omega⟩)])
  rw [Nat.zero_add] at p2
  refine ⟨h', p1, { maps := p2.maps, cubes := fun k => (p2.cubes k).congr (fun j hj => ?_), scans := fun k => (p2.scans k).congr (fun j hj => ?_) }⟩
  · have := div_lt_of hj
    by_cases c : j % npix g o = ipix
    · rw [if_pos ⟨c, this⟩, if_pos c]
    · rw [if_neg (fun e => c e.1), if_neg c]
  · have h3 : j / npix g o / o.nNorm < g.nE := by
      have : j / npix g o < o.nNorm * g.nE := div_lt_of (by rw [Nat.mul_comm o.nNorm, ← Nat.mul_assoc]; exact hj)
      exact div_lt_of this
    by_cases c : j % npix g o = ipix
    · rw [if_pos ⟨c, h3⟩, if_pos c]
    · rw [if_neg (fun e => c e.1), if_neg c]

theorem failPixel_ok (g : Grid) (o : Opts) (ipix : Nat) (status : Int) (h : Hists) (mv : MapKey → Nat → ℝ) (cv : CubeKey → Nat → ℝ)
    (sv : ScanKey → Nat → ℝ) (hi : Inv g o h mv cv sv) (hp : ipix < npix g o) (hp2 : ipix < g.nPixels) (hd : o.doSed = true) :
    ∃ h', failPixel g o ipix status h = .ok h' ∧ Inv g o h'
      (fun k j => if j = ipix ∧ k = .status then (status : ℝ) else mv k j)
      (fun k j => if j % npix g o = ipix ∧ k = .status then (status : ℝ) else cv k j) sv := by
  obtain ⟨m, m1, m2⟩ := setStatus_ok (hi.maps .status) hp2 (status : ℝ)
  unfold failPixel
  rw [m1, Res.bind_ok]
  obtain ⟨h', p1, p2⟩ := loop_inv (body := fun iE (h : Hists) => (do
      let c ← setStatus (h.cubes .status) (ipix + iE * npix g o) status
      .ok ⟨h.maps, fun k => if k = .status then c else h.cubes k, h.scans⟩ : Res Hists))
    (P := fun m h => Inv g o h (fun k j => if j = ipix ∧ k = .status then (status : ℝ) else mv k j)
      (fun k j => if j % npix g o = ipix ∧ k = .status ∧ j / npix g o < m then (status : ℝ) else cv k j) sv) (lo := 0) (n := g.nE)
    (s := ⟨fun k => if k = .status then m else h.maps k, h.cubes, h.scans⟩)
    { maps := by
        intro k
        by_cases c : k = .status
        · subst c
          simp only [if_true, and_true]
          exact m2
        · simp only [c, if_false, and_false]
          exact hi.maps k
      cubes := fun k => (hi.cubes k).congr (fun j _ => by rw [if_neg (fun e => Nat.not_lt_zero _ e.2.2)])
      scans := hi.scans } (by
    intro iE h' _ hlt hinv
    have hic : ipix + iE * npix g o < npix g o * g.nE := by
      have := idx_lt (p := ipix) (n := npix g o) (k := iE) (m := g.nE) hp (by omega)
      rw [Nat.mul_comm (npix g o)]; omega
    have hs := hinv.cubes .status
    rw [hd] at hs
    obtain ⟨c, c1, c2⟩ := setStatus_ok hs hic (status : ℝ)
    rw [c1, Res.bind_ok]
    refine ⟨_, rfl, { maps := hinv.maps, cubes := ?_, scans := hinv.scans }⟩
    intro k
    by_cases d : k = .status
    · subst d
      simp only [if_true, true_and]
      rw [hd]
      refine c2.congr (fun j _ => ?_)
      simp only [true_and]
      by_cases e : j = ipix + iE * npix g o
      · have e' := (div_mod_eq hp).1 e
        rw [if_pos e, if_pos ⟨e'.1, by omega⟩]
      · rw [if_neg e]
        have e' : ¬ (j % npix g o = ipix ∧ j / npix g o = iE) := fun q => e ((div_mod_eq hp).2 q)
        by_cases q : j % npix g o = ipix ∧ j / npix g o < iE
        · rw [if_pos q, if_pos ⟨q.1, by omega⟩]
        · rw [if_neg q, if_neg (by
            rintro ⟨d1, d2⟩
            by_cases d3 : j / npix g o = iE
            · exact e' ⟨d1, d3⟩
            · exact q ⟨d1, by omega⟩)]
    · simp only [d, if_false, false_and, and_false]
      refine (hinv.cubes k).congr (fun j _ => ?_)
      simp [d])
  rw [Nat.zero_add] at p2
  refine ⟨h', p1, { maps := p2.maps, cubes := fun k => (p2.cubes k).congr (fun j hj => ?_), scans := p2.scans }⟩
  have := div_lt_of hj
  by_cases c : j % npix g o = ipix ∧ k = .status
  · rw [if_pos ⟨c.1, c.2, this⟩, if_pos c]
  · rw [if_neg (fun e => c ⟨e.1, e.2.1⟩), if_neg c]

end Verif.TsScan
