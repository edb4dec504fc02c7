import Verif.TsScan.Lemmas
import Verif.ScanNorm.Props
import Mathlib.Tactic.NormNum
/-
C132: scans over positions, energies and normalizations.
-/
set_option linter.unusedSectionVars false
set_option linter.unusedSimpArgs false
set_option linter.unusedVariables false
namespace Verif.TsScan
open Vec Spec

/-- The state after `n` positions, in `X` columns. -/
structure After (g : Grid) (o : Opts) (f : Fits) (bins : Nat → Nat → List Bin) (X n : Nat) (st : St) : Prop where
  next : st.ipix = n
  present : st.present = (o.remake && decide (n ≠ 0 ∧ (f.broad ((n - 1) % X) ((n - 1) / X)).status ≠ 0))
  inv : Inv g o st.hists
    (fun k j => if j < n then mapAt f.null.2 (f.broad (j % X) (j / X)) k else 0)
    (fun k j => if j % npix g o < n then cubeAt (f.broad (j % npix g o % X) (j % npix g o / X))
      (((bins (j % npix g o % X) (j % npix g o / X))[j / npix g o]?).getD default) k else 0)
    (fun k j => if o.doSed = true ∧ j % npix g o < n then scanAt (f.broad (j % npix g o % X) (j % npix g o / X))
      (((bins (j % npix g o % X) (j % npix g o / X))[j / npix g o / o.nNorm]?).getD default) (j / npix g o % o.nNorm) k else 0)

theorem prepare_ok (w : Wrapper) (o : Opts) (p : Bool) (h : o.remake = true → w = .summed) :
    prepare w o p = .ok (if o.remake then true else p) := by
  unfold prepare
  cases hr : o.remake
  · rfl
  · rw [h hr]; rfl

theorem pixel_ok (w : Wrapper) (g : Grid) (o : Opts) (f : Fits) (bins : Nat → Nat → List Bin) (X Y : Nat) (hXY : npix g o = X * Y)
    (hsize : npix g o ≤ g.nPixels) (hw : o.remake = true → w = .summed) (hn : o.doSed = true → 0 < o.nNorm)
    (hd : o.doSed = true ∨ ∀ ix iy, ix < X → iy < Y → (f.broad ix iy).status = 0) (hc : Complete f bins X Y g.nE o.nNorm)
    (ix iy : Nat) (hx : ix < X) (hy : iy < Y) (st : St) (hs : After g o f bins X (iy * X + ix) st) :
    ∃ st', pixel w g o f iy ix st = .ok st' ∧ After g o f bins X (iy * X + ix + 1) st' := by
  set n := iy * X + ix with hnd
  have hnX : n % X = ix := by rw [hnd, Nat.add_comm, Nat.add_mul_mod_self_right, Nat.mod_eq_of_lt hx]
  have hnY : n / X = iy := by
    rw [hnd, Nat.mul_comm, Nat.mul_add_div (by omega), Nat.div_eq_of_lt hx, Nat.add_zero]
  have hnp : n < npix g o := by rw [hXY, hnd, Nat.mul_comm X]; exact idx_lt hx hy
  unfold pixel
  rw [prepare_ok w o _ hw, Res.bind_ok, hs.next]
  have hpres : ∀ b : Bool, (if o.remake = true then true else st.present) = b → (o.remake = false → b = false) := by
    intro b hb hr
    rw [hr] at hb
    rw [← hb, hs.present, hr]
    rfl
  by_cases hst : (f.broad ix iy).status ≠ 0
  · rw [if_pos hst]
    have hds : o.doSed = true := by
      rcases hd with h | h
      · exact h
      · exact absurd (h ix iy hx hy) hst
    obtain ⟨h', q1, q2⟩ := failPixel_ok g o n (f.broad ix iy).status st.hists _ _ _ hs.inv hnp (by omega) hds
    rw [q1, Res.bind_ok]
    refine ⟨_, rfl, rfl, ?_, ?_⟩
    · simp only [Nat.add_sub_cancel, hnX, hnY]
      cases hr : o.remake
      · simp only [Bool.false_eq_true, if_false, Bool.false_and]
        rw [hs.present, hr]; rfl
      · simp [hst]
    · refine { maps := fun k => (q2.maps k).congr (fun j hj => ?_), cubes := fun k => (q2.cubes k).congr (fun j hj => ?_), scans := fun k => (q2.scans k).congr (fun j hj => ?_) }
      · rcases Nat.lt_trichotomy j n with c | c | c
        · rw [if_neg (by omega), if_pos c, if_pos (by omega)]
        · rw [if_pos (show j < n + 1 by omega), c, hnX, hnY]
          cases k <;> simp [mapAt, hst]
        · rw [if_neg (by omega), if_neg (by omega), if_neg (by omega)]
      · rcases Nat.lt_trichotomy (j % npix g o) n with c | c | c
        · rw [if_neg (by omega), if_pos c, if_pos (by omega)]
        · rw [if_pos (show j % npix g o < n + 1 by omega), c, hnX, hnY]
          cases k <;> simp [cubeAt, hst]
        · rw [if_neg (by omega), if_neg (by omega), if_neg (by omega)]
      · rcases Nat.lt_trichotomy (j % npix g o) n with c | c | c
        · simp only [hds, true_and]
          rw [if_pos c, if_pos (by omega)]
        · simp only [hds, true_and]
          rw [if_neg (by omega), if_pos (by omega), c, hnX, hnY]
          cases k <;> simp [scanAt, hst]
        · rw [if_neg (by omega), if_neg (by omega)]
  · rw [if_neg hst]
    rw [not_not] at hst
    obtain ⟨maps, m1, m2⟩ := setAll_ok n g.nPixels (broadValue f.null.2 (f.broad ix iy)) (mapEx o) (by omega)
      [.ts, .norm, .pos, .neg, .sym] st.hists.maps _ hs.inv.maps
    rw [m1, Res.bind_ok]
    have hm : ∀ k, Holds (maps k) (mapEx o k) g.nPixels
        (fun j => if j < n + 1 then mapAt f.null.2 (f.broad (j % X) (j / X)) k else 0) := by
      intro k
      refine (m2 k).congr (fun j hj => ?_)
      rcases Nat.lt_trichotomy j n with c | c | c
      · rw [if_neg (by omega), if_pos c, if_pos (by omega)]
      · rw [if_pos (show j < n + 1 by omega), c, hnX, hnY]
        cases k <;> simp [mapAt, hst, broadValue, symErr, err]
      · rw [if_neg (by omega), if_neg (by omega), if_neg (by omega)]
    have hpr : (if o.remake = true then false else if o.remake = true then true else st.present) =
        (o.remake && decide (n + 1 ≠ 0 ∧ (f.broad ((n + 1 - 1) % X) ((n + 1 - 1) / X)).status ≠ 0)) := by
      simp only [Nat.add_sub_cancel, hnX, hnY, hst]
      cases hr : o.remake
      · simp only [Bool.false_eq_true, if_false, Bool.false_and]
        rw [hs.present, hr]; rfl
      · simp
    cases hds : o.doSed
    · simp only [Bool.not_false, if_true]
      refine ⟨_, rfl, rfl, hpr, { maps := hm, cubes := ?_, scans := ?_ }⟩
      · intro k
        have := hs.inv.cubes k
        unfold Holds at this ⊢
        rw [hds] at this ⊢
        exact this
      · intro k
        refine (hs.inv.scans k).congr (fun j _ => ?_)
        simp [hds]
    · simp only [Bool.not_true, Bool.false_eq_true, if_false]
      obtain ⟨c1, c2, c3⟩ := hc ix iy hx hy hst
      rw [c1, Res.bind_ok]
      obtain ⟨h', q1, q2⟩ := fillSed_ok g o n (bins ix iy) ⟨maps, st.hists.cubes, st.hists.scans⟩ _ _ _
        { maps := hm, cubes := hs.inv.cubes, scans := hs.inv.scans } hnp (hn hds) c2 c3
      rw [q1, Res.bind_ok]
      refine ⟨_, rfl, rfl, hpr, { maps := q2.maps, cubes := fun k => (q2.cubes k).congr (fun j hj => ?_), scans := fun k => (q2.scans k).congr (fun j hj => ?_) }⟩
      · rcases Nat.lt_trichotomy (j % npix g o) n with c | c | c
        · rw [if_neg (by omega), if_pos c, if_pos (by omega)]
        · rw [if_pos c, if_pos (by omega), c, hnX, hnY]
          cases k <;> simp [cubeAt, hst, cubeValue, symErr, err]
        · rw [if_neg (by omega), if_neg (by omega), if_neg (by omega)]
      · rcases Nat.lt_trichotomy (j % npix g o) n with c | c | c
        · rw [if_neg (by omega)]
          simp only [hds, true_and]
          rw [if_pos c, if_pos (by omega)]
        · rw [if_pos c]
          simp only [hds, true_and]
          rw [if_pos (by omega), c, hnX, hnY]
          cases k <;> simp [scanAt, hst, scanValue]
        · rw [if_neg (by omega)]
          simp only [hds, true_and]
          rw [if_neg (by omega), if_neg (by omega)]

/-- The positions are `X` columns and `Y` rows. -/
def Shape (g : Grid) (o : Opts) (X Y : Nat) : Prop :=
  X = (if o.doMap then g.nx else 1) ∧ Y = (if o.doMap then g.ny.getD 1 else 1)

theorem Shape.npix {g : Grid} {o : Opts} {X Y : Nat} (h : Shape g o X Y) : npix g o = X * Y := by
  unfold TsScan.npix Grid.nPixels
  rw [h.1, h.2]
  cases o.doMap <;> simp

theorem run_ok (w : Wrapper) (g : Grid) (o : Opts) (f : Fits) (bins : Nat → Nat → List Bin) (X Y : Nat) (hXY : Shape g o X Y)
    (hsize : npix g o ≤ g.nPixels) (h0 : f.null.1 = 0) (hw : o.remake = true → w = .summed) (hn : o.doSed = true → 0 < o.nNorm)
    (hd : o.doSed = true ∨ ∀ ix iy, ix < X → iy < Y → (f.broad ix iy).status = 0) (hc : Complete f bins X Y g.nE o.nNorm) :
    ∃ st, run w g o f = .ok (.done st.hists st.present) ∧ After g o f bins X (X * Y) st := by
  unfold run
  rw [if_neg (by rw [h0]; simp), ← hXY.1, ← hXY.2]
  obtain ⟨st, p1, p2⟩ := loop_inv (body := fun iy st => loop (fun ix st => pixel w g o f iy ix st) 0 X st)
    (P := fun iy st => After g o f bins X (iy * X) st) (lo := 0) (n := Y) (s := ⟨build g o, false, 0⟩)
    { next := by simp
      present := by simp
      inv := by
        have := build_inv g o
        simpa using this } (by
    intro iy st _ hy hs
    obtain ⟨st', q1, q2⟩ := loop_inv (body := fun ix st => pixel w g o f iy ix st)
      (P := fun ix st => After g o f bins X (iy * X + ix) st) (lo := 0) (n := X) (s := st) hs (by
      intro ix st _ hx hs
      exact pixel_ok w g o f bins X Y hXY.npix hsize hw hn hd hc ix iy (by omega) (by omega) st hs)
    refine ⟨st', q1, ?_⟩
    rw [Nat.zero_add] at q2
    rw [Nat.succ_mul]
    exact q2)
  rw [p1, Res.bind_ok]
  rw [Nat.zero_add, Nat.mul_comm] at p2
  exact ⟨st, rfl, p2⟩

/-! ### What is stored where -/

/-- C132: when the fit without test source succeeds, a scan fills every map at position `(ix, iy)` in the element `iy nx + ix`, every cube at
energy `iE` in the element `iE nx ny + iy nx + ix`, and every scan at normalization `iN` in the element
`(iE nNorm + iN) nx ny + iy nx + ix`, with the results of the fits there; where the fit fails only the status is set, in the map and
in the cube at all energies.  `_partial`: cases in which this is not so are in `C132_map_only_violates`, `C132_nnorm_violates`,
`C132_remake_violates`; afterwards the test source is in the model if it is made again at each position and the last fit failed. -/
theorem C132_layout_partial (w : Wrapper) (g : Grid) (o : Opts) (f : Fits) (bins : Nat → Nat → List Bin) (nx ny : Nat)
    (hx : nx = if o.doMap then g.nx else 1) (hy : ny = if o.doMap then g.ny.getD 1 else 1) (hpos : 0 < g.nx ∧ 0 < g.ny.getD 1)
    (h0 : f.null.1 = 0) (hw : o.remake = true → w = .summed) (hn : o.doSed = true → 0 < o.nNorm)
    (hd : o.doSed = true ∨ ∀ ix iy, ix < nx → iy < ny → (f.broad ix iy).status = 0) (hc : Complete f bins nx ny g.nE o.nNorm) :
    ∃ h, run w g o f = .ok (.done h (o.remake && decide ((f.broad (nx - 1) (ny - 1)).status ≠ 0))) ∧
      (∀ k, (k = .ts ∨ k = .status ∨ o.doMap = true) → ∃ l, h.maps k = some l ∧ l.length = g.nx * g.ny.getD 1 ∧
        ∀ ix iy, ix < nx → iy < ny → val l (iy * nx + ix) = mapAt f.null.2 (f.broad ix iy) k) ∧
      (o.doSed = true → ∀ k, ∃ l, h.cubes k = some l ∧ l.length = nx * ny * g.nE ∧ ∀ ix iy iE, ix < nx → iy < ny → iE < g.nE →
        val l (iE * (nx * ny) + (iy * nx + ix)) = cubeAt (f.broad ix iy) (((bins ix iy)[iE]?).getD default) k) ∧
      (o.doSed = true → ∀ k, ∃ l, h.scans k = some l ∧ l.length = nx * ny * g.nE * o.nNorm ∧
        ∀ ix iy iE iN, ix < nx → iy < ny → iE < g.nE → iN < o.nNorm →
          val l ((iE * o.nNorm + iN) * (nx * ny) + (iy * nx + ix)) =
            scanAt (f.broad ix iy) (((bins ix iy)[iE]?).getD default) iN k) := by
  have hS : Shape g o nx ny := ⟨hx, hy⟩
  have hN := hS.npix
  have hx0 : 0 < nx := by rw [hx]; split <;> omega
  have hy0 : 0 < ny := by rw [hy]; split <;> omega
  have hsize : npix g o ≤ g.nPixels := by
    unfold npix
    split
    · exact le_rfl
    · unfold Grid.nPixels; exact Nat.mul_pos hpos.1 hpos.2
  obtain ⟨st, r1, r2⟩ := run_ok w g o f bins nx ny hS hsize h0 hw hn hd hc
  have hpix : ∀ ix iy, ix < nx → iy < ny → iy * nx + ix < nx * ny := by
    intro ix iy h1 h2
    rw [Nat.mul_comm nx]; exact idx_lt h1 h2
  have hmod : ∀ ix iy, ix < nx → (iy * nx + ix) % nx = ix := by
    intro ix iy h1
    rw [Nat.add_comm, Nat.add_mul_mod_self_right, Nat.mod_eq_of_lt h1]
  have hdiv : ∀ ix iy, ix < nx → (iy * nx + ix) / nx = iy := by
    intro ix iy h1
    rw [Nat.mul_comm, Nat.mul_add_div hx0, Nat.div_eq_of_lt h1, Nat.add_zero]
  have hmod' : ∀ p e, p < nx * ny → (e * (nx * ny) + p) % (nx * ny) = p := by
    intro p e h
    rw [Nat.add_comm, Nat.add_mul_mod_self_right, Nat.mod_eq_of_lt h]
  have hdiv' : ∀ p e, p < nx * ny → (e * (nx * ny) + p) / (nx * ny) = e := by
    intro p e h
    rw [Nat.mul_comm, Nat.mul_add_div (by omega), Nat.div_eq_of_lt h, Nat.add_zero]
  refine ⟨st.hists, ?_, ?_, ?_, ?_⟩
  · rw [r1, r2.present]
    have e : nx * ny - 1 = (ny - 1) * nx + (nx - 1) := by
      obtain ⟨a, rfl⟩ : ∃ a, nx = a + 1 := ⟨nx - 1, by omega⟩
      obtain ⟨b, rfl⟩ : ∃ b, ny = b + 1 := ⟨ny - 1, by omega⟩
      simp only [Nat.add_sub_cancel]
      rw [Nat.mul_comm, Nat.succ_mul]
      omega
    rw [e, hmod _ _ (by omega), hdiv _ _ (by omega)]
    have : nx * ny ≠ 0 := (Nat.mul_pos hx0 hy0).ne'
    simp [this]
  · intro k hk
    have := r2.inv.maps k
    unfold Holds at this
    have hex : mapEx o k = true := by
      rcases hk with rfl | rfl | h
      · rfl
      · rfl
      · cases k <;> simp [mapEx, h]
    rw [hex, if_pos rfl] at this
    obtain ⟨l, a, b, e⟩ := this
    refine ⟨l, a, b, fun ix iy h1 h2 => ?_⟩
    have hp := hpix ix iy h1 h2
    rw [e _ (by omega)]
    beta_reduce
    rw [if_pos hp, hmod _ _ h1, hdiv _ _ h1]
  · intro hds k
    have := r2.inv.cubes k
    unfold Holds at this
    rw [hds, if_pos rfl] at this
    obtain ⟨l, a, b, e⟩ := this
    rw [hN] at b e
    refine ⟨l, a, b, fun ix iy iE h1 h2 h3 => ?_⟩
    have hp := hpix ix iy h1 h2
    rw [e _ (by rw [Nat.mul_comm _ g.nE]; exact idx_lt hp h3)]
    beta_reduce
    rw [hmod' _ _ hp, hdiv' _ _ hp, if_pos hp, hmod _ _ h1, hdiv _ _ h1]
  · intro hds k
    have := r2.inv.scans k
    have hn' := hn hds
    unfold Holds at this
    rw [if_pos (by simpa using hn')] at this
    obtain ⟨l, a, b, e⟩ := this
    rw [hN] at b e
    refine ⟨l, a, b, fun ix iy iE iN h1 h2 h3 h4 => ?_⟩
    have hp := hpix ix iy h1 h2
    rw [e _ (by rw [Nat.mul_assoc, Nat.mul_comm (nx * ny)]; exact idx_lt hp (idx_lt h4 h3))]
    beta_reduce
    rw [hmod' _ _ hp, hdiv' _ _ hp, if_pos ⟨hds, hp⟩, hmod _ _ h1, hdiv _ _ h1]
    have e1 : (iE * o.nNorm + iN) % o.nNorm = iN := by rw [Nat.add_comm, Nat.add_mul_mod_self_right, Nat.mod_eq_of_lt h4]
    have e2 : (iE * o.nNorm + iN) / o.nNorm = iE := by
      rw [Nat.mul_comm, Nat.mul_add_div hn', Nat.div_eq_of_lt h4, Nat.add_zero]
    rw [e1, e2]

/-- Fits at two by two positions of which one fails, for examples. -/
noncomputable def twoByTwo : Fits where
  null := (0, -10)
  broad := fun ix iy => if ix = 1 ∧ iy = 0 then ⟨3, 0, 0, 0, 0⟩ else ⟨0, -5, 1, 1, -1⟩
  sed := fun ix iy => .ok [⟨0, -5, ix, 1, 1, 2, [0, 1], [-6, -5]⟩]

/-- A case in which the hypotheses hold. -/
example : Complete twoByTwo (fun ix _ => [⟨0, -5, ix, 1, 1, 2, [0, 1], [-6, -5]⟩]) 2 2 1 2 := by
  intro ix iy _ _ _
  refine ⟨rfl, rfl, ?_⟩
  intro b hb
  rw [List.mem_singleton.1 hb]
  exact ⟨rfl, rfl⟩

/-- C132: when the fit without test source fails nothing is scanned and its status is returned. -/
theorem C132_null (w : Wrapper) (g : Grid) (o : Opts) (f : Fits) (h : f.null.1 ≠ 0) : run w g o f = .ok (.failed f.null.1) := by
  unfold run
  rw [if_pos h]

example : ((1 : Int), (0 : ℝ)).1 ≠ 0 := by decide

/-- C132 violated: a scan of energies without a map has one position only, but its map of test statistics, like that of
statuses, has elements for all positions: all but the first are zero, and they are all written to the only row of the table. -/
theorem C132_sed_only_violates (w : Wrapper) (g : Grid) (o : Opts) (f : Fits) (bins : List Bin) (hm : o.doMap = false)
    (hpos : 0 < g.nx ∧ 0 < g.ny.getD 1) (h0 : f.null.1 = 0) (hw : o.remake = true → w = .summed) (hn : o.doSed = true → 0 < o.nNorm)
    (hs : (f.broad 0 0).status = 0) (hb : f.sed 0 0 = .ok bins) (hl : bins.length = g.nE)
    (hb' : ∀ b ∈ bins, b.norms.length = o.nNorm ∧ b.logLikes.length = o.nNorm) :
    ∃ h p l, run w g o f = .ok (.done h p) ∧ h.maps .ts = some l ∧ (∀ j, 0 < j → val l j = 0) ∧
      column l 1 = .ok [l] ∧ l.length = g.nx * g.ny.getD 1 := by
  have hS : Shape g o 1 1 := by unfold Shape; simp [hm]
  obtain ⟨st, r1, r2⟩ := run_ok w g o f (fun _ _ => bins) 1 1 hS (by
    unfold npix Grid.nPixels
    rw [hm]
    exact Nat.mul_pos hpos.1 hpos.2) h0 hw hn (Or.inr (by
      intro ix iy h1 h2
      rw [show ix = 0 by omega, show iy = 0 by omega]; exact hs)) (by
      intro ix iy h1 h2 _
      rw [show ix = 0 by omega, show iy = 0 by omega]
      exact ⟨hb, hl, hb'⟩)
  have := r2.inv.maps .ts
  unfold Holds at this
  rw [show mapEx o .ts = true from rfl, if_pos rfl] at this
  obtain ⟨l, a, b, e⟩ := this
  refine ⟨st.hists, st.present, l, r1, a, ?_, ?_, b⟩
  · intro j hj
    by_cases c : j < g.nPixels
    · rw [e j c]
      beta_reduce
      rw [if_neg (by omega)]
    · exact val_ge (by omega)
  · unfold column
    rw [if_neg (by decide), Nat.div_one]
    have : (List.range l.length).mapM (fun d => vget l (0 + d * 1)) = .ok l := by
      have := mapM_ok (fun d => vget l (0 + d * 1)) (fun d => val l d) (List.range l.length) (by
        intro d hd
        rw [Nat.mul_one, Nat.zero_add]
        exact vget_val (List.mem_range.1 hd))
      rw [this]
      congr 1
      refine ext_val (by simp) ?_
      intro i hi
      rw [List.length_map, List.length_range] at hi
      unfold val
      rw [List.getElem?_map, List.getElem?_range hi]
      rfl
    rw [show List.range 1 = [0] from rfl, List.mapM_cons, this, Res.bind_ok, List.mapM_nil]
    rfl

/-! ### Scans that fail -/

/-- A loop that meets a failing step. -/
theorem loop_fail_inv {σ : Type _} {body : Nat → σ → Res σ} (P : σ → Prop) {lo n k : Nat} {s : σ} (hk : k < n) (h0 : P s)
    (h : ∀ i s, lo ≤ i → i < lo + n → P s → body i s = .ub ∨ ∃ s', body i s = .ok s' ∧ P s')
    (hub : ∀ s, P s → body (lo + k) s = .ub) : loop body lo n s = .ub := by
  induction k generalizing lo n s with
  | zero =>
    obtain ⟨n, rfl⟩ : ∃ m, n = m + 1 := ⟨n - 1, by omega⟩
    rw [loop, show body lo s = .ub from hub s h0]
    rfl
  | succ k ih =>
    obtain ⟨n, rfl⟩ : ∃ m, n = m + 1 := ⟨n - 1, by omega⟩
    rw [loop]
    rcases h lo s (le_refl _) (by omega) h0 with e | ⟨s', e, hp⟩
    · rw [e]; rfl
    · rw [e, Res.bind_ok]
      exact ih (by omega) hp (fun i s h1 h2 => h i s (by omega) (by omega))
        (fun s hs => by rw [show lo + 1 + k = lo + (k + 1) by omega]; exact hub s hs)

/-- A loop whose steps are undefined or keep a property. -/
theorem loop_total_inv {σ : Type _} {body : Nat → σ → Res σ} (P : σ → Prop) {lo n : Nat} {s : σ} (h0 : P s)
    (h : ∀ i s, lo ≤ i → i < lo + n → P s → body i s = .ub ∨ ∃ s', body i s = .ok s' ∧ P s') :
    loop body lo n s = .ub ∨ ∃ s', loop body lo n s = .ok s' ∧ P s' := by
  induction n generalizing lo s with
  | zero => exact Or.inr ⟨s, rfl, h0⟩
  | succ n ih =>
    rw [loop]
    rcases h lo s (le_refl _) (by omega) h0 with e | ⟨s', e, hp⟩
    · rw [e]; exact Or.inl rfl
    · rw [e, Res.bind_ok]
      exact ih hp (fun i s h1 h2 => h i s (by omega) (by omega))

theorem vset_total (l : List ℝ) (i : Nat) (x : ℝ) : vset l i x = .ub ∨ ∃ l', vset l i x = .ok l' := by
  unfold vset
  split
  · exact Or.inr ⟨_, rfl⟩
  · exact Or.inl rfl

theorem setAll_total {κ : Type} [DecidableEq κ] (i : Nat) (f : κ → ℝ) : ∀ (ks : List κ) (h : κ → Option (List ℝ)),
    setAll i f ks h = .ub ∨ ∃ h', setAll i f ks h = .ok h'
  | [], h => Or.inr ⟨h, rfl⟩
  | k :: ks, h => by
    unfold setAll
    split
    · exact setAll_total i f ks h
    · rename_i l _
      rcases vset_total l i (f k) with e | ⟨l', e⟩
      · rw [e]; exact Or.inl rfl
      · rw [e, Res.bind_ok]; exact setAll_total i f ks _

theorem setStatus_total (h : Option (List ℝ)) (i : Nat) (v : ℝ) : setStatus h i v = .ub ∨ ∃ h', setStatus h i v = .ok h' := by
  unfold setStatus
  split
  · exact Or.inl rfl
  · rename_i l
    rcases vset_total l i v with e | ⟨l', e⟩
    · rw [e]; exact Or.inl rfl
    · rw [e, Res.bind_ok]; exact Or.inr ⟨_, rfl⟩

theorem failPixel_total (g : Grid) (o : Opts) (ipix : Nat) (status : Int) (h : Hists) :
    failPixel g o ipix status h = .ub ∨ ∃ h', failPixel g o ipix status h = .ok h' := by
  unfold failPixel
  rcases setStatus_total (h.maps .status) ipix status with e | ⟨m, e⟩
  · rw [e]; exact Or.inl rfl
  · rw [e, Res.bind_ok]
    rcases loop_total_inv (P := fun _ => True) (body := fun iE (h : Hists) => do
        let c ← setStatus (h.cubes .status) (ipix + iE * npix g o) status
        .ok (⟨h.maps, fun k => if k = .status then c else h.cubes k, h.scans⟩ : Hists)) (lo := 0) (n := g.nE)
      (s := ⟨fun k => if k = .status then m else h.maps k, h.cubes, h.scans⟩) trivial (by
      intro iE h _ _ _
      rcases setStatus_total (h.cubes .status) (ipix + iE * npix g o) status with e | ⟨m, e⟩
      · rw [e]; exact Or.inl rfl
      · rw [e, Res.bind_ok]; exact Or.inr ⟨_, rfl, trivial⟩) with e | ⟨s', e, _⟩
    · exact Or.inl e
    · exact Or.inr ⟨_, e⟩

theorem failPixel_ub (g : Grid) (o : Opts) (ipix : Nat) (status : Int) (h : Hists) (hc : h.cubes .status = none) (he : 0 < g.nE) :
    failPixel g o ipix status h = .ub := by
  unfold failPixel
  rcases setStatus_total (h.maps .status) ipix status with e | ⟨m, e⟩
  · rw [e]; rfl
  · rw [e, Res.bind_ok]
    obtain ⟨n, hn⟩ : ∃ n, g.nE = n + 1 := ⟨g.nE - 1, by omega⟩
    rw [hn, loop]
    simp only [hc]
    rfl

theorem prepare_total (w : Wrapper) (o : Opts) (p : Bool) : prepare w o p = .ub ∨ ∃ q, prepare w o p = .ok q := by
  unfold prepare addTest
  split
  · cases w
    · exact Or.inl rfl
    · exact Or.inr ⟨_, rfl⟩
  · exact Or.inr ⟨_, rfl⟩

/-- The rows of positions, when some step fails. -/
theorem run_ub (w : Wrapper) (g : Grid) (o : Opts) (f : Fits) (P : St → Prop) (nx ny ix iy : Nat)
    (hX : nx = if o.doMap then g.nx else 1) (hY : ny = if o.doMap then g.ny.getD 1 else 1)
    (h0 : f.null.1 = 0) (hx : ix < nx) (hy : iy < ny) (hs : P ⟨build g o, false, 0⟩)
    (h : ∀ iy ix st, ix < nx → iy < ny → P st → pixel w g o f iy ix st = .ub ∨ ∃ st', pixel w g o f iy ix st = .ok st' ∧ P st')
    (hub : ∀ st, P st → pixel w g o f iy ix st = .ub) : run w g o f = .ub := by
  unfold run
  rw [if_neg (by rw [h0]; simp), ← hX, ← hY]
  rw [loop_fail_inv P (k := iy) hy hs (by
    intro i st _ hi hp
    exact loop_total_inv P hp (fun j s _ hj hs => h i j s (by omega) (by omega) hs)) (by
    intro st hp
    rw [Nat.zero_add]
    exact loop_fail_inv P (k := ix) hx hp (fun j s _ hj hs => h iy j s (by omega) (by omega) hs) (by
      intro s hs
      rw [Nat.zero_add]
      exact hub s hs))]
  rfl

/-- C132 violated: when only a map is asked for, one position at which the fit fails makes the whole scan undefined: the status is
also written into the cube of statuses, which does not exist. -/
theorem C132_map_only_violates (w : Wrapper) (g : Grid) (o : Opts) (f : Fits) (nx ny ix iy : Nat)
    (hX : nx = if o.doMap then g.nx else 1) (hY : ny = if o.doMap then g.ny.getD 1 else 1) (h0 : f.null.1 = 0)
    (hd : o.doSed = false) (he : 0 < g.nE) (hx : ix < nx) (hy : iy < ny) (hf : (f.broad ix iy).status ≠ 0) : run w g o f = .ub := by
  refine run_ub w g o f (fun st => st.hists.cubes .status = none) nx ny ix iy hX hY h0 hx hy ?_ ?_ ?_
  · simp [build, hd]
  · intro iy ix st _ _ hp
    unfold pixel
    rcases prepare_total w o st.present with e | ⟨q, e⟩
    · rw [e]; exact Or.inl rfl
    · rw [e, Res.bind_ok]
      by_cases c : (f.broad ix iy).status ≠ 0
      · rw [if_pos c, failPixel_ub g o _ _ _ hp he]; exact Or.inl rfl
      · rw [if_neg c]
        rcases setAll_total st.ipix (broadValue f.null.2 (f.broad ix iy)) [.ts, .norm, .pos, .neg, .sym] st.hists.maps with e | ⟨m, e⟩
        · rw [e]; exact Or.inl rfl
        · rw [e, Res.bind_ok, hd]
          exact Or.inr ⟨_, rfl, hp⟩
  · intro st hp
    unfold pixel
    rcases prepare_total w o st.present with e | ⟨q, e⟩
    · rw [e]; rfl
    · rw [e, Res.bind_ok, if_pos hf, failPixel_ub g o _ _ _ hp he]; rfl

/-- A case in which the hypotheses hold. -/
example : twoByTwo.null.1 = 0 ∧ (twoByTwo.broad 1 0).status ≠ 0 := by simp [twoByTwo]

/-- C132 violated: energies without normalizations make the scan undefined at the first position with a successful fit. -/
theorem C132_nnorm_violates (w : Wrapper) (g : Grid) (o : Opts) (f : Fits) (bins : Nat → Nat → List Bin) (nx ny ix iy : Nat)
    (hX : nx = if o.doMap then g.nx else 1) (hY : ny = if o.doMap then g.ny.getD 1 else 1) (h0 : f.null.1 = 0)
    (hd : o.doSed = true) (hn : o.nNorm = 0) (he : 0 < g.nE) (hc : Complete f bins nx ny g.nE o.nNorm)
    (hx : ix < nx) (hy : iy < ny) (hf : (f.broad ix iy).status = 0) : run w g o f = .ub := by
  have key : ∀ ix iy st, ix < nx → iy < ny → (f.broad ix iy).status = 0 → pixel w g o f iy ix st = .ub := by
    intro ix iy st h1 h2 h3
    unfold pixel
    rcases prepare_total w o st.present with e | ⟨q, e⟩
    · rw [e]; rfl
    · rw [e, Res.bind_ok, if_neg (by rw [h3]; simp)]
      rcases setAll_total st.ipix (broadValue f.null.2 (f.broad ix iy)) [.ts, .norm, .pos, .neg, .sym] st.hists.maps with e | ⟨m, e⟩
      · rw [e]; rfl
      · rw [e, Res.bind_ok, hd]
        obtain ⟨c1, c2, c3⟩ := hc ix iy h1 h2 h3
        simp only [Bool.not_true, Bool.false_eq_true, if_false]
        rw [c1, Res.bind_ok]
        unfold fillSed
        obtain ⟨n, hn'⟩ : ∃ n, g.nE = n + 1 := ⟨g.nE - 1, by omega⟩
        rw [hn', loop, vget_lt _ _ (by omega), Res.bind_ok]
        have hl := (c3 (bins ix iy)[0] (List.getElem_mem _)).2
        rw [hn] at hl
        unfold fillBin
        rw [vget_ge _ _ (by omega)]
        rfl
  refine run_ub w g o f (fun _ => True) nx ny ix iy hX hY h0 hx hy trivial ?_ (fun st _ => key ix iy st hx hy hf)
  intro iy ix st h1 h2 _
  by_cases c : (f.broad ix iy).status = 0
  · exact Or.inl (key ix iy st h1 h2 c)
  · unfold pixel
    rcases prepare_total w o st.present with e | ⟨q, e⟩
    · rw [e]; exact Or.inl rfl
    · rw [e, Res.bind_ok, if_pos c]
      rcases failPixel_total g o st.ipix (f.broad ix iy).status st.hists with e | ⟨h, e⟩
      · rw [e]; exact Or.inl rfl
      · rw [e, Res.bind_ok]; exact Or.inr ⟨_, rfl, trivial⟩

/-- A case in which the hypotheses hold. -/
example : Complete ⟨(0, 0), fun _ _ => ⟨0, 0, 0, 0, 0⟩, fun _ _ => .ok [⟨0, 0, 0, 0, 0, 0, [], []⟩]⟩
    (fun _ _ => [⟨0, 0, 0, 0, 0, 0, [], []⟩]) 2 2 1 0 := by
  intro ix iy _ _ _
  refine ⟨rfl, rfl, ?_⟩
  intro b hb
  rw [List.mem_singleton.1 hb]
  exact ⟨rfl, rfl⟩

/-- C132 violated: with one likelihood, making the test source again at each position is undefined at the first position. -/
theorem C132_remake_violates (g : Grid) (o : Opts) (f : Fits) (hpos : 0 < g.nx ∧ 0 < g.ny.getD 1) (h0 : f.null.1 = 0)
    (hr : o.remake = true) : run .single g o f = .ub := by
  have key : ∀ iy ix st, pixel .single g o f iy ix st = .ub := by
    intro iy ix st
    unfold pixel prepare
    rw [hr]; rfl
  refine run_ub .single g o f (fun _ => True) (if o.doMap then g.nx else 1) (if o.doMap then g.ny.getD 1 else 1) 0 0 rfl rfl h0 ?_ ?_
    trivial (fun _ _ _ _ _ _ => Or.inl (key _ _ _)) (fun _ _ => key _ _ _)
  · split <;> omega
  · split <;> omega

example : 0 < (⟨2, some 2, 1⟩ : Grid).nx ∧ 0 < (⟨2, some 2, 1⟩ : Grid).ny.getD 1 := by decide

/-! ### The file -/

/-- C132: the table of a scan has one row per position, and in its cells, with the dimensions written for them, the element with
indices `iN`, `iE` is the value at this position, energy and normalization, although the axes of the histogram are named in
another order. -/
theorem C132_table (g : Grid) (o : Opts) (l : List ℝ) (n nNorm : Nat) (hn : 0 < n) (hl : l.length = n * g.nE * nNorm) :
    tdim g nNorm (scanAxes o) = some [nNorm, g.nE] ∧
      ∃ rows, column l n = .ok rows ∧ rows.length = n ∧ ∀ p, p < n → ∃ cell, rows[p]? = some cell ∧ cell.length = nNorm * g.nE ∧
        ∀ iE iN, iE < g.nE → iN < nNorm → element cell nNorm iN iE = val l ((iE * nNorm + iN) * n + p) := by
  have hdiv : l.length / n = g.nE * nNorm := by
    rw [hl, Nat.mul_assoc, Nat.mul_div_cancel_left _ hn]
  have hidx : ∀ p d, p < n → d < l.length / n → p + d * n < l.length := by
    intro p d h1 h2
    rw [hdiv] at h2
    rw [hl, Nat.mul_assoc, Nat.mul_comm n, Nat.add_comm]
    exact idx_lt h1 h2
  constructor
  · unfold tdim scanAxes
    cases o.doMap <;> rfl
  · refine ⟨(List.range n).map (fun p => (List.range (l.length / n)).map (fun d => val l (p + d * n))), ?_, by simp, ?_⟩
    · unfold column
      rw [if_neg (by omega)]
      apply mapM_ok
      intro p hp
      apply mapM_ok
      intro d hd
      exact vget_val (hidx p d (List.mem_range.1 hp) (List.mem_range.1 hd))
    · intro p hp
      refine ⟨(List.range (l.length / n)).map (fun d => val l (p + d * n)), ?_, by simp [hdiv, Nat.mul_comm], ?_⟩
      · rw [List.getElem?_map, List.getElem?_range hp]; rfl
      · intro iE iN h1 h2
        unfold element
        rw [val_map_range _ (by rw [hdiv]; exact idx_lt h2 h1), Nat.add_comm]

example : ([1, 2, 3, 4, 5, 6, 7, 8] : List ℝ).length = 2 * (⟨2, none, 2⟩ : Grid).nE * 2 := rfl

/-- C132 violated: the edges in the table of energies are in keV, as their units say, but the reference energy is in MeV: for bins of less
than six decades it lies below the lower edge. -/
theorem C132_energies_violates (energies : List ℝ) (i : Nat) (hi : i + 1 < energies.length) (h0 : 0 < val energies i)
    (h1 : val energies i < val energies (i + 1)) (h2 : val energies (i + 1) < 1e6 * val energies i) :
    ∃ r, energyRow energies i = .ok r ∧ r.channel = i + 1 ∧ r.eMin = 1000 * val energies i ∧ r.eMax = 1000 * val energies (i + 1) ∧
      r.eRef ^ 2 = val energies i * val energies (i + 1) ∧ r.eRef < r.eMin := by
  unfold energyRow
  rw [vget_val (by omega), Res.bind_ok, vget_val hi, Res.bind_ok]
  refine ⟨_, rfl, rfl, rfl, rfl, Real.sq_sqrt (by nlinarith), ?_⟩
  simp only
  rw [Real.sqrt_lt' (by linarith)]
  nlinarith

example : (0 : ℝ) < val [100, 200] 0 ∧ val [(100 : ℝ), 200] 1 < 1e6 * val [(100 : ℝ), 200] 0 := by norm_num [val]

/-! ### Energy bins -/

theorem range_mapM_inv {β : Type} {f : Nat → Res β} {n : Nat} {l : List β} (h : (List.range n).mapM f = .ok l) :
    l.length = n ∧ ∀ i < n, ∃ b, l[i]? = some b ∧ f i = .ok b := by
  induction n generalizing l with
  | zero =>
    rw [List.range_zero, List.mapM_nil] at h
    cases h
    exact ⟨rfl, fun i hi => absurd hi (by omega)⟩
  | succ n ih =>
    rw [List.range_succ, List.mapM_append] at h
    obtain ⟨a, h1, h2⟩ := Res.bind_eq_ok.1 h
    obtain ⟨b, h3, h4⟩ := Res.bind_eq_ok.1 h2
    rw [List.mapM_cons] at h3
    obtain ⟨c, h5, h6⟩ := Res.bind_eq_ok.1 h3
    rw [List.mapM_nil, Res.pure_eq, Res.bind_ok] at h6
    cases h6
    cases h4
    obtain ⟨p, q⟩ := ih h1
    refine ⟨by simp [p], fun i hi => ?_⟩
    rcases Nat.lt_or_ge i n with e | e
    · obtain ⟨b, b1, b2⟩ := q i e
      exact ⟨b, by rw [List.getElem?_append_left (by omega)]; exact b1, b2⟩
    · obtain rfl : i = n := by omega
      exact ⟨c, by rw [← p]; simp, h5⟩

theorem scanLoop_first {P : ℝ → Res (Int × ℝ)} {d : ℝ} {n : Nat} {x : ℝ} {s : ScanNorm.Scan} (hn : 0 < n) (h : ScanNorm.scanLoop P d n x = .ok s) :
    val s.norms 0 = x ∧ ∃ st, P x = .ok (st, val s.logLikes 0) := by
  obtain ⟨n, rfl⟩ : ∃ m, n = m + 1 := ⟨n - 1, by omega⟩
  rw [ScanNorm.scanLoop] at h
  obtain ⟨r, h1, h2⟩ := Res.bind_eq_ok.1 h
  by_cases c : r.1 ≠ 0
  · rw [if_pos c] at h2
    cases h2
    exact ⟨rfl, r.1, h1⟩
  · rw [if_neg c] at h2
    obtain ⟨s', _, h4⟩ := Res.bind_eq_ok.1 h2
    cases h4
    exact ⟨rfl, r.1, h1⟩

theorem scanLoop_length {P : ℝ → Res (Int × ℝ)} {d : ℝ} : ∀ {n : Nat} {x : ℝ} {s : ScanNorm.Scan}, ScanNorm.scanLoop P d n x = .ok s →
    s.norms.length = n ∧ s.logLikes.length = n
  | 0, x, s, h => by
    rw [ScanNorm.scanLoop] at h
    cases h
    exact ⟨rfl, rfl⟩
  | n + 1, x, s, h => by
    rw [ScanNorm.scanLoop] at h
    obtain ⟨r, h1, h2⟩ := Res.bind_eq_ok.1 h
    by_cases c : r.1 ≠ 0
    · rw [if_pos c] at h2
      cases h2
      simp
    · rw [if_neg c] at h2
      obtain ⟨s', h3, h4⟩ := Res.bind_eq_ok.1 h2
      cases h4
      obtain ⟨a, b⟩ := scanLoop_length h3
      exact ⟨by simp [a], by simp [b]⟩

/-- Bins whose fit succeeds. -/
theorem sedBin_inv {trunc : ℝ → Int} {inv : List (List ℝ) → Int × (List ℝ → List ℝ)} {svd : List (List ℝ) → ℝ → List ℝ → Int × List ℝ}
    {nnorm : Nat} {sigma : ℝ} {c : ScanNorm.Cache} {l : ℝ} {b : Bin} (h : sedBin trunc inv svd nnorm sigma (.ok (0, c, l)) = .ok b) :
    ∃ t e u r s, c.test = some t ∧ t < c.pars.length ∧ c.models ≠ [] ∧
      ScanNorm.signalUncertainty trunc c 0.5 ⟨0, 0⟩ = .ok e ∧ ScanNorm.signalUncertainty trunc c 1.36 ⟨0, 0⟩ = .ok u ∧
      ScanNorm.signalUncertainty trunc c (0.5 * sigma * sigma) ⟨0, u.2.neg⟩ = .ok r ∧
      ScanNorm.scanNormalization inv svd c nnorm 1 r.2.pos r.2.neg = .ok s ∧
      b = ⟨0, l, val c.pars t, e.2.pos, e.2.neg, u.2.pos, s.norms, s.logLikes⟩ := by
  unfold sedBin at h
  rw [Res.bind_ok, if_neg (by simp)] at h
  simp only at h
  split at h
  · cases h
  · rename_i t ht
    obtain ⟨x, h1, h⟩ := Res.bind_eq_ok.1 h
    obtain ⟨e, h2, h⟩ := Res.bind_eq_ok.1 h
    obtain ⟨u, h3, h⟩ := Res.bind_eq_ok.1 h
    obtain ⟨r, h4, h⟩ := Res.bind_eq_ok.1 h
    obtain ⟨s, h5, h⟩ := Res.bind_eq_ok.1 h
    have hm : c.models ≠ [] := by
      intro hm
      unfold ScanNorm.scanNormalization at h5
      rw [ht] at h5
      simp only at h5
      rw [h1, Res.bind_ok, if_pos hm] at h5
      cases h5
    have hx := vget_eq_ok.1 h1
    obtain ⟨hlt, hx'⟩ := List.getElem?_eq_some_iff.1 hx
    refine ⟨t, e, u, r, s, ht, hlt, hm, h2, h3, h4, h5, ?_⟩
    cases h
    rw [val_lt hlt, hx']

/-- C132: the code of a scan over energies is the number of bins whose fit fails; every bin has the asked for number of normalizations.  A bin
whose fit fails has its status, log likelihood zero, -1 for the normalization, its errors and its limit, and zeros for the scan; the others have
the results of the fit and its errors (for half a unit of log likelihood) and limit (1.36). -/
theorem C132_bins (trunc : ℝ → Int) (inv : List (List ℝ) → Int × (List ℝ → List ℝ)) (svd : List (List ℝ) → ℝ → List ℝ → Int × List ℝ)
    (nnorm : Nat) (sigma : ℝ) (fit : Nat → Res (Int × ScanNorm.Cache × ℝ)) (nE : Nat) (st : Nat → Int) (c : Nat → ScanNorm.Cache)
    (l : Nat → ℝ) (hf : ∀ i < nE, fit i = .ok (st i, c i, l i)) (n : Nat) (bins : List Bin)
    (h : sedBinned trunc inv svd nnorm sigma fit nE = .ok (n, bins)) :
    n = ((List.range nE).filter (fun i => st i ≠ 0)).length ∧ bins.length = nE ∧
      ∀ i < nE, ∃ b, bins[i]? = some b ∧ b.status = st i ∧ b.norms.length = nnorm ∧ b.logLikes.length = nnorm ∧
        (st i ≠ 0 → b.logLike = 0 ∧ b.norm = -1 ∧ b.pos = -1 ∧ b.neg = -1 ∧ b.ul = -1 ∧ ∀ j, val b.norms j = 0 ∧ val b.logLikes j = 0) ∧
        (st i = 0 → b.logLike = l i ∧ ∃ t e u, (c i).test = some t ∧ (c i).pars[t]? = some b.norm ∧
          ScanNorm.signalUncertainty trunc (c i) (1 / 2) ⟨0, 0⟩ = .ok e ∧ b.pos = e.2.pos ∧ b.neg = e.2.neg ∧
          ScanNorm.signalUncertainty trunc (c i) 1.36 ⟨0, 0⟩ = .ok u ∧ b.ul = u.2.pos) := by
  unfold sedBinned at h
  obtain ⟨bs, h1, h2⟩ := Res.bind_eq_ok.1 h
  cases h2
  obtain ⟨hl, hb⟩ := range_mapM_inv h1
  have key : ∀ i < nE, ∃ b, bins[i]? = some b ∧ b.status = st i ∧ b.norms.length = nnorm ∧ b.logLikes.length = nnorm ∧
        (st i ≠ 0 → b.logLike = 0 ∧ b.norm = -1 ∧ b.pos = -1 ∧ b.neg = -1 ∧ b.ul = -1 ∧ ∀ j, val b.norms j = 0 ∧ val b.logLikes j = 0) ∧
        (st i = 0 → b.logLike = l i ∧ ∃ t e u, (c i).test = some t ∧ (c i).pars[t]? = some b.norm ∧
          ScanNorm.signalUncertainty trunc (c i) (1 / 2) ⟨0, 0⟩ = .ok e ∧ b.pos = e.2.pos ∧ b.neg = e.2.neg ∧
          ScanNorm.signalUncertainty trunc (c i) 1.36 ⟨0, 0⟩ = .ok u ∧ b.ul = u.2.pos) := by
    intro i hi
    obtain ⟨b, b1, b2⟩ := hb i hi
    rw [hf i hi] at b2
    refine ⟨b, b1, ?_⟩
    by_cases c0 : st i = 0
    · rw [c0] at b2
      obtain ⟨t, e, u, r, s, q1, q2, q3, q4, q5, q6, q7, rfl⟩ := sedBin_inv b2
      rw [ScanNorm.scan_some q1 q2 q3] at q7
      obtain ⟨a1, a2⟩ := scanLoop_length q7
      refine ⟨c0.symm, a1, a2, fun h => absurd c0 h, fun _ => ⟨rfl, t, e, u, q1, ?_, ?_, rfl, rfl, q5, rfl⟩⟩
      · exact getElem?_val q2
      · rw [show (1 / 2 : ℝ) = 0.5 by norm_num]; exact q4
    · unfold sedBin at b2
      rw [Res.bind_ok, if_pos c0] at b2
      cases b2
      exact ⟨rfl, by simp, by simp, fun _ => ⟨rfl, rfl, rfl, rfl, rfl, fun j => ⟨val_replicate _ _, val_replicate _ _⟩⟩,
        fun h => absurd h c0⟩
  refine ⟨?_, hl, key⟩
  have e : bins.map (·.status) = (List.range nE).map st := by
    apply List.ext_getElem?
    intro i
    rw [List.getElem?_map, List.getElem?_map]
    rcases Nat.lt_or_ge i nE with hi | hi
    · obtain ⟨b, b1, b2, _⟩ := key i hi
      rw [b1, List.getElem?_range hi]
      simp [b2]
    · rw [List.getElem?_eq_none (by omega), List.getElem?_eq_none (by simpa using hi)]
      rfl
  have e2 : (bins.filter (fun b => decide (b.status ≠ 0))).length = ((bins.map (·.status)).filter (fun s => decide (s ≠ 0))).length := by
    rw [List.filter_map, List.length_map]; rfl
  rw [e2, e, List.filter_map, List.length_map]
  rfl

/-- A scan of two bins of which one fails: the hypotheses hold. -/
example (trunc : ℝ → Int) (inv : List (List ℝ) → Int × (List ℝ → List ℝ)) (svd : List (List ℝ) → ℝ → List ℝ → Int × List ℝ) :
    ∃ n bins, sedBinned trunc inv svd 2 3 (fun i => .ok (if i = 0 then 0 else 4, ScanNorm.oneBin, -1)) 2 = .ok (n, bins) := by
  have key : ∀ k, ScanNorm.oneBin.first ≤ k → k < ScanNorm.oneBin.last → k = 0 := by
    intro k _ h
    have : k < 1 := h
    omega
  have hsig : ∀ (d : ℝ) (old : ScanNorm.Errors), 0 ≤ d → ∃ e, ScanNorm.signalUncertainty trunc ScanNorm.oneBin d old = .ok (0, e) := by
    intro d old hd
    obtain ⟨e, h, _⟩ := ScanNorm.C125_errors_partial trunc ScanNorm.oneBin 0 d old rfl (by simp [ScanNorm.oneBin])
      (by simp [ScanNorm.oneBin]) (by norm_num [ScanNorm.oneBin]) hd
    exact ⟨e, h⟩
  obtain ⟨e, he⟩ := hsig 0.5 ⟨0, 0⟩ (by norm_num)
  obtain ⟨u, hu⟩ := hsig 1.36 ⟨0, 0⟩ (by norm_num)
  obtain ⟨r, hr⟩ := hsig (0.5 * 3 * 3) ⟨0, u.neg⟩ (by norm_num)
  obtain ⟨s, hs, _⟩ := ScanNorm.C125_direct_partial inv svd ScanNorm.oneBin [2] 2 1 r.pos r.neg (by norm_num) ScanNorm.oneBin_fits rfl
    (by intro k h1 h2; rw [key k h1 h2]; norm_num [ScanNorm.oneBin, FitUtils.val])
    (by intro k h1 h2; rw [key k h1 h2]; norm_num [FitUtils.val])
    (by intro k h1 h2 _; rw [key k h1 h2]; left; norm_num [ScanNorm.oneBin, FitUtils.val])
  unfold sedBinned
  rw [show List.range 2 = [0, 1] from rfl, List.mapM_cons, List.mapM_cons, List.mapM_nil]
  have h0 : ∃ b, sedBin trunc inv svd 2 3 (.ok (0, ScanNorm.oneBin, -1)) = .ok b := by
    unfold sedBin
    rw [Res.bind_ok, if_neg (by simp)]
    simp only [show ScanNorm.oneBin.test = some 0 from rfl, show vget ScanNorm.oneBin.pars 0 = .ok 1e-5 from rfl, Res.bind_ok, he, hu, hr, hs]
    exact ⟨_, rfl⟩
  obtain ⟨b, hb⟩ := h0
  simp only [if_true, hb, Res.bind_ok, one_ne_zero, if_false]
  unfold sedBin
  simp only [Res.bind_ok, if_true]
  exact ⟨_, _, rfl⟩

/-! ### Test statistics of energy bins -/

/-- What the test statistic of a bin refers to: the normalization at which the scan starts.  At the best value (gradient zero), for a variance
of at least 1e-10, that is `sigma` over the square root of two standard deviations below it, or 1e-10 if this is not
positive.  `_partial`: it should refer to the normalization zero, see `C132_ts_violates`. -/
theorem C132_ts_partial (trunc : ℝ → Int) (inv : List (List ℝ) → Int × (List ℝ → List ℝ))
    (svd : List (List ℝ) → ℝ → List ℝ → Int × List ℝ) (nnorm : Nat) (sigma : ℝ) (c : ScanNorm.Cache) (t : Nat) (l : ℝ) (b : Bin)
    (h : sedBin trunc inv svd nnorm sigma (.ok (0, c, l)) = .ok b) (hn : 0 < nnorm) (ht : c.test = some t) (hg : t < c.grad.length)
    (hg0 : val c.grad t = 0) (hv : 1e-10 ≤ c.cov t t) :
    ∃ r, 0 ≤ r ∧ r ^ 2 = c.cov t t * sigma ^ 2 / 2 ∧
      val b.norms 0 = (if r ≤ val c.pars t then max 1e-10 (val c.pars t - r) else 1e-10) ∧
      ∃ s, ScanNorm.point inv svd c (val b.norms 0) = .ok (s, val b.logLikes 0) := by
  obtain ⟨t', e, u, r, s, q1, q2, q3, q4, q5, q6, q7, rfl⟩ := sedBin_inv h
  rw [ht] at q1
  cases q1
  have hv0 : 0 < c.cov t t := lt_of_lt_of_le (by norm_num) hv
  obtain ⟨w, w1, _, _, r0, w2, w3, w4⟩ := ScanNorm.C125_errors_partial trunc c t (0.5 * sigma * sigma) ⟨0, u.2.neg⟩ ht hg q2 hv
    (by nlinarith [mul_self_nonneg sigma])
  rw [w1] at q6
  cases q6
  rw [ScanNorm.scan_some ht q2 q3] at q7
  obtain ⟨a1, a2⟩ := scanLoop_first hn q7
  refine ⟨r0, w2, ?_, ?_, ?_⟩
  · have hg0' : FitUtils.val c.grad t = 0 := hg0
    unfold ScanNorm.Spec.increase at w3
    rw [hg0'] at w3
    field_simp at w3
    nlinarith
  · simp only
    rw [a1]
    unfold ScanNorm.Spec.low
    simp only [w4]
    have e1 : FitUtils.val c.pars t = val c.pars t := rfl
    rw [e1]
    by_cases hr : r0 ≤ val c.pars t
    · rw [if_pos hr, if_pos hr, if_neg (not_lt.2 w2), one_mul]
    · rw [if_neg hr, if_neg hr, if_pos (by norm_num)]
  · simp only
    rw [a1]
    exact a2

/-- C132 violated: for a log likelihood that is quadratic in the normalization, the test statistic of a bin with a significant source is half of
the square of the number of standard deviations asked for in the scan, however significant the source is; the test
statistic with respect to no source is at least that. -/
theorem C132_ts_violates (trunc : ℝ → Int) (inv : List (List ℝ) → Int × (List ℝ → List ℝ))
    (svd : List (List ℝ) → ℝ → List ℝ → Int × List ℝ) (nnorm : Nat) (sigma : ℝ) (c : ScanNorm.Cache) (t : Nat) (l : ℝ) (b : Bin)
    (h : sedBin trunc inv svd nnorm sigma (.ok (0, c, l)) = .ok b) (hn : 0 < nnorm) (ht : c.test = some t) (hg : t < c.grad.length)
    (hg0 : val c.grad t = 0) (hv : 1e-10 ≤ c.cov t t) (hs : 0 ≤ sigma)
    (hx : sigma * Real.sqrt (c.cov t t / 2) + 1e-10 ≤ val c.pars t)
    (hq : val b.logLikes 0 = parabola b.logLike (val c.pars t) (c.cov t t) (val b.norms 0)) (f : Broad) (hf : f.status = 0) :
    cubeAt f b .ts = sigma ^ 2 / 2 ∧
      2 * (b.logLike - parabola b.logLike (val c.pars t) (c.cov t t) 0) = val c.pars t ^ 2 / c.cov t t ∧
      sigma ^ 2 / 2 ≤ val c.pars t ^ 2 / c.cov t t := by
  obtain ⟨r, r1, r2, r3, _⟩ := C132_ts_partial trunc inv svd nnorm sigma c t l b h hn ht hg hg0 hv
  have hv0 : 0 < c.cov t t := lt_of_lt_of_le (by norm_num) hv
  have hr : r = sigma * Real.sqrt (c.cov t t / 2) := by
    have h1 : 0 ≤ sigma * Real.sqrt (c.cov t t / 2) := mul_nonneg hs (Real.sqrt_nonneg _)
    have h2 : (sigma * Real.sqrt (c.cov t t / 2)) ^ 2 = c.cov t t * sigma ^ 2 / 2 := by
      rw [mul_pow, Real.sq_sqrt (by positivity)]
      ring
    have h3 : r ^ 2 = (sigma * Real.sqrt (c.cov t t / 2)) ^ 2 := by rw [r2, h2]
    exact (pow_left_inj₀ r1 h1 (by norm_num)).1 h3
  rw [← hr] at hx
  rw [if_pos (by linarith [show (0 : ℝ) < 1e-10 by norm_num]), max_eq_right (by linarith)] at r3
  refine ⟨?_, ?_, ?_⟩
  · simp only [cubeAt]
    rw [if_pos hf, hq, r3]
    unfold parabola
    have : (val c.pars t - r - val c.pars t) ^ 2 = c.cov t t * sigma ^ 2 / 2 := by rw [← r2]; ring
    rw [this]
    field_simp
    ring
  · unfold parabola
    field_simp
    ring
  · rw [div_le_div_iff₀ (by norm_num) hv0]
    have : r ^ 2 ≤ val c.pars t ^ 2 := by
      apply pow_le_pow_left₀ r1
      linarith [show (0 : ℝ) < 1e-10 by norm_num]
    nlinarith

/-- `oneBin` at another normalization. -/
noncomputable def farBin : ScanNorm.Cache := { ScanNorm.oneBin with pars := [10] }

theorem farBin_fits : ScanNorm.Spec.Fits farBin [] [2] where
  test := rfl
  models := rfl
  target := rfl
  pars := rfl
  fixed := rfl
  one := rfl
  others := by simp
  weights := by intro w h; cases h
  range := by simp [farBin, ScanNorm.oneBin]
  last := by simp [farBin, ScanNorm.oneBin]
  inside := by simp [farBin, ScanNorm.oneBin, ScanNorm.Spec.data]

/-- A case in which the hypotheses hold. -/
example (trunc : ℝ → Int) (inv : List (List ℝ) → Int × (List ℝ → List ℝ)) (svd : List (List ℝ) → ℝ → List ℝ → Int × List ℝ) :
    ∃ l b, sedBin trunc inv svd 2 3 (.ok (0, farBin, l)) = .ok b ∧ farBin.test = some 0 ∧ 0 < farBin.grad.length ∧
      val farBin.grad 0 = 0 ∧ 1e-10 ≤ farBin.cov 0 0 ∧ 3 * Real.sqrt (farBin.cov 0 0 / 2) + 1e-10 ≤ val farBin.pars 0 ∧
      val b.logLikes 0 = parabola b.logLike (val farBin.pars 0) (farBin.cov 0 0) (val b.norms 0) := by
  have key : ∀ k, farBin.first ≤ k → k < farBin.last → k = 0 := by
    intro k _ h
    have : k < 1 := h
    omega
  have hsig : ∀ (d : ℝ) (old : ScanNorm.Errors), 0 ≤ d → ∃ e, ScanNorm.signalUncertainty trunc farBin d old = .ok (0, e) := by
    intro d old hd
    obtain ⟨e, h, _⟩ := ScanNorm.C125_errors_partial trunc farBin 0 d old rfl (by simp [farBin, ScanNorm.oneBin])
      (by simp [farBin]) (by norm_num [farBin, ScanNorm.oneBin]) hd
    exact ⟨e, h⟩
  obtain ⟨e, he⟩ := hsig 0.5 ⟨0, 0⟩ (by norm_num)
  obtain ⟨u, hu⟩ := hsig 1.36 ⟨0, 0⟩ (by norm_num)
  obtain ⟨r, hr⟩ := hsig (0.5 * 3 * 3) ⟨0, u.neg⟩ (by norm_num)
  obtain ⟨s, hs, _⟩ := ScanNorm.C125_direct_partial inv svd farBin [2] 2 1 r.pos r.neg (by norm_num) farBin_fits rfl
    (by intro k h1 h2; rw [key k h1 h2]; norm_num [farBin, ScanNorm.oneBin, FitUtils.val])
    (by intro k h1 h2; rw [key k h1 h2]; norm_num [FitUtils.val])
    (by intro k h1 h2 _; rw [key k h1 h2]; left; norm_num [farBin, ScanNorm.oneBin, FitUtils.val])
  refine ⟨val s.logLikes 0 + (val s.norms 0 - 10) ^ 2 / 2, ⟨0, val s.logLikes 0 + (val s.norms 0 - 10) ^ 2 / 2, 10, e.pos, e.neg, u.pos, s.norms, s.logLikes⟩,
    ?_, rfl, by simp [farBin, ScanNorm.oneBin], by simp [farBin, ScanNorm.oneBin, val], by norm_num [farBin, ScanNorm.oneBin], ?_, ?_⟩
  · unfold sedBin
    rw [Res.bind_ok, if_neg (by simp)]
    simp only [show farBin.test = some 0 from rfl, show vget farBin.pars 0 = .ok 10 from rfl, Res.bind_ok, he, hu, hr, hs]
  · have : Real.sqrt (farBin.cov 0 0 / 2) ≤ 1 := by
      rw [Real.sqrt_le_one]
      norm_num [farBin, ScanNorm.oneBin]
    have hp : val farBin.pars 0 = 10 := rfl
    rw [hp]
    have : (1e-10 : ℝ) ≤ 1 := by norm_num
    linarith
  · have hp : val farBin.pars 0 = 10 := rfl
    have hv : farBin.cov 0 0 = 1 := rfl
    rw [hp, hv]
    unfold parabola
    simp

/-- C132 violated: for a variance below 1e-10 the errors and the limit of a bin are zero, and its test statistic compares the best
normalization with itself. -/
theorem C132_small_violates (trunc : ℝ → Int) (inv : List (List ℝ) → Int × (List ℝ → List ℝ))
    (svd : List (List ℝ) → ℝ → List ℝ → Int × List ℝ) (nnorm : Nat) (sigma : ℝ) (c : ScanNorm.Cache) (t : Nat) (l : ℝ) (b : Bin)
    (h : sedBin trunc inv svd nnorm sigma (.ok (0, c, l)) = .ok b) (hn : 0 < nnorm) (ht : c.test = some t) (hg : t < c.grad.length)
    (hg0 : val c.grad t ≠ 0) (hv : |c.cov t t| < 1e-10) (hx : 1e-10 ≤ val c.pars t) :
    b.pos = 0 ∧ b.neg = 0 ∧ b.ul = 0 ∧ val b.norms 0 = b.norm := by
  obtain ⟨t', e, u, r, s, q1, q2, q3, q4, q5, q6, q7, rfl⟩ := sedBin_inv h
  rw [ht] at q1
  cases q1
  have small : ∀ d old, ∃ k, ScanNorm.signalUncertainty trunc c d old = .ok (k, old) := fun d old =>
    (ScanNorm.C125_small_violates trunc c t d old ht hg q2 hv).2 hg0
  obtain ⟨k1, s1⟩ := small 0.5 ⟨0, 0⟩
  obtain ⟨k2, s2⟩ := small 1.36 ⟨0, 0⟩
  rw [s1] at q4; cases q4
  rw [s2] at q5; cases q5
  obtain ⟨k3, s3⟩ := small (0.5 * sigma * sigma) ⟨0, 0⟩
  rw [s3] at q6; cases q6
  rw [ScanNorm.scan_some ht q2 q3] at q7
  obtain ⟨a1, _⟩ := scanLoop_first hn q7
  refine ⟨rfl, rfl, rfl, ?_⟩
  simp only
  rw [a1]
  unfold ScanNorm.Spec.low
  have e1 : FitUtils.val c.pars t = val c.pars t := rfl
  rw [e1, if_neg (by simp), mul_zero, sub_zero, max_eq_right hx]

/-- Such a cache. -/
example : let c : ScanNorm.Cache := { farBin with cov := fun _ _ => 1e-12, grad := [1] }
    val c.grad 0 ≠ 0 ∧ |c.cov 0 0| < 1e-10 ∧ 1e-10 ≤ val c.pars 0 := by
  refine ⟨by simp [val], by norm_num, by norm_num [val, farBin]⟩

end Verif.TsScan
