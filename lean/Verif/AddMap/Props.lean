import Verif.AddMap.Lemmas
import Verif.Sparse.Props
import Mathlib.Algebra.Field.Rat
import Mathlib.Algebra.Order.Ring.Rat
import Mathlib.Tactic.NormNum
set_option linter.unusedSectionVars false
set_option linter.unusedVariables false
/-
C33: adding a source map to a vector, and subtracting it.
-/
namespace Verif.AddMap
open Verif.Sparse Verif.Vec

variable {K : Type} [Field K] [DecidableEq K] {s s' : SMap K} {M v : List K} {kmin kmax : Int} {a b : Nat}

theorem reload_eq (h : s.Holds M) (hd : s.isSparse = false) : s.reload = s := by
  unfold SMap.reload
  rw [if_neg]
  intro hl
  exact (h.dense hd).2 (by rw [← (h.dense hd).1]; exact List.length_eq_zero_iff.mp hl)

/-- Dense storage: exactly the planes asked for are added, with the spectrum values as last
computed. -/
theorem C33_dense_add (h : s.Holds M) (hd : s.isSparse = false) (hp : Planes s.nE kmin kmax a b)
    (hv : v.length = (b - a) * s.npix) (inc : Bool) (hs : inc = true → s.specVals.length = s.nE) :
    ∃ out, s.addToVector v inc kmin kmax = .ok (s, out) ∧ Added 1 s.npix a M (factors inc s.specVals) v out := by
  obtain ⟨h1, h2, h3, h4, h5⟩ := size_ok hp hv
  have hab : a + (b - a) = b := Nat.add_sub_cancel' hp.2.2.1
  obtain ⟨out, g1, g2⟩ := denseLoop_ok false (s := s) inc (a := a) (n := b - a) (v := v)
    (by rw [hab, (h.dense hd).1, h.size]; exact Nat.mul_le_mul_right _ hp.2.2.2)
    (fun e => by rw [hab, hs e]; exact hp.2.2.2) hv
  refine ⟨out, ?_, by rw [(h.dense hd).1] at g2; simpa [sgn] using g2⟩
  unfold SMap.addToVector SMap.addFull
  simp only [hd, Bool.false_eq_true, if_false, reload_eq h hd, h1, h2, h3, h4, h5]
  rw [if_neg (fun hc => hc.2 (hs hc.1)), g1, Res.bind_ok]

/-- Dense storage: subtracting, with the spectrum of now. -/
theorem C33_dense_subtract (h : s.Holds M) (hd : s.isSparse = false) (hp : Planes s.nE kmin kmax a b)
    (hv : v.length = (b - a) * s.npix) (inc : Bool) :
    ∃ out s', s.subtractFromVector v inc kmin kmax = .ok (s', out) ∧
      Added (-1) s.npix a M (factors inc s.current) v out := by
  obtain ⟨h1, h2, h3, h4, h5⟩ := size_ok hp hv
  have hab : a + (b - a) = b := Nat.add_sub_cancel' hp.2.2.1
  obtain ⟨out, g1, g2⟩ := denseLoop_ok true (s := if inc then s.setSpec else s) inc (a := a) (n := b - a) (v := v)
    (by
      have e1 : (if inc then s.setSpec else s).model = M := by cases inc <;> exact (h.dense hd).1
      have e2 : (if inc then s.setSpec else s).npix = s.npix := by cases inc <;> rfl
      rw [hab, e1, e2, h.size]; exact Nat.mul_le_mul_right _ hp.2.2.2)
    (fun e => by subst e; rw [hab]; exact h.spec ▸ hp.2.2.2)
    (by have e2 : (if inc then s.setSpec else s).npix = s.npix := by cases inc <;> rfl
        rw [e2]; exact hv)
  refine ⟨out, if inc then s.setSpec else s, ?_, ?_⟩
  · unfold SMap.subtractFromVector SMap.subFull
    have h2' : (if inc then s.setSpec else s).kmax kmax = b := by cases inc <;> exact h2
    simp only [hd, Bool.false_eq_true, if_false, reload_eq h hd, h1, h2', h3, h4, h5]
    rw [g1, Res.bind_ok]
  · cases inc
    · have e : factors false s.specVals = factors false s.current := rfl
      simpa [sgn, (h.dense hd).1, e] using g2
    · simpa [sgn, SMap.setSpec, (h.dense hd).1, factors] using g2

theorem sparse_range_ok (sub : Bool) (h : s.Holds M) (hd : s.isSparse = true) (hp : Planes s.nE kmin kmax a b)
    (hv : v.length = (b - a) * s.npix) (hb : b < s.nE → val M (b * s.npix) = 0)
    {f : Nat → Res K} {F : Nat → K} (hf : ∀ k, k < b → f k = .ok (F k)) :
    ∃ out, sparseLoop sub f s.npix (a * s.npix) (s.sparse.rangeLU (a * s.npix) (b * s.npix)) v = .ok out ∧
      Added (sgn sub) s.npix a M F v out := by
  rw [range_eq h hd hp.2.2.1]
  obtain ⟨out, g1, g2⟩ := sparse_planes sub (M := M) h.size hp.2.2.1 hp.2.2.2 hf hv
  refine ⟨out, ?_, g2⟩
  rcases slice (M := M) h.size hp.2.2.1 hp.2.2.2 with ⟨-, e⟩ | ⟨hlt, e⟩
  · rw [e, g1]
  · rw [e, fillLoop_append, hb hlt.1]
    simpa [fillLoop] using g1

/-- Sparse storage, with the spectrum: the same planes are added, provided the first pixel of
the plane after the last one is zero or there is no such plane. -/
theorem C33_sparse_add_partial (h : s.Holds M) (hd : s.isSparse = true) (hp : Planes s.nE kmin kmax a b)
    (hv : v.length = (b - a) * s.npix) (hb : b < s.nE → val M (b * s.npix) = 0) :
    ∃ out, s.addToVector v true kmin kmax = .ok (s.setSpec, out) ∧ Added 1 s.npix a M (val s.current) v out := by
  obtain ⟨h1, h2, h3, h4, h5⟩ := size_ok hp hv
  obtain ⟨out, g1, g2⟩ := sparse_range_ok false h hd hp hv hb (f := addFactor s.current true) (F := val s.current) (by
    intro k hk
    have hl : k < s.current.length := by rw [h.spec]; exact lt_of_lt_of_le hk hp.2.2.2
    unfold addFactor
    rw [if_pos rfl, if_neg (not_le.mpr hl), vget_val hl])
  refine ⟨out, ?_, by simpa [sgn] using g2⟩
  have h2' : s.setSpec.kmax kmax = b := h2
  unfold SMap.addToVector SMap.addSparse
  simp only [hd, if_true, h1, Bool.false_eq_true, if_false, h2', h3, h4, Int.toNat_natCast]
  have e : sparseLoop false (addFactor s.setSpec.specVals true) s.setSpec.npix (a * s.setSpec.npix)
      (s.setSpec.sparse.rangeLU (a * s.setSpec.npix) (b * s.setSpec.npix)) v = .ok out := g1
  rw [e, Res.bind_ok]

/-- Sparse storage: subtracting, with the spectrum as last computed or without. -/
theorem C33_sparse_subtract_partial (h : s.Holds M) (hd : s.isSparse = true) (hp : Planes s.nE kmin kmax a b)
    (hv : v.length = (b - a) * s.npix) (hb : b < s.nE → val M (b * s.npix) = 0) (inc : Bool)
    (hs : inc = true → s.specVals.length = s.nE) :
    ∃ out, s.subtractFromVector v inc kmin kmax = .ok (s, out) ∧
      Added (-1) s.npix a M (factors inc s.specVals) v out := by
  obtain ⟨h1, h2, h3, h4, h5⟩ := size_ok hp hv
  obtain ⟨out, g1, g2⟩ := sparse_range_ok true h hd hp hv hb (f := factor s.specVals inc) (F := factors inc s.specVals)
    (fun k hk => factor_ok (fun e => by rw [hs e]; exact lt_of_lt_of_le hk hp.2.2.2))
  refine ⟨out, ?_, by simpa [sgn] using g2⟩
  unfold SMap.subtractFromVector SMap.subSparse
  simp only [hd, if_true, h1, Bool.false_eq_true, if_false, h2, h3, h4, Int.toNat_natCast]
  rw [if_neg (fun hc => hc.2 (hs hc.1)), g1, Res.bind_ok]

theorem Added.unique {sign : K} {npix a n : Nat} {M v o1 o2 : List K} {f g : Nat → K} (h1 : Added sign npix a M f v o1)
    (h2 : Added sign npix a M g v o2) (hv : v.length = n * npix) (hfg : ∀ k, k < n → f (a + k) = g (a + k)) : o1 = o2 := by
  refine ext_val (by rw [h1.1, h2.1]) fun i hi => ?_
  rw [h1.1, hv] at hi
  have hn : 0 < npix := by
    rcases Nat.eq_zero_or_pos npix with h | h
    · rw [h] at hi; omega
    · exact h
  have e : i / npix * npix + i % npix = i := by rw [Nat.mul_comm]; exact Nat.div_add_mod i npix
  have h3 := h1.2 (i / npix) (i % npix) (by rw [e, hv]; exact hi) (Nat.mod_lt _ hn)
  have h4 := h2.2 (i / npix) (i % npix) (by rw [e, hv]; exact hi) (Nat.mod_lt _ hn)
  rw [e] at h3 h4
  rw [h3, h4, hfg _ (Nat.div_lt_of_lt_mul (by rw [Nat.mul_comm]; exact hi))]

/-- A dense and a sparse map that hold the same data and have up-to-date spectrum values give
the same sum (with the spectrum) and the same difference (with or without). -/
theorem C33_storage_partial (h : s.Holds M) (h' : s'.Holds M) (hd : s.isSparse = false) (hd' : s'.isSparse = true)
    (hn : s'.npix = s.npix) (he : s'.nE = s.nE) (hc : s.specVals = s.current) (hc' : s'.specVals = s'.current)
    (hcc : s'.current = s.current) (hp : Planes s.nE kmin kmax a b) (hv : v.length = (b - a) * s.npix)
    (hb : b < s.nE → val M (b * s.npix) = 0) :
    (∃ t t' out, s.addToVector v true kmin kmax = .ok (t, out) ∧ s'.addToVector v true kmin kmax = .ok (t', out)) ∧
    ∀ inc, ∃ t t' out, s.subtractFromVector v inc kmin kmax = .ok (t, out) ∧
      s'.subtractFromVector v inc kmin kmax = .ok (t', out) := by
  have hp' : Planes s'.nE kmin kmax a b := he ▸ hp
  have hv' : v.length = (b - a) * s'.npix := hn ▸ hv
  have hb' : b < s'.nE → val M (b * s'.npix) = 0 := by rw [he, hn]; exact hb
  constructor
  · obtain ⟨o1, g1, g2⟩ := C33_dense_add h hd hp hv true (fun _ => by rw [hc, h.spec])
    obtain ⟨o2, g3, g4⟩ := C33_sparse_add_partial h' hd' hp' hv' hb'
    rw [hn] at g4
    have : o1 = o2 := g2.unique g4 hv (fun k _ => by simp [factors, hc, hcc])
    exact ⟨_, _, o1, g1, this ▸ g3⟩
  · intro inc
    obtain ⟨o1, t, g1, g2⟩ := C33_dense_subtract h hd hp hv inc
    obtain ⟨o2, g3, g4⟩ := C33_sparse_subtract_partial h' hd' hp' hv' hb' inc (fun _ => by rw [hc', h'.spec])
    rw [hn] at g4
    have : o1 = o2 := g2.unique g4 hv (fun k _ => by simp [factors, hc', hcc])
    exact ⟨_, _, o1, g1, this ▸ g3⟩

/-- Sparse storage, range ending before the last plane: if the first pixel of the next plane
is not zero, adding writes past the end of the vector. -/
theorem C33_boundary_violates (h : s.Holds M) (hd : s.isSparse = true) (hp : Planes s.nE kmin kmax a b)
    (hv : v.length = (b - a) * s.npix) (hn : 0 < s.npix) (hb : b < s.nE) (hx : val M (b * s.npix) ≠ 0) :
    s.addToVector v true kmin kmax = .ub := by
  obtain ⟨h1, h2, h3, h4, h5⟩ := size_ok hp hv
  have hf : ∀ k, k ≤ b → addFactor s.current true k = .ok (val s.current k) := by
    intro k hk
    have hl : k < s.current.length := by rw [h.spec]; exact lt_of_le_of_lt hk hb
    unfold addFactor
    rw [if_pos rfl, if_neg (not_le.mpr hl), vget_val hl]
  have key : sparseLoop false (addFactor s.current true) s.npix (a * s.npix)
      (s.sparse.rangeLU (a * s.npix) (b * s.npix)) v = .ub := by
    rw [range_eq h hd hp.2.2.1]
    obtain ⟨out, g1, g2⟩ := sparse_planes false (M := M) h.size hp.2.2.1 hp.2.2.2 (fun k hk => hf k (le_of_lt hk)) hv
    have hl := slice_length (M := M) (npix := s.npix) h.size hp.2.2.1 hp.2.2.2
    have e2 : a * s.npix + (b - a) * s.npix = b * s.npix := by
      rw [← Nat.add_mul, Nat.add_sub_cancel' hp.2.2.1]
    rcases slice (M := M) h.size hp.2.2.1 hp.2.2.2 with ⟨hc, -⟩ | ⟨-, e⟩
    · omega
    · rw [e, fillLoop_append, sparseLoop_append, g1, Res.bind_ok, hl, e2]
      simp only [fillLoop]
      rw [if_pos (by simpa using hx)]
      simp only [sparseLoop]
      rw [Nat.mul_div_cancel _ hn, hf b (le_refl _), Res.bind_ok, if_neg (not_lt.mpr (Nat.mul_le_mul_right _ hp.2.2.1)), put_ge]
      · rfl
      · rw [g2.1, hv]; omega
  have h2' : s.setSpec.kmax kmax = b := h2
  unfold SMap.addToVector SMap.addSparse
  simp only [hd, if_true, h1, Bool.false_eq_true, if_false, h2', h3, h4, Int.toNat_natCast]
  have e : sparseLoop false (addFactor s.setSpec.specVals true) s.setSpec.npix (a * s.setSpec.npix)
      (s.setSpec.sparse.rangeLU (a * s.setSpec.npix) (b * s.setSpec.npix)) v = .ub := key
  rw [e, Res.bind_ub]

theorem fillLoop_ne_nil (w : List K) {i : Nat} (hx : val w i ≠ 0) (k : Nat) : fillLoop 0 k w ≠ [] := by
  induction w generalizing i k with
  | nil => simp at hx
  | cons y w ih =>
    cases i with
    | zero =>
      rw [val_cons_zero] at hx
      rw [fillLoop, if_pos hx]; simp
    | succ i =>
      rw [val_cons_succ] at hx
      rw [fillLoop]
      split
      · simp
      · exact ih hx _

/-- Sparse storage, without the spectrum: adding throws as soon as there is anything to add. -/
theorem C33_nospec_violates (h : s.Holds M) (hd : s.isSparse = true) (hp : Planes s.nE kmin kmax a b)
    (hv : v.length = (b - a) * s.npix) {k p : Nat} (hk : a ≤ k ∧ k < b) (hpx : p < s.npix)
    (hx : val M (k * s.npix + p) ≠ 0) : s.addToVector v false kmin kmax = .throws := by
  obtain ⟨h1, h2, h3, h4, h5⟩ := size_ok hp hv
  have hi : k * s.npix + p < b * s.npix := idx_lt hpx hk.2
  have hi' : a * s.npix ≤ k * s.npix := Nat.mul_le_mul_right _ hk.1
  have hne : s.sparse.rangeLU (a * s.npix) (b * s.npix) ≠ [] := by
    rw [range_eq h hd hp.2.2.1]
    refine fillLoop_ne_nil _ (i := k * s.npix + p - a * s.npix) ?_ _
    rw [val_drop_take' _ (by omega), show a * s.npix + (k * s.npix + p - a * s.npix) = k * s.npix + p by omega]
    exact hx
  unfold SMap.addToVector SMap.addSparse
  simp only [hd, if_true, h1, Bool.false_eq_true, if_false, h2, h3, h4, Int.toNat_natCast]
  cases hr : s.sparse.rangeLU (a * s.npix) (b * s.npix) with
  | nil => exact absurd hr hne
  | cons e es => simp [sparseLoop, addFactor]

/-- Adding a dense map with the spectrum and subtracting it again leaves the difference between
the spectrum as last computed and the spectrum of now. -/
theorem C33_restore (h : s.Holds M) (hd : s.isSparse = false) (hp : Planes s.nE kmin kmax a b)
    (hv : v.length = (b - a) * s.npix) (hs : s.specVals.length = s.nE) :
    ∃ t t' w out, s.addToVector v true kmin kmax = .ok (t, w) ∧ t.subtractFromVector w true kmin kmax = .ok (t', out) ∧
      Added 1 s.npix a M (fun k => val s.specVals k - val s.current k) v out := by
  obtain ⟨w, g1, g2⟩ := C33_dense_add h hd hp hv true (fun _ => hs)
  obtain ⟨out, t', g3, g4⟩ := C33_dense_subtract h hd hp (v := w) (by rw [g2.1, hv]) true
  refine ⟨s, t', w, out, g1, g3, by rw [g4.1, g2.1], fun k p hk hpx => ?_⟩
  rw [g4.2 k p (by rw [g2.1]; exact hk) hpx, g2.2 k p hk hpx]
  simp only [factors, if_true]
  ring

/-- So with up-to-date spectrum values the vector is restored, … -/
theorem C33_restore_current_partial (h : s.Holds M) (hd : s.isSparse = false) (hp : Planes s.nE kmin kmax a b)
    (hv : v.length = (b - a) * s.npix) (hc : s.specVals = s.current) :
    ∃ t t' w, s.addToVector v true kmin kmax = .ok (t, w) ∧ t.subtractFromVector w true kmin kmax = .ok (t', v) := by
  obtain ⟨t, t', w, out, g1, g2, g3⟩ := C33_restore h hd hp hv (by rw [hc, h.spec])
  refine ⟨t, t', w, g1, ?_⟩
  have : out = v := by
    refine g3.unique (g := fun _ => 0) (n := b - a) ⟨rfl, fun k p _ _ => by simp⟩ hv (fun k _ => by rw [hc]; simp)
  rw [g2, this]

/-- … and after a change of the spectrum in a plane in the range with a non-zero pixel it is
not. -/
theorem C33_restore_violates (h : s.Holds M) (hd : s.isSparse = false) (hp : Planes s.nE kmin kmax a b)
    (hv : v.length = (b - a) * s.npix) (hs : s.specVals.length = s.nE) {k p : Nat} (hk : a ≤ k ∧ k < b)
    (hpx : p < s.npix) (hx : val M (k * s.npix + p) ≠ 0) (hsp : val s.specVals k ≠ val s.current k) :
    ∃ t t' w out, s.addToVector v true kmin kmax = .ok (t, w) ∧ t.subtractFromVector w true kmin kmax = .ok (t', out) ∧
      out ≠ v := by
  obtain ⟨t, t', w, out, g1, g2, g3⟩ := C33_restore h hd hp hv hs
  refine ⟨t, t', w, out, g1, g2, fun e => ?_⟩
  have := g3.2 (k - a) p (by rw [hv]; exact idx_lt hpx (by omega)) hpx
  rw [e, show a + (k - a) = k by omega] at this
  have h0 : val M (k * s.npix + p) * (val s.specVals k - val s.current k) = 0 := by
    have h9 := left_eq_add.mp this
    rwa [one_mul] at h9
  rcases mul_eq_zero.mp h0 with h0 | h0
  · exact hx h0
  · exact hsp (sub_eq_zero.mp h0)

/-! ### Concrete maps -/

/-- Two pixels, three energies. -/
def exDense : SMap ℚ :=
  { npix := 2, nE := 3, isSparse := false, model := [1, 2, 0, 3, 4, 0], sparse := ⟨0, 0, []⟩,
    specVals := [10, 20, 30], current := [10, 20, 30], stored := [] }

/-- The same in sparse storage. -/
def exSparse : SMap ℚ :=
  { exDense with isSparse := true, model := [], sparse := ⟨6, 0, [(0, 1), (1, 2), (3, 3), (4, 4)]⟩ }

theorem exDense_holds : exDense.Holds [1, 2, 0, 3, 4, 0] :=
  ⟨rfl, fun _ => ⟨rfl, by simp⟩, fun h => by simp [exDense] at h, rfl⟩

theorem exSparse_holds : exSparse.Holds [1, 2, 0, 3, 4, 0] := by
  refine ⟨rfl, fun h => by simp [exSparse] at h, fun _ => ⟨?_, rfl⟩, rfl⟩
  refine Rep.represents ⟨rfl, ?_⟩
  simp [exSparse, exDense, fillLoop]

example : ∃ t t' out, exDense.addToVector [5, 5, 5, 5, 5, 5] true 0 (-1) = .ok (t, out) ∧
    exSparse.addToVector [5, 5, 5, 5, 5, 5] true 0 (-1) = .ok (t', out) :=
  (C33_storage_partial exDense_holds exSparse_holds rfl rfl rfl rfl rfl rfl rfl
    (a := 0) (b := 3) ⟨rfl, .inr ⟨by decide, rfl⟩, by decide, le_refl _⟩ rfl (fun h => absurd h (by decide))).1

example : exSparse.addToVector [5, 5] true 1 2 = .ub :=
  C33_boundary_violates exSparse_holds rfl (a := 1) (b := 2) ⟨rfl, .inl rfl, by decide, by decide⟩ rfl (by decide) (by decide)
    (by simp [val, exSparse, exDense])

example : exSparse.addToVector [5, 5, 5, 5, 5, 5] false 0 (-1) = .throws :=
  C33_nospec_violates exSparse_holds rfl (a := 0) (b := 3) (k := 1) (p := 1)
    ⟨rfl, .inr ⟨by decide, rfl⟩, by decide, le_refl _⟩ rfl ⟨by decide, by decide⟩ (by decide)
    (by simp [val, exSparse, exDense])

example : ∃ t t' w, exDense.addToVector [5, 5] true 1 2 = .ok (t, w) ∧ t.subtractFromVector w true 1 2 = .ok (t', [5, 5]) :=
  C33_restore_current_partial exDense_holds rfl (a := 1) (b := 2) ⟨rfl, .inl rfl, by decide, by decide⟩ rfl rfl

example : ∃ t t' w out, ({ exDense with current := [10, 25, 30] } : SMap ℚ).addToVector [5, 5] true 1 2 = .ok (t, w) ∧
    t.subtractFromVector w true 1 2 = .ok (t', out) ∧ out ≠ [5, 5] :=
  C33_restore_violates (s := { exDense with current := [10, 25, 30] }) (M := [1, 2, 0, 3, 4, 0])
    ⟨rfl, fun _ => ⟨rfl, by simp⟩, fun h => by simp [exDense] at h, rfl⟩ rfl (a := 1) (b := 2)
    ⟨rfl, .inl rfl, by decide, by decide⟩ rfl rfl (k := 1) (p := 1) ⟨by decide, by decide⟩ (by decide)
    (by simp [val, exDense]) (by simp [val, exDense])

end Verif.AddMap
