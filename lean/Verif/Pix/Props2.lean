import Verif.Pix.Props
set_option linter.unusedSectionVars false
set_option linter.unusedSimpArgs false
set_option linter.unusedVariables false
/-
C92: the counts of a model in a pixel.
-/
namespace Verif.Pix
open Verif Verif.Vec Real Spec

/-- The rate of a source in a pixel at an energy, summed over the intervals of the observation. -/
noncomputable def rate (l : List Interval) (g : ℝ → ℝ × ℝ) (f : ℝ → ℕ → ℝ → ℝ → ℝ) (t : ℕ) (e : ℝ) : ℝ :=
  exposure l (g e).1 (g e).2 fun c phi => f e t (arccos c * 180 / π) phi

private theorem expo_rate (l : List Interval) (g : ℝ → ℝ × ℝ) (s : Src) (hs : s.separation < 90) (f : ℝ → ℕ → ℝ → ℝ → ℝ) (t : ℕ) (e : ℝ) :
    (⟨cellsOf l, some (weightedOf l), some g⟩ : Cube).expo (s.seen (f e t)) e = rate l g f t e := by
  have h : s.seen (f e t) = fun c phi => f e t (arccos c * 180 / π) phi := by
    funext c phi; unfold Src.seen; rw [if_pos hs]
  rw [h]
  unfold rate Cube.expo
  have key : ∀ (p q : ℝ) (A : ℝ → ℝ → ℝ), p * total A (cellsOf l) + q * total A (weightedOf l) = exposure l p q A := by
    intro p q A
    clear h
    induction l with
    | nil => simp [total, cellsOf, weightedOf, exposure]
    | cons x xs ih =>
      simp only [total, cellsOf, weightedOf, exposure, List.map_cons, List.sum_cons, List.map_map] at ih ⊢
      rw [← ih]
      ring
  exact key _ _ _

/-- C92.  The counts of point sources closer than 90 degrees in a pixel: the solid angle times the
integral over the energy (one trapezoid in the logarithm) of the rates, summed over the sources and
the responses. -/
theorem C92_counts (l : List Interval) (g : ℝ → ℝ × ℝ) (types : List ℕ) (solidAngle emin emax : ℝ) (srcs : List Src)
    (hpt : ∀ s ∈ srcs, s.point = true ∧ s.sep < 90)
    (hpos : ∀ s ∈ srcs, ∀ t ∈ types, 0 ≤ rate l g s.flux t emin ∧ 0 ≤ rate l g s.flux t emax) :
    modelCounts ⟨cellsOf l, some (weightedOf l), some g⟩ types solidAngle emin emax srcs =
      .ok ((srcs.map fun s => (types.map fun t => solidAngle *
        logTrapezoid emin emax (rate l g s.flux t emin) (rate l g s.flux t emax)).sum).sum) := by
  have hsep : ∀ s ∈ srcs, s.separation < 90 := fun s hs => by
    unfold Src.separation; rw [if_pos (hpt s hs).1]; exact (hpt s hs).2
  unfold modelCounts
  rw [countsLoop_ok srcs (fun s hs t ht => by
    rw [expo_rate l g s (hsep s hs), expo_rate l g s (hsep s hs)]; exact hpos s hs t ht), zero_add]
  congr 2
  apply List.map_congr_left
  intro s hs
  unfold srcCounts
  congr 1
  apply List.map_congr_left
  intro t ht
  rw [expo_rate l g s (hsep s hs), expo_rate l g s (hsep s hs)]

/-- The hypotheses can be met: one source, one response. -/
example : ∃ (l : List Interval) (g : ℝ → ℝ × ℝ) (s : Src), s.point = true ∧ s.sep < 90 ∧ rate l g s.flux 0 100 = 10 :=
  ⟨[⟨10, 1, 1, 0⟩], fun _ => (1, 0), ⟨true, 3, 0, fun _ _ _ _ => 1, []⟩, rfl, by norm_num, by norm_num [rate, exposure]⟩

/-- C92.  The counts of two sets of sources add up. -/
theorem C92_additive (q : Cube) (types : List ℕ) (solidAngle emin emax : ℝ) (a b : List Src)
    (h : ∀ s ∈ a ++ b, ∀ t ∈ types, 0 ≤ q.expo (s.seen (s.flux emin t)) emin ∧ 0 ≤ q.expo (s.seen (s.flux emax t)) emax) :
    ∃ x y, modelCounts q types solidAngle emin emax a = .ok x ∧ modelCounts q types solidAngle emin emax b = .ok y ∧
      modelCounts q types solidAngle emin emax (a ++ b) = .ok (x + y) := by
  unfold modelCounts
  refine ⟨_, _, countsLoop_ok a (fun s hs => h s (by simp [hs])) 0, countsLoop_ok b (fun s hs => h s (by simp [hs])) 0, ?_⟩
  rw [countsLoop_ok _ h, List.map_append, List.sum_append]
  congr 1
  ring

/-- The hypotheses can be met. -/
example : ∃ (q : Cube) (s : Src), 0 ≤ q.expo (s.seen (s.flux 100 0)) 100 :=
  ⟨⟨[], none, none⟩, ⟨true, 3, 0, fun _ _ _ _ => 1, []⟩, by simp [Cube.expo, Cube.fac, Cube.pick, total]⟩

/-- C92 is violated for diffuse sources, and for point sources from 90 degrees on: they contribute
nothing, whatever their flux. -/
theorem C92_diffuse_violates (q : Cube) (types : List ℕ) (solidAngle emin emax : ℝ) (s : Src) (srcs : List Src)
    (hs : s.point = false ∨ 90 ≤ s.sep) :
    modelCounts q types solidAngle emin emax (s :: srcs) = modelCounts q types solidAngle emin emax srcs := by
  have h90 : 90 ≤ s.separation := by
    unfold Src.separation
    rcases hs with h | h
    · rw [if_neg (by simp [h])]
    · split
      · exact h
      · exact le_rfl
  unfold modelCounts
  rw [countsLoop, countsOfSource_ok types (fun t _ => by rw [seen_far h90, seen_far h90, expo_zero, expo_zero]; exact ⟨le_rfl, le_rfl⟩),
    srcCounts_far h90, Res.bind_ok, add_zero]

/-- The hypotheses can be met. -/
example : ∃ s : Src, s.point = false ∧ s.flux 100 0 0 0 = 7 := ⟨⟨false, 0, 0, fun _ _ _ _ => 7, []⟩, rfl, rfl⟩

/-! ### The map of the model -/

/-- C92.  The map of the model holds for every energy bin and pixel the counts of that pixel in that
bin. -/
theorem C92_map (npix : ℕ) (energies : List ℝ) (counts : ℕ → ℝ → ℝ → Res ℝ) (c : ℕ → ℝ → ℝ → ℝ)
    (hc : ∀ j e1 e2, counts j e1 e2 = .ok (c j e1 e2)) (hn : 0 < energies.length) :
    ∃ out, computeModelMap npix energies counts = .ok out ∧ out.length = (energies.length - 1) * npix ∧
      ∀ k j (hk : k + 1 < energies.length), j < npix → out[k * npix + j]? = some (c j energies[k] energies[k + 1]) := by
  have inner : ∀ (e1 e2 : ℝ) (js : List ℕ) (o : List ℝ), pixelsLoop counts e1 e2 js o = .ok (o ++ js.map fun j => c j e1 e2) := by
    intro e1 e2 js
    induction js with
    | nil => intro o; simp [pixelsLoop]
    | cons j js ih => intro o; rw [pixelsLoop, hc, Res.bind_ok, ih]; simp
  unfold computeModelMap
  rw [if_neg (by omega)]
  obtain ⟨s, h1, h2, h3⟩ := loop_inv (lo := 0) (n := energies.length - 1) (s := ([] : List ℝ))
    (body := fun k out => do
      let e1 ← vget energies k
      let e2 ← vget energies (k + 1)
      pixelsLoop counts e1 e2 (List.range npix) out)
    (fun k s => s.length = k * npix ∧ ∀ k' j (hk : k' + 1 < energies.length), k' < k → j < npix →
      s[k' * npix + j]? = some (c j energies[k'] energies[k' + 1]))
    ⟨by simp, fun k' j _ h => absurd h (by omega)⟩
    (by
      rintro k s - hk ⟨e1, e2⟩
      rw [vget_lt _ _ (by omega), Res.bind_ok, vget_lt _ _ (by omega), Res.bind_ok, inner]
      refine ⟨_, rfl, by simp [e1, Nat.add_mul], fun k' j hk' h hj => ?_⟩
      by_cases hkk : k' = k
      · subst hkk
        rw [List.getElem?_append_right (by omega), e1, Nat.add_sub_cancel_left]
        simp [hj]
      · rw [List.getElem?_append_left (by rw [e1]; have := idx_lt hj (show k' < k by omega); omega)]
        exact e2 k' j hk' (by omega) hj)
  refine ⟨s, h1, by rw [h2, Nat.zero_add], fun k j hk hj => h3 k j hk (by omega) hj⟩

/-- The hypotheses can be met. -/
example : ∃ (counts : ℕ → ℝ → ℝ → Res ℝ) (c : ℕ → ℝ → ℝ → ℝ), ∀ j e1 e2, counts j e1 e2 = .ok (c j e1 e2) :=
  ⟨fun j e1 e2 => .ok (j * (e2 - e1)), fun j e1 e2 => j * (e2 - e1), fun _ _ _ => rfl⟩

/-! ### Derivatives -/

/-- C92.  The reported derivatives of a fresh vector, when none of the integrals is negative and only
spectral parameters are free: one number per free parameter in the order of the sources, each a
trapezoid in the energy. -/
theorem C92_reported (q : Cube) (types : List ℕ) (solidAngle emin emax : ℝ) (srcs : List Src) (ho : ∀ s ∈ srcs, s.other = 0)
    (h : ∀ s ∈ srcs, ∀ d ∈ s.free, ∀ t ∈ types, 0 ≤ q.expo (s.seen (d emin t)) emin ∧ 0 ≤ q.expo (s.seen (d emax t)) emax) :
    getFreeDerivs q types solidAngle emin emax srcs [] = .ok (srcs.flatMap fun s => s.free.map fun d =>
      (types.map fun t => (q.expo (s.seen (d emin t)) emin + q.expo (s.seen (d emax t)) emax) / 2 * solidAngle * (emax - emin)).sum) := by
  have hl : (allDerivs q types solidAngle emin emax srcs).length = numFree srcs := by
    clear h
    induction srcs with
    | nil => simp [allDerivs, numFree]
    | cons s ss ih =>
      have := ih (fun s hs => ho s (by simp [hs]))
      simp only [allDerivs, List.flatMap_cons, List.length_append, List.length_map, numFree] at this ⊢
      rw [ho s (by simp)]
      omega
  unfold getFreeDerivs
  obtain ⟨out, a, b, c⟩ := derivsLoop_ok srcs h 0 (vresize [] (numFree srcs) 0) (solidAngle := solidAngle) (by simp [hl])
  rw [a]
  congr 1
  apply ext_val
  · rw [b]; simpa [allDerivs] using hl.symm
  · intro k hk
    rw [c, if_pos (Nat.zero_le _), Nat.sub_zero]
    have : val (vresize ([] : List ℝ) (numFree srcs) 0) k = 0 := by
      unfold val vresize; simp [List.getElem?_replicate]; split <;> rfl
    rw [this, zero_add]
    rfl

/-- The hypotheses can be met. -/
example : ∃ (q : Cube) (s : Src), s.other = 0 ∧ s.free.length = 2 ∧ ∀ d ∈ s.free, 0 ≤ q.expo (s.seen (d 100 0)) 100 :=
  ⟨⟨[], none, none⟩, ⟨true, 3, 0, fun _ _ _ _ => 1, [fun _ _ _ _ => 1, fun _ _ _ _ => 2]⟩, rfl, rfl,
    by simp [Cube.expo, Cube.fac, Cube.pick, total]⟩

/-- A point source with a flux density `θ` (times `c`), the same at all energies, whose parameter `θ`
is free. -/
noncomputable def simple (θ c : ℝ) : Src := ⟨true, 0, 0, fun _ _ _ _ => θ * c, [fun _ _ _ _ => c]⟩

/-- One interval of a second. -/
noncomputable def simpleCube : Cube := ⟨[⟨1, 1, 0⟩], none, none⟩

private theorem simple_expo (e c : ℝ) (s : Src) (hs : s.separation < 90) : simpleCube.expo (s.seen (fun _ _ => c)) e = c := by
  simp [Cube.expo, Cube.fac, Cube.pick, total, simpleCube, Src.seen, hs]

private theorem simple_near (θ c : ℝ) : (simple θ c).separation < 90 := by simp [simple, Src.separation]

private theorem simple_counts (θ c solidAngle emin emax : ℝ) (hc : 0 ≤ θ * c) :
    modelCounts simpleCube [0] solidAngle emin emax [simple θ c] =
      .ok (θ * (c * ((emin + emax) / 2 * solidAngle * log (emax / emin)))) := by
  unfold modelCounts
  have e : ∀ x, simpleCube.expo ((simple θ c).seen ((simple θ c).flux x 0)) x = θ * c := fun x => simple_expo x (θ * c) _ (simple_near θ c)
  rw [countsLoop_ok _ (fun s hs t ht => by
    simp only [List.mem_singleton] at hs ht
    subst hs; subst ht
    rw [e, e]; exact ⟨hc, hc⟩)]
  simp only [srcCounts, List.map_cons, List.map_nil, List.sum_cons, List.sum_nil, e, logTrapezoid]
  congr 1
  ring

/-- C92 is violated for the derivatives: they use another rule of integration than the counts.  For a
flux density `θ c` that does not depend on the energy the counts are proportional to `θ` with the
factor `D`, which is their derivative; the reported one is smaller for every energy range. -/
theorem C92_derivative_violates (θ c solidAngle emin emax : ℝ) (hθ : 0 < θ) (hc : 0 < c) (hs : 0 < solidAngle) (he : 0 < emin) (hee : emin < emax) :
    ∃ D r : ℝ, (∀ x, 0 ≤ x → modelCounts simpleCube [0] solidAngle emin emax [simple x c] = .ok (x * D)) ∧
      getFreeDerivs simpleCube [0] solidAngle emin emax [simple θ c] [] = .ok [r] ∧ r < D := by
  have e : ∀ x, simpleCube.expo ((simple θ c).seen (fun _ _ => c)) x = c := fun x => simple_expo x c _ (simple_near θ c)
  refine ⟨c * ((emin + emax) / 2 * solidAngle * log (emax / emin)), c * solidAngle * (emax - emin), fun x hx => simple_counts x c _ _ _ (by positivity), ?_, ?_⟩
  · rw [C92_reported _ _ _ _ _ _ (fun s hs => by simp only [List.mem_singleton] at hs; subst hs; rfl) (fun s hs d hd t ht => by
      simp only [List.mem_singleton] at hs
      subst hs
      have hd' : d = fun _ _ _ _ => c := by simpa [simple] using hd
      subst hd'
      show 0 ≤ simpleCube.expo ((simple θ c).seen (fun _ _ => c)) emin ∧ 0 ≤ simpleCube.expo ((simple θ c).seen (fun _ _ => c)) emax
      rw [e, e]; exact ⟨hc.le, hc.le⟩)]
    show Res.ok [(simpleCube.expo ((simple θ c).seen (fun _ _ => c)) emin + simpleCube.expo ((simple θ c).seen (fun _ _ => c)) emax) / 2
      * solidAngle * (emax - emin) + 0] = _
    rw [e, e]
    congr 2
    ring
  · have hlog := Real.lt_log_one_add_of_pos (show 0 < emax / emin - 1 by rw [sub_pos, lt_div_iff₀ he]; linarith)
    rw [show 1 + (emax / emin - 1) = emax / emin by ring] at hlog
    have h2 : 2 * (emax / emin - 1) / (emax / emin - 1 + 2) = 2 * (emax - emin) / (emin + emax) := by
      field_simp
      ring_nf
    rw [h2, div_lt_iff₀ (by linarith)] at hlog
    have h3 : emax - emin < (emin + emax) / 2 * log (emax / emin) := by linarith
    have h4 := mul_lt_mul_of_pos_left h3 (mul_pos hc hs)
    linarith

/-- The hypotheses can be met. -/
example : (0 : ℝ) < 2 ∧ (0 : ℝ) < 1e-9 ∧ (0 : ℝ) < 0.01 ∧ (0 : ℝ) < 100 ∧ (100 : ℝ) < 300 := by norm_num

/-- C92 is violated for parameters that lower the flux: a negative derivative is taken for a negative
exposure and refused. -/
theorem C92_negative_violates (q : Cube) (types : List ℕ) (t : ℕ) (ts : List ℕ) (solidAngle emin emax : ℝ) (s : Src) (srcs : List Src)
    (d : ℝ → ℕ → ℝ → ℝ → ℝ) (ds : List (ℝ → ℕ → ℝ → ℝ → ℝ)) (out : List ℝ) (hf : s.free = d :: ds) (ht : types = t :: ts)
    (h : q.expo (s.seen (d emin t)) emin < 0) : getFreeDerivs q types solidAngle emin emax (s :: srcs) out = .throws := by
  unfold getFreeDerivs
  rw [derivsLoop, hf, derivsOfSource, ht, derivOfParam, value_eq, if_pos h]
  rfl

/-- The hypotheses can be met: the derivative with respect to the index of a power law. -/
example : ∃ (q : Cube) (s : Src) (d : ℝ → ℕ → ℝ → ℝ → ℝ), s.free = [d] ∧ q.expo (s.seen (d 100 0)) 100 < 0 := by
  refine ⟨simpleCube, ⟨true, 0, 0, fun _ _ _ _ => 1, [fun _ _ _ _ => -1]⟩, fun _ _ _ _ => -1, rfl, ?_⟩
  rw [simple_expo _ _ _ (by simp [Src.separation])]
  norm_num

/-- C92 is violated when the vector is used again: the derivatives are added to what it holds. -/
theorem C92_again_violates (q : Cube) (types : List ℕ) (solidAngle emin emax : ℝ) (srcs : List Src)
    (h : ∀ s ∈ srcs, ∀ d ∈ s.free, ∀ t ∈ types, 0 ≤ q.expo (s.seen (d emin t)) emin ∧ 0 ≤ q.expo (s.seen (d emax t)) emax) :
    ∃ out out2, getFreeDerivs q types solidAngle emin emax srcs [] = .ok out ∧
      getFreeDerivs q types solidAngle emin emax srcs out = .ok out2 ∧ out2 = out.map (2 * ·) := by
  unfold getFreeDerivs
  have hle := allDerivs_le q types solidAngle emin emax srcs
  obtain ⟨o1, a1, b1, c1⟩ := derivsLoop_ok srcs h 0 (vresize [] (numFree srcs) 0) (solidAngle := solidAngle) (by simpa using hle)
  have hl1 : o1.length = numFree srcs := by rw [b1]; simp
  have hr : vresize o1 (numFree srcs) 0 = o1 := by unfold vresize; simp [hl1]
  obtain ⟨o2, a2, b2, c2⟩ := derivsLoop_ok srcs h 0 (vresize o1 (numFree srcs) 0) (solidAngle := solidAngle) (by simpa using hle)
  refine ⟨o1, o2, a1, a2, ?_⟩
  apply ext_val
  · rw [b2]; simp [hl1]
  · intro k hk
    have hk1 : k < o1.length := by rw [b2, hr] at hk; exact hk
    have h0 : val (vresize ([] : List ℝ) (numFree srcs) 0) k = 0 := by
      unfold val vresize; simp [List.getElem?_replicate]; split <;> rfl
    have e1 := c1 k
    rw [if_pos (Nat.zero_le _), h0, zero_add] at e1
    rw [c2, if_pos (Nat.zero_le _), hr, e1]
    have : val (o1.map (2 * ·)) k = 2 * val o1 k := by
      rw [val_lt (by simpa using hk1), val_lt hk1]; simp
    rw [this, e1]
    ring

/-- C92 is violated when a parameter of another function than the spectrum is free (the position or
the spatial model): its place is before those of the spectrum, but the derivatives are written from the
first place on. -/
theorem C92_position_violates (q : Cube) (t : ℕ) (solidAngle emin emax : ℝ) (s : Src) (d : ℝ → ℕ → ℝ → ℝ → ℝ)
    (hf : s.free = [d]) (ho : s.other = 1) (h : 0 ≤ q.expo (s.seen (d emin t)) emin ∧ 0 ≤ q.expo (s.seen (d emax t)) emax) :
    getFreeDerivs q [t] solidAngle emin emax [s] [] =
      .ok [(q.expo (s.seen (d emin t)) emin + q.expo (s.seen (d emax t)) emax) / 2 * solidAngle * (emax - emin), 0] := by
  unfold getFreeDerivs
  have hn : numFree [s] = 2 := by simp [numFree, hf, ho]
  have hr : vresize ([] : List ℝ) 2 0 = [0, 0] := rfl
  rw [hn, hr, derivsLoop, hf, derivsOfSource, derivOfParam, value_ok h.1, Res.bind_ok, value_ok h.2, Res.bind_ok]
  simp [derivOfParam, derivsOfSource, derivsLoop]

/-- The hypotheses can be met. -/
example : ∃ (q : Cube) (s : Src) (d : ℝ → ℕ → ℝ → ℝ → ℝ), s.free = [d] ∧ s.other = 1 ∧ 0 ≤ q.expo (s.seen (d 100 0)) 100 := by
  refine ⟨simpleCube, ⟨true, 0, 1, fun _ _ _ _ => 1, [fun _ _ _ _ => 1]⟩, fun _ _ _ _ => 1, rfl, rfl, ?_⟩
  rw [simple_expo _ _ _ (by simp [Src.separation])]
  norm_num

end Verif.Pix
