import Mathlib.Tactic.NormNum
import Verif.TsMap.Lemmas
/-
C109: the map of test statistics.
-/
set_option linter.unusedSectionVars false
set_option linter.unusedSimpArgs false
set_option linter.unusedVariables false

namespace Verif.TsMap

open Verif

variable {κ : Type} [LinearOrder κ] {A D : Type}

section
variable {same : A → A → Prop} (hr : ∀ a, same a a) (hs : ∀ a b, same a b → same b a)
  (ht : ∀ a b c, same a b → same b c → same a c)
include hr hs ht

/-- What deleting the test source leaves. -/
theorem delete_ok {m m₀ m' : Sources κ A} {n : κ} {a : A} (ho : StdMap.Sorted m₀)
    (hn : StdMap.find m₀ n = none) (h : Spec.Alike same m₀ m)
    (h' : Spec.Alike same (StdMap.put m n a) m') :
    ∃ m'', deleteSource m' n = .ok m'' ∧ Spec.Alike same m₀ m'' := by
  have h1 : Spec.Alike same (StdMap.put m₀ n a) m' := alike_trans ht (alike_put h n (hr a)) h'
  refine ⟨StdMap.erase m' n, ?_, ?_⟩
  · unfold deleteSource
    rw [if_pos]
    rw [alike_find h1, StdMap.find_put ho, if_pos rfl]; rfl
  · have := alike_erase h1 n
    rw [StdMap.erase_put ho a hn] at this
    exact this

theorem add_ok {m m₀ : Sources κ A} {n : κ} {a : A} (hn : StdMap.find m₀ n = none)
    (h : Spec.Alike same m₀ m) : addSource m n a = .ok (StdMap.put m n a) := by
  unfold addSource
  rw [if_neg]
  rw [alike_find h, hn]; simp

theorem pixel_done (s : Setup κ A D) (l0 : ℝ) (m₀ m : Sources κ A) (d : D)
    (ho : StdMap.Sorted m₀) (hn : StdMap.find m₀ s.test = none) (h : Spec.Alike same m₀ m)
    (hc : Spec.Converges same s.value s.fit (StdMap.put m s.test (s.src d))) :
    ∃ m' b, pixel s l0 m d = .ok (m', 2 * (b - l0)) ∧ Spec.Alike same m₀ m' ∧
      Spec.Best same s.value (StdMap.put m₀ s.test (s.src d)) b := by
  obtain ⟨m₁, h1, h2, h3⟩ := hc
  obtain ⟨m₂, h4, h5⟩ := delete_ok hr hs ht ho hn h h2
  refine ⟨m₂, s.value m₁, ?_, h5, best_alike hs ht (alike_symm hs (alike_put h _ (hr _))) h3⟩
  unfold pixel fitPixel
  rw [add_ok hr hs ht hn h, Res.bind_ok, h1, Res.bind_ok, h4, Res.bind_ok]

theorem scan_done (s : Setup κ A D) (l0 : ℝ) (m₀ : Sources κ A)
    (ho : StdMap.Sorted m₀) (hn : StdMap.find m₀ s.test = none)
    (hc : ∀ d m, Spec.Alike same m₀ m →
      Spec.Converges same s.value s.fit (StdMap.put m s.test (s.src d)))
    (ds : List D) (m : Sources κ A) (h : Spec.Alike same m₀ m) :
    ∃ m' px, scan s l0 ds m = .ok (m', px) ∧ Spec.Alike same m₀ m' ∧
      ∀ (k : Nat) d, ds[k]? = some d → ∃ b, px[k]? = some (2 * (b - l0)) ∧
        Spec.Best same s.value (StdMap.put m₀ s.test (s.src d)) b := by
  induction ds generalizing m with
  | nil => exact ⟨m, [], rfl, h, fun k d hd => by simp at hd⟩
  | cons d ds ih =>
    obtain ⟨m₁, b, h1, h2, h3⟩ := pixel_done hr hs ht s l0 m₀ m d ho hn h (hc d m h)
    obtain ⟨m₂, px, h4, h5, h6⟩ := ih m₁ h2
    refine ⟨m₂, 2 * (b - l0) :: px, ?_, h5, ?_⟩
    · rw [scan, h1, Res.bind_ok, h4, Res.bind_ok]
    · intro k d' hd
      cases k with
      | zero =>
        simp at hd
        subst hd
        exact ⟨b, rfl, h3⟩
      | succ k => exact h6 k d' hd

/-- **C109.** With an optimizer that converges, each pixel of the image has twice the
difference between the highest log-likelihoods with a point source at the direction that the
keywords of the image give to that pixel, and without it; the source model is as before, up to
the parameters that were fitted.  What is missing: see the theorems with the suffix
`_violates`. -/
theorem C109_value_partial (s : Setup κ A D) (o : Opts) (m : Sources κ A)
    (ho : StdMap.Sorted m) (hn : StdMap.find m s.test = none)
    (hp : o.binned = true ∨ 0 < o.ny * o.nx)
    (h0 : Spec.Converges same s.value s.fit m)
    (hc : ∀ d m', Spec.Alike same m m' →
      Spec.Converges same s.value s.fit (StdMap.put m' s.test (s.src d))) :
    ∃ m' im, run s o m = .ok (m', im) ∧ Spec.Alike same m m' ∧
      im.naxis1 = o.nx ∧ im.naxis2 = o.ny ∧
      ∀ i j, i < o.nx → j < o.ny → ∀ b₀ b, Spec.Best same s.value m b₀ →
        Spec.Best same s.value (StdMap.put m s.test
          (s.src (s.sky (Spec.projOf im) ((i : ℝ) + 1) ((j : ℝ) + 1)))) b →
        im.pixels[j * im.naxis1 + i]? = some (2 * (b - b₀)) := by
  obtain ⟨m₁, h1, h2, h3⟩ := h0
  have hb : background s m = (m₁, s.value m₁) := by unfold background; rw [h1]
  obtain ⟨m₂, px, h4, h5, h6⟩ := scan_done hr hs ht s (s.value m₁) m ho hn hc (setGrid s o) m₁ h2
  refine ⟨m₂, image o px, ?_, h5, rfl, rfl, ?_⟩
  · unfold run
    have : computeMap s o.binned (setGrid s o) m = .ok (m₂, px) := by
      unfold computeMap
      split
      · rename_i e1 e2
        rcases hp with hp | hp
        · rw [hp] at e1; cases e1
        · have := grid_length s o
          rw [e2, List.length_nil] at this
          omega
      · rw [hb]; exact h4
    rw [this, Res.bind_ok]
  · intro i j hi hj b₀ b hb0 hb1
    rw [proj_image] at hb1
    obtain ⟨b', e1, e2⟩ := h6 (j * o.nx + i) _ (grid_get s o i j hi hj)
    show px[j * o.nx + i]? = _
    rw [e1, best_unique e2 hb1, best_unique h3 hb0]

theorem scan_careful (s : Setup κ A D) (l0 : ℝ) (m₀ : Sources κ A)
    (ho : StdMap.Sorted m₀) (hn : StdMap.find m₀ s.test = none)
    (hc : Spec.Careful same s.fit) (ds : List D) (m m' : Sources κ A) (px : List ℝ)
    (h : Spec.Alike same m₀ m) (he : scan s l0 ds m = .ok (m', px)) :
    Spec.Alike same m₀ m' ∧ px.length = ds.length := by
  induction ds generalizing m m' px with
  | nil =>
    rw [scan] at he
    cases Res.ok.inj he
    exact ⟨h, rfl⟩
  | cons d ds ih =>
    rw [scan] at he
    obtain ⟨r, h1, h2⟩ := Res.bind_eq_ok.1 he
    obtain ⟨q, h3, h4⟩ := Res.bind_eq_ok.1 h2
    have hr1 : Spec.Alike same m₀ r.1 := by
      unfold pixel at h1
      rw [add_ok hr hs ht hn h, Res.bind_ok] at h1
      obtain ⟨f, hf, h5⟩ := Res.bind_eq_ok.1 h1
      obtain ⟨m₂, h6, h7⟩ := Res.bind_eq_ok.1 h5
      have hf' : Spec.Alike same (StdMap.put m s.test (s.src d)) f.1 := by
        unfold fitPixel at hf
        cases hfit : s.fit (StdMap.put m s.test (s.src d)) with
        | done m'' =>
          rw [hfit] at hf
          cases Res.ok.inj hf
          exact hc _ _ (Or.inl hfit)
        | fails m'' =>
          rw [hfit] at hf
          cases Res.ok.inj hf
          exact hc _ _ (Or.inr (Or.inl hfit))
        | dies m'' => rw [hfit] at hf; cases hf
      obtain ⟨m₃, h8, h9⟩ := delete_ok hr hs ht ho hn h hf'
      rw [h8] at h6
      cases Res.ok.inj h6
      cases Res.ok.inj h7
      exact h9
    obtain ⟨i1, i2⟩ := ih r.1 q.1 q.2 hr1 h3
    cases Res.ok.inj h4
    exact ⟨i1, by rw [List.length_cons, List.length_cons, i2]⟩

theorem background_careful (s : Setup κ A D) (m : Sources κ A)
    (hc : Spec.Careful same s.fit) : Spec.Alike same m (background s m).1 := by
  unfold background
  cases hf : s.fit m with
  | done m' => exact hc _ _ (Or.inl hf)
  | fails m' => exact hc _ _ (Or.inr (Or.inl hf))
  | dies m' => exact hc _ _ (Or.inr (Or.inr hf))

/-- **C109.** Whatever the optimizer does, if the map is made it has one value for each pixel
and the source model is as before, up to the parameters that were fitted: the test source is
not left in it. -/
theorem C109_restores (s : Setup κ A D) (o : Opts) (m m' : Sources κ A) (im : Image)
    (ho : StdMap.Sorted m) (hn : StdMap.find m s.test = none) (hc : Spec.Careful same s.fit)
    (h : run s o m = .ok (m', im)) :
    Spec.Alike same m m' ∧ StdMap.find m' s.test = none ∧
      im.pixels.length = im.naxis2 * im.naxis1 := by
  unfold run at h
  obtain ⟨r, h1, h2⟩ := Res.bind_eq_ok.1 h
  have h3 : scan s (background s m).2 (setGrid s o) (background s m).1 = .ok (r.1, r.2) := by
    unfold computeMap at h1
    split at h1
    · cases h1
    · exact h1
  obtain ⟨i1, i2⟩ := scan_careful hr hs ht s _ m ho hn hc _ _ _ _
    (background_careful hr hs ht s m hc) h3
  cases Res.ok.inj h2
  refine ⟨i1, ?_, ?_⟩
  · have := alike_find i1 s.test
    rw [hn] at this
    cases hf : StdMap.find r.1 s.test with
    | none => rfl
    | some a => rw [hf] at this; cases this
  · show r.2.length = o.ny * o.nx
    rw [i2, grid_length]

/-- **C109.** A source model with a source of the name used for the test source is refused. -/
theorem C109_name (s : Setup κ A D) (o : Opts) (m : Sources κ A) (hc : Spec.Careful same s.fit)
    (hn : StdMap.find m s.test ≠ none) (hp : 0 < o.ny * o.nx) : run s o m = .throws := by
  have hl : (setGrid s o).length = o.ny * o.nx := grid_length s o
  have hb := background_careful hr hs ht s m hc
  unfold run computeMap
  cases hg : setGrid s o with
  | nil => rw [hg, List.length_nil] at hl; omega
  | cons d ds =>
    have : scan s (background s m).2 (d :: ds) (background s m).1 = .throws := by
      rw [scan]
      unfold pixel addSource
      rw [if_pos]
      · rfl
      · rw [alike_find hb]
        cases hf : StdMap.find m s.test with
        | none => exact absurd hf hn
        | some a => rfl
    split
    · rename_i e; cases e
    · rw [this]; rfl
end

/-- **C109.** The reference direction is in the middle of the map: pixels that mirror each
other are at opposite distances from the reference pixel, and neighbours are one step apart. -/
theorem C109_centre (o : Opts) (px : List ℝ) (i j : Nat) (hi : i < o.nx) (hj : j < o.ny) :
    ((i : ℝ) + 1 - (Spec.projOf (image o px)).crpix.1 =
      -(((o.nx - 1 - i : ℕ) : ℝ) + 1 - (Spec.projOf (image o px)).crpix.1)) ∧
    ((j : ℝ) + 1 - (Spec.projOf (image o px)).crpix.2 =
      -(((o.ny - 1 - j : ℕ) : ℝ) + 1 - (Spec.projOf (image o px)).crpix.2)) := by
  rw [proj_image]
  have e1 : ((o.nx - 1 - i : ℕ) : ℝ) = (o.nx : ℝ) - 1 - i := by
    have : o.nx - 1 - i + (1 + i) = o.nx := by omega
    have h := congrArg (Nat.cast (R := ℝ)) this
    push_cast at h
    linarith
  have e2 : ((o.ny - 1 - j : ℕ) : ℝ) = (o.ny : ℝ) - 1 - j := by
    have : o.ny - 1 - j + (1 + j) = o.ny := by omega
    have h := congrArg (Nat.cast (R := ℝ)) this
    push_cast at h
    linarith
  rw [e1, e2]
  unfold proj
  constructor <;> simp only <;> linarith

/-! ### what goes wrong -/

/-- Two pixels at the same direction. -/
def twin (b : Bool) : Opts := ⟨2, 1, 0, 0, 1, ['C', 'E', 'L'], ['A', 'I', 'T'], b⟩

/-- The parameter of the background, whose name is 0. -/
def level (m : Sources Nat Nat) : ℝ := ((StdMap.find m 0).getD 0 : Nat)

/-- One step up. -/
def up (x : Nat × Nat) : Nat × Nat := (x.1, if x.1 = 0 then x.2 + 1 else x.2)

/-- A run in which the sky has one direction, the log-likelihood is the parameter of the
background and the optimizer goes one step at a time. -/
def steps : Setup Nat Nat Unit := ⟨fun _ _ _ => (), 1, fun _ => 0, fun m => .done (m.map up), level⟩

theorem twin_grid (b : Bool) (s : Setup Nat Nat Unit) : setGrid s (twin b) = [(), ()] := by
  have : (setGrid s (twin b)).length = 2 := grid_length s (twin b)
  match h : setGrid s (twin b) with
  | [] => rw [h] at this; cases this
  | [_] => rw [h] at this; cases this
  | [_, _] => rfl
  | _ :: _ :: _ :: _ => rw [h] at this; simp at this

theorem twin_run (s : Setup Nat Nat Unit) (m m₁ m₂ m₃ : Sources Nat Nat) (l a b : ℝ)
    (hb : background s m = (m₁, l)) (h1 : pixel s l m₁ () = .ok (m₂, a))
    (h2 : pixel s l m₂ () = .ok (m₃, b)) :
    ∃ m' im, run s (twin true) m = .ok (m', im) ∧ im.pixels = [a, b] := by
  refine ⟨m₃, image (twin true) [a, b], ?_, rfl⟩
  have : computeMap s true (setGrid s (twin true)) m = .ok (m₃, [a, b]) := by
    rw [twin_grid]
    show scan s (background s m).2 [(), ()] (background s m).1 = _
    rw [hb, scan, h1, Res.bind_ok, scan, h2]
    rfl
  unfold run
  show (computeMap s true (setGrid s (twin true)) m >>= _) = _
  rw [this]
  rfl

theorem find_put_other (m : Sources Nat Nat) (a : Nat) :
    StdMap.find (StdMap.put m 1 a) 0 = StdMap.find m 0 := by
  induction m with
  | nil => rfl
  | cons x m ih =>
    obtain ⟨k, b⟩ := x
    rw [StdMap.put]
    split
    · rw [StdMap.find, if_neg (by decide)]
    · split
      · rename_i h
        rw [StdMap.find, if_neg (by decide), StdMap.find, if_neg (by omega)]
      · rw [StdMap.find, StdMap.find, ih]

theorem find_up (m : Sources Nat Nat) : level m ≤ level (m.map up) := by
  unfold level
  apply Nat.cast_le.2
  induction m with
  | nil => exact le_refl _
  | cons x m ih =>
    obtain ⟨k, b⟩ := x
    rw [List.map_cons]
    unfold up
    simp only
    rw [StdMap.find, StdMap.find]
    by_cases h : k = 0
    · rw [if_pos h, if_pos h, if_pos h]; simp
    · rw [if_neg h, if_neg h]; exact ih

/-- **C109 is violated** with an optimizer that stops early: the fit at a pixel starts from the
background left by the fits at the pixels before, and the null hypothesis is not fitted
again, so that the map depends on the order of the pixels.  Here the test source has no effect,
the optimizer changes parameters only and never goes down, and the two pixels are at the same
direction, but their values differ. -/
theorem C109_order_violates :
    (∀ m a, steps.value (StdMap.put m steps.test a) = steps.value m) ∧
    Spec.Careful (fun _ _ => True) steps.fit ∧
    (∀ m m', steps.fit m = .done m' → steps.value m ≤ steps.value m') ∧
    ∃ m' im, run steps (twin true) [(0, 5)] = .ok (m', im) ∧ im.pixels = [2, 4] := by
  refine ⟨?_, ?_, ?_, ?_⟩
  · intro m a
    show level (StdMap.put m 1 a) = level m
    unfold level
    rw [find_put_other]
  · intro m m' h
    have : m' = m.map up := by
      rcases h with h | h | h
      · cases h; rfl
      · cases h
      · cases h
    rw [this]
    clear h this
    induction m with
    | nil => exact .nil
    | cons x m ih => exact .cons ⟨rfl, trivial⟩ ih
  · intro m m' h
    cases h
    exact find_up m
  · have e2 : (2 : ℝ) = 2 * (((7 : ℕ) : ℝ) - ((6 : ℕ) : ℝ)) := by norm_num
    have e4 : (4 : ℝ) = 2 * (((8 : ℕ) : ℝ) - ((6 : ℕ) : ℝ)) := by norm_num
    have := twin_run steps [(0, 5)] [(0, 6)] [(0, 7)] [(0, 8)] ((6 : ℕ) : ℝ)
      (2 * (((7 : ℕ) : ℝ) - ((6 : ℕ) : ℝ))) (2 * (((8 : ℕ) : ℝ) - ((6 : ℕ) : ℝ))) rfl rfl rfl
    rw [← e2, ← e4] at this
    exact this

/-- A run with a constant log-likelihood in which the fit of the background fails. -/
def flat : Setup Nat Nat Unit :=
  ⟨fun _ _ _ => (), 1, fun _ => 0,
    fun m => if (StdMap.find m 1).isSome then .done m else .fails m, fun _ => 100⟩

/-- **C109 is violated** when the fit of the background fails: the log-likelihood of the null
hypothesis is then taken to be zero.  Here the log-likelihood is 100 for all models, so that
all the test statistics are zero, but those in the map are 200. -/
theorem C109_null_violates :
    (∀ m, flat.value m = 100) ∧
    ∃ m' im, run flat (twin true) [(0, 5)] = .ok (m', im) ∧ im.pixels = [200, 200] := by
  refine ⟨fun _ => rfl, ?_⟩
  have e : (200 : ℝ) = 2 * (100 - 0) := by norm_num
  rw [e]
  exact twin_run flat [(0, 5)] [(0, 5)] [(0, 5)] [(0, 5)] 0 _ _ rfl rfl rfl

/-- A run with a test source that improves the log-likelihood by 50, for which the fit
fails. -/
noncomputable def stuck : Setup Nat Nat Unit :=
  ⟨fun _ _ _ => (), 1, fun _ => 0,
    fun m => if (StdMap.find m 1).isSome then .fails m else .done m,
    fun m => if (StdMap.find m 1).isSome then 50 else 0⟩

/-- **C109 is violated** at pixels where the fit fails: the map has zero there, as where there
is no source.  Here every model with the test source has a log-likelihood that is higher by
50 than every model without it. -/
theorem C109_failed_violates :
    (∀ m, stuck.value m = if (StdMap.find m stuck.test).isSome then 50 else 0) ∧
    ∃ m' im, run stuck (twin true) [(0, 5)] = .ok (m', im) ∧ im.pixels = [0, 0] :=
  ⟨fun _ => rfl, twin_run stuck [(0, 5)] [(0, 5)] [(0, 5)] [(0, 5)] 0 0 0 rfl rfl rfl⟩

/-! ### the hypotheses can be met -/

/-- A run with two directions, of which the second has a source, and an optimizer that sets
the background to its best value. -/
noncomputable def good : Setup Nat Nat Bool :=
  ⟨fun _ x _ => open Classical in decide (1 < x), 1, fun d => if d then 3 else 0,
    fun m => .done m, fun m => if (StdMap.find m 1) = some 3 then 8 else 0⟩

-- `same` is equality: nothing is free, and the fit leaves the best model
theorem good_converges (m : Sources Nat Nat) :
    Spec.Converges (fun a b => a = b) good.value good.fit m := by
  refine ⟨m, rfl, alike_refl (fun _ => rfl) m, ⟨m, alike_refl (fun _ => rfl) m, rfl⟩, ?_⟩
  rintro v ⟨m', h1, h2⟩
  have : m' = m := by
    unfold Spec.Alike at h1
    clear h2
    induction h1 with
    | nil => rfl
    | cons hx _ ih => rw [ih, Prod.ext hx.1 hx.2]
  rw [← h2, this]

example : ∃ m' im, run good (twin true) [(0, 5)] = .ok (m', im) ∧ im.naxis1 = 2 := by
  obtain ⟨m', im, h1, _, h2, _⟩ := C109_value_partial (same := fun a b : Nat => a = b)
    (fun _ => rfl) (fun _ _ h => h.symm) (fun _ _ _ h h' => h.trans h') good (twin true) [(0, 5)]
    (by simp [StdMap.Sorted, StdMap.keys]) rfl (Or.inl rfl) (good_converges _)
    (fun _ _ _ => good_converges _)
  exact ⟨m', im, h1, h2⟩
example : StdMap.find [(0, 5), (1, 2)] steps.test ≠ none := by
  show StdMap.find [(0, 5), (1, 2)] 1 ≠ none
  decide

end Verif.TsMap
