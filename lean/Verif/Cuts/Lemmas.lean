import Verif.Cuts.Model
import Verif.Cuts.Spec
import Mathlib.Tactic.Linarith
import Mathlib.Tactic.Ring
/-
Lemmas on the checks of input files.
-/
set_option linter.unusedSectionVars false
set_option linter.unusedSimpArgs false
set_option linter.unusedVariables false
namespace Verif.Cuts

theorem mem_energy {cuts : List Cut} {c : ℝ × ℝ} :
    c ∈ cuts.filterMap energyRange ↔ Cut.range "ENERGY".toList c.1 c.2 ∈ cuts := by
  rw [List.mem_filterMap]
  constructor
  · rintro ⟨x, hx, h⟩
    cases x with
    | range col lo hi =>
      rw [energyRange] at h
      by_cases hc : col = "ENERGY".toList
      · rw [if_pos hc] at h; cases h; rw [← hc]; exact hx
      · rw [if_neg hc] at h; cases h
    | bits => cases h
    | gti => cases h
    | version => cases h
    | other => cases h
  · intro h
    exact ⟨_, h, by rw [energyRange, if_pos rfl]⟩

theorem kept_iff (c : Cut) : kept c = true ↔ Spec.Other c := by
  unfold Spec.Other
  cases c with
  | range col lo hi =>
    unfold kept
    rw [decide_eq_true_iff]
    constructor
    · intro h
      exact ⟨fun _ _ he => (by cases he; exact h rfl), fun _ he => (by cases he)⟩
    · rintro ⟨h, _⟩ rfl
      exact h _ _ rfl
  | version col v =>
    unfold kept
    rw [decide_eq_true_iff]
    constructor
    · intro h
      exact ⟨fun _ _ he => (by cases he), fun _ he => (by cases he; exact h rfl)⟩
    · rintro ⟨_, h⟩ rfl
      exact h _ rfl
  | bits => exact ⟨fun _ => ⟨fun _ _ he => (by cases he), fun _ he => (by cases he)⟩, fun _ => rfl⟩
  | gti => exact ⟨fun _ => ⟨fun _ _ he => (by cases he), fun _ he => (by cases he)⟩, fun _ => rfl⟩
  | other => exact ⟨fun _ => ⟨fun _ _ he => (by cases he), fun _ he => (by cases he)⟩, fun _ => rfl⟩

theorem filter_kept (cuts : List Cut) : cuts.filter kept = Spec.others cuts := by
  unfold Spec.others
  apply List.filter_congr
  intro c _
  by_cases h : Spec.Other c
  · rw [(kept_iff c).2 h]; exact (@decide_eq_true _ (Classical.propDecidable _) h).symm
  · rw [show kept c = false by
      cases hk : kept c
      · rfl
      · exact absurd ((kept_iff c).1 hk) h]
    exact (@decide_eq_false _ (Classical.propDecidable _) h).symm

/-- Narrowing is intersection. -/
theorem narrow_mem (b c : ℝ × ℝ) (e : ℝ) :
    ((narrow b c).1 ≤ e ∧ e ≤ (narrow b c).2) ↔ (b.1 ≤ e ∧ e ≤ b.2) ∧ c.1 ≤ e ∧ e ≤ c.2 := by
  unfold narrow
  by_cases h1 : b.1 < c.1 <;> by_cases h2 : b.2 > c.2 <;> simp only [h1, h2, if_true, if_false]
  · constructor
    · rintro ⟨x, y⟩; exact ⟨⟨by linarith, by linarith⟩, x, y⟩
    · rintro ⟨_, x⟩; exact x
  · constructor
    · rintro ⟨x, y⟩; exact ⟨⟨by linarith, y⟩, x, by linarith⟩
    · rintro ⟨x, y⟩; exact ⟨y.1, x.2⟩
  · constructor
    · rintro ⟨x, y⟩; exact ⟨⟨x, by linarith⟩, by linarith, y⟩
    · rintro ⟨x, y⟩; exact ⟨x.1, y.2⟩
  · constructor
    · rintro ⟨x, y⟩; exact ⟨⟨x, y⟩, by linarith, by linarith⟩
    · rintro ⟨x, _⟩; exact x

theorem foldl_narrow (cs : List (ℝ × ℝ)) (b : ℝ × ℝ) (e : ℝ) :
    ((cs.foldl narrow b).1 ≤ e ∧ e ≤ (cs.foldl narrow b).2) ↔
      (b.1 ≤ e ∧ e ≤ b.2) ∧ ∀ c ∈ cs, c.1 ≤ e ∧ e ≤ c.2 := by
  induction cs generalizing b with
  | nil => simp
  | cons c cs ih =>
    rw [List.foldl_cons, ih, narrow_mem]
    simp only [List.forall_mem_cons]
    tauto

theorem rangeBounds_mem {cs : List (ℝ × ℝ)} {b : ℝ × ℝ} (h : rangeBounds cs = .ok b) (e : ℝ) :
    (b.1 ≤ e ∧ e ≤ b.2) ↔ ∀ c ∈ cs, c.1 ≤ e ∧ e ≤ c.2 := by
  cases cs with
  | nil => cases h
  | cons c cs =>
    cases h
    rw [foldl_narrow]
    exact ⟨fun x => x.2, fun x => ⟨x c List.mem_cons_self, x⟩⟩

theorem rangeBounds_ok {cs : List (ℝ × ℝ)} (h : cs ≠ []) : ∃ b, rangeBounds cs = .ok b := by
  cases cs with
  | nil => exact absurd rfl h
  | cons c cs => exact ⟨_, rfl⟩

theorem passes_iff {cuts : List Cut} {b : ℝ × ℝ}
    (h : rangeBounds (cuts.filterMap energyRange) = .ok b) (e : ℝ) :
    Spec.Passes cuts e ↔ b.1 ≤ e ∧ e ≤ b.2 := by
  rw [rangeBounds_mem h e]
  constructor
  · intro hp c hc
    exact hp _ _ (mem_energy.1 hc)
  · intro hp lo hi hc
    exact hp (lo, hi) (mem_energy.2 hc)

theorem hasEnergy_iff {cuts : List Cut} :
    Spec.HasEnergy cuts ↔ cuts.filterMap energyRange ≠ [] := by
  constructor
  · rintro ⟨lo, hi, h⟩ he
    have := (mem_energy (c := (lo, hi))).2 h
    rw [he] at this
    cases this
  · intro h
    obtain ⟨c, hc⟩ := List.exists_mem_of_ne_nil _ h
    exact ⟨_, _, mem_energy.1 hc⟩

theorem beyond_iff (ev em : ℝ × ℝ) : beyond ev em = true ↔ em.1 > ev.1 ∨ em.2 < ev.2 := by
  unfold beyond
  exact ⟨fun h => of_decide_eq_true h, fun h => decide_eq_true h⟩

/-! Masks -/

theorem foldl_mask (cuts : List Cut) (d : Nat) : cuts.foldl typeMask d = Spec.mask cuts d := by
  induction cuts generalizing d with
  | nil => rfl
  | cons c cs ih =>
    rw [List.foldl_cons, ih]
    cases c <;> rfl

/-! Times -/

theorem gtis_eq (cuts : List Cut) : cuts.filterMap gtiOf = Spec.gtis cuts := by
  unfold Spec.gtis
  induction cuts with
  | nil => rfl
  | cons c cs ih =>
    rw [List.flatMap_cons, ← ih]
    cases c <;> rfl

theorem gtiDiffs_eq (a b : List (ℝ × ℝ)) (d : ℝ × ℝ) :
    gtiDiffs a b d = (d.1 + Spec.apart Prod.fst a b, d.2 + Spec.apart Prod.snd a b) := by
  induction a generalizing b d with
  | nil => simp [gtiDiffs, Spec.apart]
  | cons x a ih =>
    cases b with
    | nil => simp [gtiDiffs, Spec.apart]
    | cons y b =>
      rw [gtiDiffs, ih]
      simp only [Spec.apart, List.zip_cons_cons, List.map_cons, List.sum_cons, add_assoc]

theorem compareGti_eq (env : Env) (a b : List (List (ℝ × ℝ))) (s : Bool × (ℝ × ℝ))
    (h : a.length = b.length) :
    ((compareGti env a b s).1 = true ↔
      s.1 = true ∧ List.Forall₂ (fun x y => env.sameGti x y = true) a b) ∧
    (compareGti env a b s).2 =
      (s.2.1 + ((a.zip b).map (fun p =>
          if env.sameGti p.1 p.2 then 0 else Spec.apart Prod.fst p.1 p.2)).sum,
       s.2.2 + ((a.zip b).map (fun p =>
          if env.sameGti p.1 p.2 then 0 else Spec.apart Prod.snd p.1 p.2)).sum) := by
  induction a generalizing b s with
  | nil =>
    cases b with
    | nil => simp [compareGti]
    | cons y b => simp at h
  | cons x a ih =>
    cases b with
    | nil => simp at h
    | cons y b =>
      have h' : a.length = b.length := by simpa using h
      rw [compareGti]
      obtain ⟨h1, h2⟩ := ih b (s.1 && env.sameGti x y,
        if env.sameGti x y then s.2 else gtiDiffs x y s.2) h'
      rw [h2]
      constructor
      · rw [h1, List.forall₂_cons, Bool.and_eq_true]
        tauto
      · simp only [List.zip_cons_cons, List.map_cons, List.sum_cons]
        by_cases hs : env.sameGti x y = true
        · simp [hs]
        · simp only [hs, if_false, gtiDiffs_eq, Bool.false_eq_true]
          simp only [add_assoc]

/-! Borders -/

theorem visit_ok (look : Nat → Nat → Look) (ps : List (Nat × Nat)) :
    visit look ps = .ok () ↔ ∀ p ∈ ps, Spec.Covered (look p.1 p.2) := by
  induction ps with
  | nil => simp [visit]
  | cons p ps ih =>
    rw [visit]
    cases h : look p.1 p.2 with
    | value x =>
      simp only [ih, List.forall_mem_cons, h]
      exact ⟨fun hh => ⟨⟨x, rfl⟩, hh⟩, fun hh => hh.2⟩
    | outside =>
      simp only [List.forall_mem_cons, h]
      exact ⟨(fun hh => by cases hh), (fun hh => by obtain ⟨⟨x, hx⟩, _⟩ := hh; cases hx)⟩
    | fails =>
      simp only [List.forall_mem_cons, h]
      exact ⟨(fun hh => by cases hh), (fun hh => by obtain ⟨⟨x, hx⟩, _⟩ := hh; cases hx)⟩

theorem visit_cases (look : Nat → Nat → Look) (ps : List (Nat × Nat)) :
    visit look ps = .ok () ∨ visit look ps = .throws := by
  induction ps with
  | nil => exact Or.inl rfl
  | cons p ps ih =>
    rw [visit]
    cases h : look p.1 p.2 with
    | value x => exact ih
    | outside => exact Or.inr rfl
    | fails => exact Or.inr rfl

/-- The pixels visited are those of the border. -/
theorem mem_border {nx ny : Nat} (hx : 0 < nx) (hy : 0 < ny) (i j : Nat) :
    (i, j) ∈ border nx ny ↔
      Spec.IsPixel nx ny i j ∧ (i = 1 ∨ i = nx ∨ j = 1 ∨ j = ny) := by
  unfold border Spec.IsPixel
  simp only [List.mem_append, List.mem_map, List.mem_range, Prod.mk.injEq]
  constructor
  · rintro (((⟨k, hk, rfl, rfl⟩ | ⟨k, hk, rfl, rfl⟩) | ⟨k, hk, rfl, rfl⟩) | ⟨k, hk, rfl, rfl⟩) <;>
      omega
  · rintro ⟨⟨h1, h2, h3, h4⟩, h | h | h | h⟩
    · exact Or.inr ⟨ny - j, by omega, by omega, by omega⟩
    · exact Or.inl (Or.inl (Or.inr ⟨j - 1, by omega, by omega, by omega⟩))
    · exact Or.inl (Or.inl (Or.inl ⟨i - 1, by omega, by omega, by omega⟩))
    · exact Or.inl (Or.inr ⟨nx - i, by omega, by omega, by omega⟩)

end Verif.Cuts
