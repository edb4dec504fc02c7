import Verif.Weights.Lemmas
import Verif.Wcs.Props2
/-
C72: the weights of the pixels of a counts map.
-/
set_option linter.unusedSectionVars false
set_option linter.unusedSimpArgs false
set_option linter.unusedVariables false
namespace Verif.Weights
open Verif.Vec Verif.Weights.Spec
open scoped BigOperators

theorem oneWeight_eq {b : Bool} {v : Res ℝ} (h : b = true → v ≠ .ub) : oneWeight b v = .ok (wanted b v, !covered b v) := by
  cases b
  · rfl
  · cases v with
    | ok w => rfl
    | throws => rfl
    | ub => exact absurd rfl (h rfl)

section
variable {P : Type} {inside : P → Res Bool} {value : P → ℝ → Res ℝ} {pixels : List P} {energies : List ℝ}

theorem inner_eq {N j : Nat} (hj : j < N) {p : P} {b : Bool} (hv : ∀ e ∈ energies, b = true → value p e ≠ .ub)
    (l : List ℝ) (fl : Bool) (hl : l.length = energies.length * N) :
    ∃ l' fl', loop (fun k s => do
      let e ← vget energies k
      let w ← oneWeight b (value p e)
      if k * N + j < s.1.length then
        .ok (s.1.set (k * N + j) w.1, s.2 || w.2)
      else .throws) 0 energies.length (l, fl) = .ok (l', fl') ∧ l'.length = l.length ∧
      (∀ k < energies.length, ∀ q < N, val l' (k * N + q) = if q = j then wanted b (value p (val energies k)) else val l (k * N + q)) ∧
      (fl' = true ↔ fl = true ∨ ∃ e ∈ energies, covered b (value p e) = false) := by
  obtain ⟨⟨l', fl'⟩, h1, h2, h3, h4⟩ := loop_inv (lo := 0) (n := energies.length) (s := (l, fl))
    (body := fun k s => do
      let e ← vget energies k
      let w ← oneWeight b (value p e)
      if k * N + j < s.1.length then
        .ok (s.1.set (k * N + j) w.1, s.2 || w.2)
      else .throws)
    (fun K s => s.1.length = l.length ∧
      (∀ k < energies.length, ∀ q < N, val s.1 (k * N + q) = if q = j ∧ k < K then wanted b (value p (val energies k)) else val l (k * N + q)) ∧
      (s.2 = true ↔ fl = true ∨ ∃ k < K, covered b (value p (val energies k)) = false))
    ⟨rfl, by simp, by simp⟩ (by
      rintro K ⟨s1, s2⟩ - hK ⟨g1, g2, g3⟩
      rw [Nat.zero_add] at hK
      simp only [] at g1 g2 g3
      have hin : K * N + j < s1.length := by
        rw [g1, hl]
        calc K * N + j < (K + 1) * N := by rw [Nat.add_mul]; omega
          _ ≤ energies.length * N := Nat.mul_le_mul_right _ (by omega)
      refine ⟨_, by rw [vget_val hK, Res.bind_ok, oneWeight_eq (hv _ (val_mem hK)), Res.bind_ok, if_pos hin], by simp [g1],
        fun k hk q hq => ?_, ?_⟩
      · simp only []
        rw [val_set hin]
        by_cases e : k * N + q = K * N + j
        · obtain ⟨rfl, rfl⟩ := idx_inj hq hj e
          rw [if_pos rfl, if_pos ⟨rfl, by omega⟩]
        · rw [if_neg e, g2 k hk q hq]
          have hne : ¬ (q = j ∧ k = K) := by rintro ⟨rfl, rfl⟩; exact e rfl
          by_cases d : q = j ∧ k < K
          · rw [if_pos d, if_pos ⟨d.1, by omega⟩]
          · rw [if_neg d, if_neg]
            rintro ⟨d1, d2⟩
            exact d ⟨d1, by have : ¬ k = K := fun h => hne ⟨d1, h⟩
                            omega⟩
      · simp only [Bool.or_eq_true, Bool.not_eq_true', g3]
        constructor
        · rintro ((h | ⟨k, hk, h⟩) | h)
          · exact Or.inl h
          · exact Or.inr ⟨k, by omega, h⟩
          · exact Or.inr ⟨K, by omega, h⟩
        · rintro (h | ⟨k, hk, h⟩)
          · exact Or.inl (Or.inl h)
          · by_cases c : k = K
            · subst c; exact Or.inr h
            · exact Or.inl (Or.inr ⟨k, by omega, h⟩))
  refine ⟨l', fl', h1, h2, fun k hk q hq => ?_, ?_⟩
  · rw [h3 k hk q hq]
    simp [hk]
  · rw [h4]
    simp only [Nat.zero_add]
    constructor
    · rintro (h | ⟨k, hk, h⟩)
      · exact Or.inl h
      · exact Or.inr ⟨_, val_mem hk, h⟩
    · rintro (h | ⟨e, he, h⟩)
      · exact Or.inl h
      · obtain ⟨k, hk, rfl⟩ := mem_val he
        exact Or.inr ⟨k, hk, h⟩

/-- The weight of each pixel and energy is the value of the map of weights there; it is one
outside the map or where the map refuses the energy.  The warning appears exactly if there is
such a pixel and energy. -/
theorem C72_projected_partial (ins : P → Bool) (hi : ∀ p ∈ pixels, inside p = .ok (ins p))
    (hv : ∀ p ∈ pixels, ∀ e ∈ energies, ins p = true → value p e ≠ .ub) :
    ∃ l fl, projected inside value pixels energies = .ok (l, fl) ∧ l.length = energies.length * pixels.length ∧
      (∀ j (hj : j < pixels.length), ∀ k (hk : k < energies.length),
        val l (k * pixels.length + j) = wanted (ins pixels[j]) (value pixels[j] energies[k])) ∧
      (fl = true ↔ ∃ p ∈ pixels, ∃ e ∈ energies, covered (ins p) (value p e) = false) := by
  unfold projected
  obtain ⟨⟨l, fl⟩, h1, h2, h3, h4⟩ := loop_inv (lo := 0) (n := pixels.length)
    (s := (List.replicate (energies.length * pixels.length) (0 : ℝ), false))
    (body := fun j s => do
      let p ← vget pixels j
      let b ← inside p
      loop (fun k s => do
        let e ← vget energies k
        let w ← oneWeight b (value p e)
        if k * pixels.length + j < s.1.length then
          .ok (s.1.set (k * pixels.length + j) w.1, s.2 || w.2)
        else .throws) 0 energies.length s)
    (fun J s => s.1.length = energies.length * pixels.length ∧
      (∀ j (hj : j < pixels.length), j < J → ∀ k (hk : k < energies.length),
        val s.1 (k * pixels.length + j) = wanted (ins pixels[j]) (value pixels[j] energies[k])) ∧
      (s.2 = true ↔ ∃ j, ∃ hj : j < pixels.length, j < J ∧ ∃ e ∈ energies, covered (ins pixels[j]) (value pixels[j] e) = false))
    ⟨by simp, by simp, by simp⟩ (by
      rintro J ⟨s1, s2⟩ - hJ ⟨g1, g2, g3⟩
      rw [Nat.zero_add] at hJ
      simp only [] at g1 g2 g3
      have hp := List.getElem_mem hJ
      obtain ⟨l', fl', i1, i2, i3, i4⟩ := inner_eq (value := value) hJ (p := pixels[J]) (b := ins pixels[J]) (hv _ hp) s1 s2 g1
      refine ⟨(l', fl'), by rw [vget_lt _ _ hJ, Res.bind_ok, hi _ hp, Res.bind_ok, i1], by simp only []; omega, fun j hj hlt k hk => ?_, ?_⟩
      · simp only []
        rw [i3 k hk j hj]
        by_cases c : j = J
        · subst c
          rw [if_pos rfl, val_lt hk]
        · rw [if_neg c, g2 j hj (by omega) k hk]
      · simp only []
        rw [i4, g3]
        constructor
        · rintro (⟨j, hj, hlt, h⟩ | h)
          · exact ⟨j, hj, by omega, h⟩
          · exact ⟨J, hJ, by omega, h⟩
        · rintro ⟨j, hj, hlt, h⟩
          by_cases c : j = J
          · subst c; exact Or.inr h
          · exact Or.inl ⟨j, hj, by omega, h⟩)
  refine ⟨l, fl, h1, h2, fun j hj k hk => h3 j hj (by omega) k hk, ?_⟩
  rw [h4]
  constructor
  · rintro ⟨j, hj, -, h⟩
    exact ⟨_, List.getElem_mem hj, h⟩
  · rintro ⟨p, hp, h⟩
    obtain ⟨j, hj, rfl⟩ := List.mem_iff_getElem.1 hp
    exact ⟨j, hj, by simpa using hj, h⟩

/-- A pixel whose direction cannot be projected onto the map of weights does not get the weight
one: the exception of the projection is passed on. -/
theorem C72_projection_violates (hi : ∀ p ∈ pixels, inside p ≠ .ub) (hv : ∀ p ∈ pixels, ∀ e ∈ energies, value p e ≠ .ub)
    (hx : ∃ p ∈ pixels, inside p = .throws) : projected inside value pixels energies = .throws := by
  unfold projected
  suffices H : ∀ n lo (l : List ℝ) (fl : Bool), lo + n = pixels.length → l.length = energies.length * pixels.length →
      (∃ j, ∃ hj : j < pixels.length, lo ≤ j ∧ inside pixels[j] = .throws) →
      loop (fun j s => do
        let p ← vget pixels j
        let b ← inside p
        loop (fun k s => do
          let e ← vget energies k
          let w ← oneWeight b (value p e)
          if k * pixels.length + j < s.1.length then
            .ok (s.1.set (k * pixels.length + j) w.1, s.2 || w.2)
          else .throws) 0 energies.length s) lo n (l, fl) = .throws by
    obtain ⟨p, hp, hx⟩ := hx
    obtain ⟨j, hj, rfl⟩ := List.mem_iff_getElem.1 hp
    exact H _ 0 _ _ (by simp) (by simp) ⟨j, hj, by omega, hx⟩
  intro n
  induction n with
  | zero => rintro lo l fl h1 - ⟨j, hj, h2, -⟩; omega
  | succ n ih =>
    rintro lo l fl h1 h2 ⟨j, hj, h3, h4⟩
    have hlo : lo < pixels.length := by omega
    have hp := List.getElem_mem hlo
    rw [loop, vget_lt _ _ hlo, Res.bind_ok]
    cases hc : inside pixels[lo] with
    | throws => rfl
    | ub => exact absurd hc (hi _ hp)
    | ok b =>
      obtain ⟨l', fl', i1, i2, i3, i4⟩ := inner_eq (value := value) hlo (p := pixels[lo]) (b := b)
        (fun e he _ => hv _ hp e he) l fl h2
      rw [Res.bind_ok, i1, Res.bind_ok]
      refine ih (lo + 1) l' fl' (by omega) (by omega) ⟨j, hj, ?_, h4⟩
      rcases Nat.eq_or_lt_of_le h3 with e | e
      · subst e; rw [hc] at h4; cases h4
      · omega
end

/-! ### A map of weights in a plane projection -/

open Verif.Wcs in
/-- Within the range of energies it makes no difference whether the range is enforced. -/
theorem value_enforced {m : Map} {p : Option (ℝ × ℝ)} {e f b : ℝ} (hf : m.energies.head? = some f) (hb : m.energies.getLast? = some b)
    (h1 : f ≤ e) (h2 : e ≤ b) (h0 : 0 ≤ e) : m.value p e = {m with enforce := false}.value p e := by
  have c1 : m.checkEnergy e = .ok () := by
    unfold Map.checkEnergy
    rw [hf, hb]
    simp only []
    rw [if_neg (by rintro ⟨-, h | h⟩ <;> linarith)]
  have c2 : ({m with enforce := false} : Map).checkEnergy e = .ok () := by
    unfold Map.checkEnergy
    simp only []
    rw [hf, hb]
    simp
  unfold Map.value
  rw [hf]
  simp only []
  rw [if_neg (not_lt.2 h0), c1, c2]
  rfl

open Verif.Wcs in
/-- Inside the range of energies a cube whose planes have values between `lo` and `hi` has a
value between them. -/
theorem cube_bounds {m : Map} {p : Option (ℝ × ℝ)} {y : Nat → ℝ} (h : Cube m p y) (hf : m.enforce = false) {lo hi : ℝ}
    (hb : ∀ k < m.energies.length, lo ≤ y k ∧ y k ≤ hi) {e : ℝ} (h1 : m.energies[0]'(by have := h.two; omega) ≤ e)
    (h2 : e ≤ m.energies[m.energies.length - 1]'(by have := h.two; omega)) : ∃ v, m.value p e = .ok v ∧ lo ≤ v ∧ v ≤ hi := by
  have htwo := h.two
  -- an interval with the energy
  have : ∃ k, ∃ hk : k + 1 < m.energies.length, m.energies[k] ≤ e ∧ e ≤ m.energies[k + 1] := by
    by_contra hcon
    push Not at hcon
    have all : ∀ k, ∀ hk : k < m.energies.length, m.energies[k] ≤ e := by
      intro k
      induction k with
      | zero => intro _; exact h1
      | succ k ih => intro hk; exact (hcon k hk (ih (by omega))).le
    have := hcon (m.energies.length - 2) (by omega) (all _ (by omega))
    have e1 : m.energies.length - 2 + 1 = m.energies.length - 1 := by omega
    simp only [e1] at this
    linarith
  obtain ⟨k, hk, a, b⟩ := this
  obtain ⟨v, hv, c, d, -⟩ := C66_between h hf k hk e a b
  exact ⟨v, hv, (le_min (hb k (by omega)).1 (hb (k + 1) hk).1).trans c, d.trans (max_le (hb k (by omega)).2 (hb (k + 1) hk).2)⟩

open Verif.Wcs in
/-- For a map of weights in a plane projection whose range of energies is enforced, as the
applications do, and whose planes have values from zero to one, all weights are from zero to one;
they are one outside the map and outside its energies. -/
theorem C72_range {m : Map} {pixels : List (Option (ℝ × ℝ))} {energies : List ℝ} {y : Option (ℝ × ℝ) → Nat → ℝ}
    (hen : m.enforce = true) (hp : ∀ p ∈ pixels, p ≠ none)
    (hc : ∀ p ∈ pixels, Cube m p (y p)) (hy : ∀ p ∈ pixels, ∀ k, y p k ≤ 1) (he : ∀ e ∈ energies, 0 < e) :
    ∃ l fl, projected m.inside m.value pixels energies = .ok (l, fl) ∧ l.length = energies.length * pixels.length ∧
      ∀ j (hj : j < pixels.length), ∀ k (hk : k < energies.length),
        (0 ≤ val l (k * pixels.length + j) ∧ val l (k * pixels.length + j) ≤ 1) ∧
        (m.inside pixels[j] = .ok false → val l (k * pixels.length + j) = 1) ∧
        ((∀ b ∈ m.energies, energies[k] < b) ∨ (∀ b ∈ m.energies, b < energies[k]) → val l (k * pixels.length + j) = 1) ∧
        (∀ b ∈ m.energies, b = energies[k] → ∀ i (hi : i < m.energies.length), m.energies[i] = b →
          m.inside pixels[j] = .ok true → val l (k * pixels.length + j) = y pixels[j] i) := by
  have hins : ∀ p ∈ pixels, ∃ b, m.inside p = .ok b := by
    intro p hpm
    cases p with
    | none => exact absurd rfl (hp _ hpm)
    | some xy => exact ⟨_, rfl⟩
  set ins : Option (ℝ × ℝ) → Bool := fun p => match m.inside p with | .ok b => b | _ => false with hinsdef
  have hins' : ∀ p ∈ pixels, m.inside p = .ok (ins p) := by
    intro p hpm
    obtain ⟨b, hb⟩ := hins p hpm
    simp only [hinsdef, hb]
  -- the value at an energy
  have hval : ∀ p ∈ pixels, ∀ e ∈ energies,
      (((∀ b ∈ m.energies, e < b) ∨ (∀ b ∈ m.energies, b < e)) ∧ m.value p e = .throws) ∨
      (¬ ((∀ b ∈ m.energies, e < b) ∨ (∀ b ∈ m.energies, b < e)) ∧ (∃ v, m.value p e = .ok v ∧ 0 ≤ v ∧ v ≤ 1) ∧
        ∀ i (hi : i < m.energies.length), m.energies[i] = e → m.value p e = .ok (y p i)) := by
    intro p hpm e hem
    have hcube := hc p hpm
    have htwo := hcube.two
    have hhead : m.energies.head? = some (m.energies[0]'(by omega)) := by
      rw [List.head?_eq_getElem?, List.getElem?_eq_getElem (by omega)]
    have hlast : m.energies.getLast? = some (m.energies[m.energies.length - 1]'(by omega)) := by
      rw [List.getLast?_eq_getElem?, List.getElem?_eq_getElem (by omega)]
    have hle : ∀ i (hi : i < m.energies.length), m.energies[0] ≤ m.energies[i] ∧ m.energies[i] ≤ m.energies[m.energies.length - 1] := by
      intro i hi
      constructor
      · rcases Nat.eq_zero_or_pos i with h | h
        · subst h; rfl
        · exact (hcube.lt h hi).le
      · rcases Nat.lt_or_ge i (m.energies.length - 1) with h | h
        · exact (hcube.lt h (by omega)).le
        · have : i = m.energies.length - 1 := by omega
          simp only [this]; rfl
    have h0 := he e hem
    by_cases co : e < m.energies[0] ∨ m.energies[m.energies.length - 1] < e
    · left
      refine ⟨?_, C66_enforced m p e _ _ hhead hlast hen h0.le co⟩
      rcases co with c | c
      · left
        intro b hb
        obtain ⟨i, hi, rfl⟩ := List.mem_iff_getElem.1 hb
        exact c.trans_le (hle i hi).1
      · right
        intro b hb
        obtain ⟨i, hi, rfl⟩ := List.mem_iff_getElem.1 hb
        exact (hle i hi).2.trans_lt c
    · right
      push Not at co
      have hcube' : Cube {m with enforce := false} p (y p) :=
        ⟨hcube.axes, hcube.two, hcube.sorted, hcube.pos, hcube.planes, hcube.nonneg⟩
      have hev := value_enforced hhead hlast co.1 co.2 h0.le (p := p)
      refine ⟨?_, ?_, ?_⟩
      · rintro (h | h)
        · exact absurd (h _ (List.getElem_mem (by omega : 0 < m.energies.length))) (not_lt.2 co.1)
        · exact absurd (h _ (List.getElem_mem (by omega : m.energies.length - 1 < m.energies.length))) (not_lt.2 co.2)
      · rw [hev]
        exact cube_bounds hcube' rfl (fun k _ => ⟨hcube.nonneg k, hy p hpm k⟩) co.1 co.2
      · intro i hi hie
        rw [hev, ← hie]
        exact C66_tabulated hcube' rfl i hi
  obtain ⟨l, fl, h1, h2, h3, -⟩ := C72_projected_partial (inside := m.inside) (value := m.value) ins hins' (by
    intro p hpm e hem _
    rcases hval p hpm e hem with ⟨-, h⟩ | ⟨-, ⟨v, h, -, -⟩, -⟩ <;> rw [h] <;> simp)
  refine ⟨l, fl, h1, h2, fun j hj k hk => ?_⟩
  have hpm := List.getElem_mem hj
  have hem := List.getElem_mem hk
  rw [h3 j hj k hk, hins' _ hpm]
  rcases hval _ hpm _ hem with ⟨ho, h⟩ | ⟨ho, ⟨v, h, v0, v1⟩, ht⟩
  · rw [h]
    have hw : wanted (ins pixels[j]) (.throws : Res ℝ) = 1 := by unfold wanted; cases ins pixels[j] <;> rfl
    rw [hw]
    refine ⟨⟨by norm_num, le_rfl⟩, fun _ => rfl, fun _ => rfl, ?_⟩
    intro b hb hbe
    rcases ho with ho | ho
    · exact absurd (ho b hb) (by rw [hbe]; exact lt_irrefl _)
    · exact absurd (ho b hb) (by rw [hbe]; exact lt_irrefl _)
  · rw [h]
    refine ⟨?_, fun hi => ?_, fun hcon => absurd hcon ho, ?_⟩
    · unfold wanted
      cases ins pixels[j]
      · exact ⟨by norm_num, le_rfl⟩
      · exact ⟨v0, v1⟩
    · cases hi' : ins pixels[j]
      · rfl
      · rw [hi'] at hi; cases hi
    · intro b hb hbe i hi hib hin
      have := ht i hi (hib.trans hbe)
      rw [h] at this
      cases this
      cases hi' : ins pixels[j]
      · rw [hi'] at hin; cases hin
      · rfl

/-- The map of one pixel with the weights 1/2 at 100 MeV and 1 at 200 MeV; `en` tells whether the
range of energies is enforced. -/
noncomputable def small (en : Bool) : Verif.Wcs.Map := ⟨false, false, en, 3, 1, 1, [[[1 / 2]], [[1]]], [100, 200]⟩

theorem small_plane (en : Bool) : ∀ k < (small en).energies.length, (small en).plane (some (1, 1)) k = .ok (if k = 0 then 1 / 2 else 1) := by
  have ht : (small en).Tidy := by
    refine ⟨rfl, ?_, by simp [small]⟩
    intro plane hpl
    simp only [small, List.mem_cons, List.not_mem_nil, or_false] at hpl
    rcases hpl with rfl | rfl
    all_goals
      refine ⟨rfl, fun row hr => ?_⟩
      simp only [List.mem_cons, List.not_mem_nil, or_false] at hr
      rw [hr]; rfl
  intro k hk
  have h1 := Verif.Wcs.C65_centre_partial _ ht rfl k hk 1 1 (by simp [small]) (by simp [small])
  simp only [Nat.cast_one] at h1
  rw [h1]
  have : k = 0 ∨ k = 1 := by simp [small] at hk; omega
  rcases this with rfl | rfl <;> simp [Verif.Wcs.Spec.pixel, small]

theorem small_cube (en : Bool) : Verif.Wcs.Cube (small en) (some (1, 1)) (fun k => if k = 0 then 1 / 2 else 1) :=
  ⟨rfl, by simp [small], by simp [small]; norm_num, by simp [small], small_plane en, fun k => by split <;> norm_num⟩

theorem small_inside (en : Bool) : (small en).inside (some (1, 1)) = .ok true := by
  unfold Verif.Wcs.Map.inside small
  norm_num

/-- A map of weights whose range of energies is not enforced, which is the default of its
constructor, is extrapolated: the weight at twice its last energy is 2, and there is no warning. -/
theorem C72_extrapolated_violates :
    ∃ l, projected (small false).inside (small false).value [some (1, 1)] [400] = .ok (l, false) ∧ val l 0 = 2 := by
  have hc := small_cube false
  have hi : (small false).energyIndex 400 = 0 := by
    unfold Verif.Wcs.Map.energyIndex
    rw [if_pos ⟨rfl, by simp [small]⟩]
    have h2 : (small false).energies.length - 2 = 0 := rfl
    simp only [h2]
    by_cases c : 0 < List.findIdx (fun b => (Classical.propDecidable ((400 : ℝ) < b)).decide) (small false).energies - 1
    · exact if_pos c
    · rw [if_neg c]
      omega
  have hv : (small false).value (some (1, 1)) 400 = .ok 2 := by
    rw [hc.value_eq rfl (k := 0) (by simp [small]) (by norm_num) hi]
    simp only [small, List.getElem_cons_zero, List.getElem_cons_succ, Nat.zero_add]
    rw [if_neg (by norm_num), Verif.Wcs.powerLaw_cases (by norm_num) (by norm_num) (by norm_num) (by norm_num)]
    have hl : Real.log 2 ≠ 0 := (Real.log_pos (by norm_num)).ne'
    norm_num [div_self hl]
  obtain ⟨l, fl, h1, h2, h3, h4⟩ := C72_projected_partial (inside := (small false).inside) (value := (small false).value)
    (pixels := [some (1, 1)]) (energies := [400]) (fun _ => true) (by
      intro p hp
      simp only [List.mem_cons, List.not_mem_nil, or_false] at hp
      rw [hp, small_inside]) (by
      intro p hp e he _
      simp only [List.mem_cons, List.not_mem_nil, or_false] at hp he
      rw [hp, he, hv]; simp)
  have hfl : fl = false := by
    by_contra hcon
    obtain ⟨p, hp, e, he, hcv⟩ := h4.1 (by simpa using hcon)
    simp only [List.mem_cons, List.not_mem_nil, or_false] at hp he
    rw [hp, he, hv] at hcv
    cases hcv
  subst hfl
  refine ⟨l, h1, ?_⟩
  have := h3 0 (by simp) 0 (by simp)
  simp only [List.getElem_cons_zero, hv] at this
  simpa [wanted] using this

example : ∃ l fl, projected (small true).inside (small true).value [some (1, 1)] [50, 100, 150] = .ok (l, fl) ∧ l.length = 3 := by
  obtain ⟨l, fl, h1, h2, -⟩ := C72_range (m := small true) (pixels := [some (1, 1)]) (energies := [50, 100, 150])
    (y := fun _ k => if k = 0 then 1 / 2 else 1) rfl (by simp) (by
      intro p hp
      simp only [List.mem_cons, List.not_mem_nil, or_false] at hp
      rw [hp]; exact small_cube true) (by intro p _ k; split <;> norm_num) (by simp)
  exact ⟨l, fl, h1, h2⟩

example : projected (small true).inside (fun _ _ => .ok 1) [some (1, 1), none] [100] = .throws :=
  C72_projection_violates (by
    intro p hp
    simp only [List.mem_cons, List.not_mem_nil, or_false] at hp
    rcases hp with rfl | rfl
    · rw [small_inside]; simp
    · simp [Verif.Wcs.Map.inside]) (by simp) ⟨none, by simp, rfl⟩

end Verif.Weights
