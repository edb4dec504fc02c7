import Verif.MapInt.Lemmas
/-
The conversions between counts and intensities.
-/
set_option linter.unusedSectionVars false
set_option linter.unusedSimpArgs false
set_option linter.unusedVariables false
namespace Verif.MapInt
open Verif.MapInt.Spec
open scoped BigOperators

theorem loop_ub_inv {σ : Type _} {body : Nat → σ → Res σ} (P : Nat → σ → Prop) {lo n k : Nat} {s : σ} (hk : k < n)
    (h0 : P lo s) (h : ∀ i s, lo ≤ i → i < lo + k → P i s → ∃ s', body i s = .ok s' ∧ P (i + 1) s')
    (hub : ∀ s, P (lo + k) s → body (lo + k) s = .ub) : loop body lo n s = .ub := by
  induction k generalizing lo n s with
  | zero =>
    obtain ⟨n, rfl⟩ : ∃ m, n = m + 1 := ⟨n - 1, by omega⟩
    rw [loop, show body lo s = .ub from hub s h0]
    rfl
  | succ k ih =>
    obtain ⟨n, rfl⟩ : ∃ m, n = m + 1 := ⟨n - 1, by omega⟩
    obtain ⟨s', hs, hp⟩ := h lo s le_rfl (by omega) h0
    rw [loop, hs, Res.bind_ok]
    exact ih (by omega) hp (fun i s h1 h2 => h i s (by omega) (by omega))
      (fun s => by rw [show lo + 1 + k = lo + (k + 1) by omega]; exact hub s)

theorem loop_ok_at {σ : Type _} {body : Nat → σ → Res σ} (P : σ → Prop) {lo n : Nat} {s s' : σ}
    (h : loop body lo n s = .ok s') (h0 : P s) (hP : ∀ i a b, P a → body i a = .ok b → P b) {i : Nat}
    (h1 : lo ≤ i) (h2 : i < lo + n) : ∃ a b, P a ∧ body i a = .ok b := by
  induction n generalizing lo s with
  | zero => omega
  | succ n ih =>
    rw [loop] at h
    obtain ⟨t, ht, h⟩ := Res.bind_eq_ok.1 h
    by_cases hc : i = lo
    · subst hc; exact ⟨s, t, h0, ht⟩
    · exact ih h (hP _ _ _ h0 ht) (by omega) (by omega)

theorem divide_eq {a b : ℝ} (h : b ≠ 0) : divide a b = .ok (a / b) := by unfold divide; rw [if_neg h]

theorem vset_ok_iff {α : Type _} {l l' : List α} {i : Nat} {a : α} (h : vset l i a = .ok l') : l' = l.set i a ∧ i < l.length := by
  unfold vset at h
  split at h
  · cases h; exact ⟨rfl, by assumption⟩
  · cases h

/-! ### To intensities -/

theorem diffRow_eq {f : ℝ} {sa row : List ℝ} (hl : row.length ≤ sa.length) (hne : ∀ i < row.length, el sa i ≠ 0) :
    ∃ r, diffRow f sa row = .ok r ∧ r.length = row.length ∧ ∀ i < row.length, el r i = el row i * (f / el sa i) := by
  unfold diffRow
  obtain ⟨r, h1, h2, h3⟩ := loop_inv (body := fun i r => do
      let v ← vget r i
      let w ← vget sa i
      let q ← divide f w
      vset r i (v * q)) (lo := 0) (n := row.length) (s := row)
    (fun I r => r.length = row.length ∧ ∀ i, el r i = if i < I then el row i * (f / el sa i) else el row i)
    ⟨rfl, fun i => by rw [if_neg (by omega)]⟩ (by
      rintro I r - hI ⟨g1, g2⟩
      rw [Nat.zero_add] at hI
      refine ⟨r.set I (el row I * (f / el sa I)), ?_, by simp [g1], fun i => ?_⟩
      · rw [vget_el (by omega), Res.bind_ok, vget_el (by omega), Res.bind_ok, divide_eq (hne I hI), Res.bind_ok,
          vset_lt _ _ _ (by omega), g2 I, if_neg (by omega)]
      · rw [el_set (by omega)]
        by_cases hc : i = I
        · subst hc; rw [if_pos rfl, if_pos (by omega)]
        · rw [if_neg hc, g2]
          by_cases hc2 : i < I
          · rw [if_pos hc2, if_pos (by omega)]
          · rw [if_neg hc2, if_neg (by omega)])
  exact ⟨r, h1, h2, fun i hi => by rw [h3, if_pos (by omega)]⟩

theorem diffPlane_eq {width : ℝ} {sa p : Plane} {n1 n2 : Nat} (hw : width ≠ 0) (hs : Shape sa n1 n2) (hp : Shape p n1 n2)
    (hne : ∀ j < n2, ∀ i < n1, pix sa j i ≠ 0) :
    ∃ q, diffPlane width sa p = .ok q ∧ Shape q n1 n2 ∧
      ∀ j < n2, ∀ i < n1, pix q j i = pix p j i * (1 / width / pix sa j i) := by
  unfold diffPlane
  rw [divide_eq hw, Res.bind_ok, hs.1]
  obtain ⟨q, h1, h2, h3⟩ := loop_inv (body := fun j p => do
      let w ← vget sa j
      let row ← vget p j
      let row' ← diffRow (1 / width) w row
      vset p j row') (lo := 0) (n := n2) (s := p)
    (fun J q => Shape q n1 n2 ∧ ∀ j < n2, ∀ i < n1, pix q j i = if j < J then pix p j i * (1 / width / pix sa j i) else pix p j i)
    ⟨hp, fun j _ i _ => by rw [if_neg (by omega)]⟩ (by
      rintro J q - hJ ⟨g1, g2⟩
      rw [Nat.zero_add] at hJ
      obtain ⟨row, -, a1, a2, a3⟩ := g1.row hJ
      obtain ⟨sr, -, b1, b2, b3⟩ := hs.row hJ
      obtain ⟨r, r1, r2, r3⟩ := diffRow_eq (f := 1 / width) (sa := sr) (row := row) (by omega)
        (fun i hi => by rw [← b3]; exact hne J hJ i (by omega))
      refine ⟨q.set J r, ?_, g1.set (by omega), fun j hj i hi => ?_⟩
      · rw [b1, Res.bind_ok, a1, Res.bind_ok, r1, Res.bind_ok, vset_lt _ _ _ (by rw [g1.1]; exact hJ)]
      · rw [pix_set g1 hJ]
        by_cases hc : j = J
        · subst hc
          rw [if_pos rfl, if_pos (by omega), r3 i (by omega), ← a3, ← b3, g2 j hj i hi, if_neg (by omega)]
        · rw [if_neg hc, g2 j hj i hi]
          by_cases hc2 : j < J
          · rw [if_pos hc2, if_pos (by omega)]
          · rw [if_neg hc2, if_neg (by omega)])
  exact ⟨q, h1, h2, fun j hj i hi => by rw [h3 j hj i hi, if_pos (by omega)]⟩

/-- A list of planes of one shape with given pixels. -/
def Planes (im : List Plane) (n n1 n2 : Nat) (v : Nat → Nat → Nat → ℝ) : Prop :=
  im.length = n ∧ ∀ k < n, ∃ p, im[k]? = some p ∧ Shape p n1 n2 ∧ ∀ j < n2, ∀ i < n1, pix p j i = v k j i

theorem toDifferential_eq {im : List Plane} {widths : List ℝ} {sa : Plane} {n n1 n2 : Nat} {v : Nat → Nat → Nat → ℝ}
    (h : Planes im n n1 n2 v) (hw : widths.length = n) (hwne : ∀ w ∈ widths, w ≠ 0) (hs : Shape sa n1 n2)
    (hne : ∀ j < n2, ∀ i < n1, pix sa j i ≠ 0) :
    ∃ im', toDifferential im widths sa = .ok im' ∧
      Planes im' n n1 n2 (fun k j i => v k j i * (1 / el widths k / pix sa j i)) := by
  unfold toDifferential
  rw [hw]
  obtain ⟨im', h1, h2, h3⟩ := loop_inv (body := fun k im => do
      let p ← vget im k
      let w ← vget widths k
      let p' ← diffPlane w sa p
      vset im k p') (lo := 0) (n := n) (s := im)
    (fun K im' => im'.length = n ∧ ∀ k < n, ∃ p, im'[k]? = some p ∧ Shape p n1 n2 ∧ ∀ j < n2, ∀ i < n1,
      pix p j i = if k < K then v k j i * (1 / el widths k / pix sa j i) else v k j i)
    ⟨h.1, fun k hk => by
      obtain ⟨p, a, b, c⟩ := h.2 k hk
      exact ⟨p, a, b, fun j hj i hi => by rw [if_neg (by omega), c j hj i hi]⟩⟩ (by
      rintro K im' - hK ⟨g1, g2⟩
      rw [Nat.zero_add] at hK
      obtain ⟨p, a, b, c⟩ := g2 K hK
      have hwk : el widths K ≠ 0 := by
        unfold el
        rw [List.getElem?_eq_getElem (by omega)]
        exact hwne _ (List.getElem_mem _)
      obtain ⟨q, q1, q2, q3⟩ := diffPlane_eq hwk hs b hne
      refine ⟨im'.set K q, ?_, by simp [g1], fun k hk => ?_⟩
      · rw [vget_eq_ok.2 a, Res.bind_ok, vget_el (by omega), Res.bind_ok, q1, Res.bind_ok, vset_lt _ _ _ (by omega)]
      · by_cases hc : k = K
        · subst hc
          refine ⟨q, List.getElem?_set_self (by omega), q2, fun j hj i hi => ?_⟩
          rw [q3 j hj i hi, c j hj i hi, if_neg (by omega), if_pos (by omega)]
        · obtain ⟨p', a', b', c'⟩ := g2 k hk
          refine ⟨p', by rw [List.getElem?_set_ne (by omega), a'], b', fun j hj i hi => ?_⟩
          rw [c' j hj i hi]
          by_cases hc2 : k < K
          · rw [if_pos hc2, if_pos (by omega)]
          · rw [if_neg hc2, if_neg (by omega)])
  refine ⟨im', h1, h2, fun k hk => ?_⟩
  obtain ⟨p, a, b, c⟩ := h3 k hk
  exact ⟨p, a, b, fun j hj i hi => by rw [c j hj i hi, if_pos (by omega)]⟩

/-! ### To counts -/

/-- If each pixel times its width and solid angle is the count of the pixel, the counts come out. -/
theorem toIntegral_eq {out : List ℝ} {im : List Plane} {widths : List ℝ} {sa : Plane} {n n1 n2 : Nat} {v : Nat → Nat → Nat → ℝ}
    (h : Planes im n n1 n2 v) (hw : widths.length = n) (hs : Shape sa n1 n2) (G : Nat → ℝ) (ho : out.length = n * n2 * n1)
    (hG : ∀ k < n, ∀ j < n2, ∀ i < n1, v k j i * el widths k * pix sa j i = G ((k * n2 + j) * n1 + i)) :
    ∃ o, toIntegral out im widths sa = .ok o ∧ o.length = out.length ∧ ∀ q < out.length, el o q = G q := by
  unfold toIntegral
  rw [hw, hs.1]
  obtain ⟨st, h1, h2, h3, h4⟩ := loop_inv (body := fun k st => do
      let p ← vget im k
      let f ← vget widths k
      loop (fun j st => do
        let w ← vget sa j
        let row ← vget p j
        loop (fun i (st : List ℝ × Nat) => do
          let v ← vget row i
          let s ← vget w i
          let o ← vset st.1 st.2 (v * f * s)
          .ok (o, st.2 + 1)) 0 row.length st) 0 n2 st) (lo := 0) (n := n) (s := (out, 0))
    (fun K st => st.1.length = out.length ∧ st.2 = K * n2 * n1 ∧ ∀ q < st.2, el st.1 q = G q)
    ⟨rfl, by simp, fun q hq => by simp at hq⟩ (by
      rintro K st - hK ⟨g1, g2, g3⟩
      rw [Nat.zero_add] at hK
      obtain ⟨p, a, b, c⟩ := h.2 K hK
      obtain ⟨st1, j1, j2, j3, j4⟩ := loop_inv (body := fun j st => do
          let w ← vget sa j
          let row ← vget p j
          loop (fun i (st : List ℝ × Nat) => do
            let v ← vget row i
            let s ← vget w i
            let o ← vset st.1 st.2 (v * el widths K * s)
            .ok (o, st.2 + 1)) 0 row.length st) (lo := 0) (n := n2) (s := st)
        (fun J st => st.1.length = out.length ∧ st.2 = (K * n2 + J) * n1 ∧ ∀ q < st.2, el st.1 q = G q)
        ⟨g1, by rw [g2, Nat.add_zero], g3⟩ (by
          rintro J st - hJ ⟨e1, e2, e3⟩
          rw [Nat.zero_add] at hJ
          obtain ⟨row, -, a1, a2, a3⟩ := b.row hJ
          obtain ⟨sr, -, b1, b2, b3⟩ := hs.row hJ
          obtain ⟨st2, i1, i2, i3, i4⟩ := loop_inv (body := fun i (st : List ℝ × Nat) => do
              let v ← vget row i
              let s ← vget sr i
              let o ← vset st.1 st.2 (v * el widths K * s)
              .ok (o, st.2 + 1)) (lo := 0) (n := n1) (s := st)
            (fun I st => st.1.length = out.length ∧ st.2 = (K * n2 + J) * n1 + I ∧ ∀ q < st.2, el st.1 q = G q)
            ⟨e1, by rw [e2, Nat.add_zero], e3⟩ (by
              rintro I st - hI ⟨f1, f2, f3⟩
              rw [Nat.zero_add] at hI
              have hlt : st.2 < st.1.length := by
                rw [f1, f2, ho]
                exact Vec.idx_lt hI (Vec.idx_lt hJ hK)
              have hval : el row I * el widths K * el sr I = G ((K * n2 + J) * n1 + I) := by
                rw [← a3, ← b3, c J hJ I hI]
                exact hG K hK J hJ I hI
              refine ⟨(st.1.set st.2 (G ((K * n2 + J) * n1 + I)), st.2 + 1), ?_, by simp [f1], by simp [f2, Nat.add_assoc], fun q hq => ?_⟩
              · rw [vget_el (by omega), Res.bind_ok, vget_el (by omega), Res.bind_ok, hval, vset_lt _ _ _ hlt, Res.bind_ok]
              · simp only [] at hq ⊢
                rw [el_set hlt]
                by_cases hc : q = st.2
                · rw [if_pos hc, hc, f2]
                · rw [if_neg hc, f3 q (by omega)])
          refine ⟨st2, ?_, i2, by rw [i3]; ring, i4⟩
          rw [b1, Res.bind_ok, a1, Res.bind_ok, a2]
          exact i1)
      refine ⟨st1, ?_, j2, by rw [j3]; ring, j4⟩
      rw [vget_eq_ok.2 a, Res.bind_ok, vget_el (by omega), Res.bind_ok]
      exact j1)
  refine ⟨st.1, ?_, h2, fun q hq => h4 q ?_⟩
  · rw [h1, Res.bind_ok]
  · rw [h3, Nat.zero_add, ← ho]; exact hq

end Verif.MapInt
