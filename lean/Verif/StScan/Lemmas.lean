import Verif.StScan.Model
import Verif.StScan.Spec
import Verif.Energy.Lemmas
import Mathlib.Tactic.Linarith
import Mathlib.Tactic.FieldSimp
import Mathlib.Tactic.Ring
/-
Lemmas for C133.
-/
set_option linter.unusedSectionVars false
set_option linter.unusedSimpArgs false
set_option linter.unusedVariables false
namespace Verif.StScan
open Vec Spec

theorem Spec.Frame.refl (ps : List Par) : Frame ps ps := by
  refine ⟨rfl, fun j p q h1 h2 => ?_⟩
  rw [h1] at h2
  cases h2
  exact ⟨rfl, rfl, rfl, fun _ => rfl⟩

theorem Spec.Frame.trans {ps qs rs : List Par} (h : Frame ps qs) (h' : Frame qs rs) : Frame ps rs := by
  refine ⟨h'.1.trans h.1, fun j p r h1 h2 => ?_⟩
  obtain ⟨q, hq⟩ : ∃ q, qs[j]? = some q := by
    have : j < qs.length := by rw [h.1]; exact (List.getElem?_eq_some_iff.1 h1).1
    exact ⟨_, List.getElem?_eq_getElem this⟩
  obtain ⟨a1, a2, a3, a4⟩ := h.2 j p q h1 hq
  obtain ⟨b1, b2, b3, b4⟩ := h'.2 j q r hq h2
  exact ⟨b1.trans a1, b2.trans a2, b3.trans a3, fun e => (b4 (a3.trans e)).trans (a4 e)⟩

theorem Spec.Frame.some {ps qs : List Par} (h : Frame ps qs) {j : Nat} {p : Par} (hp : ps[j]? = some p) :
    ∃ q, qs[j]? = some q ∧ q.lo = p.lo ∧ q.hi = p.hi ∧ q.free = p.free ∧ (p.free = false → q.value = p.value) := by
  have : j < qs.length := by rw [h.1]; exact (List.getElem?_eq_some_iff.1 hp).1
  exact ⟨_, List.getElem?_eq_getElem this, h.2 j p _ hp (List.getElem?_eq_getElem this)⟩

theorem flagged_eq (ps : List Par) (i : Nat) (b : Bool) : setFree ps i b = flagged ps i b := rfl

theorem flagged_get {ps : List Par} {i : Nat} {p : Par} (b : Bool) (h : ps[i]? = some p) :
    (flagged ps i b)[i]? = some { p with free := b } := by
  unfold flagged
  rw [List.getElem?_modify, h]
  simp

theorem flagged_ne {ps : List Par} {i j : Nat} (b : Bool) (h : i ≠ j) : (flagged ps i b)[j]? = ps[j]? := by
  unfold flagged
  rw [List.getElem?_modify]
  simp [h]

theorem flagged_length (ps : List Par) (i : Nat) (b : Bool) : (flagged ps i b).length = ps.length := by
  unfold flagged; simp

/-- The signal at another value. -/
theorem frame_set {base qs : List Par} {i : Nat} {p : Par} (hi : i < base.length) (hp : p.free = false) {x : ℝ}
    (h : Frame (base.set i { p with value := x }) qs) (y : ℝ) :
    ∃ q, qs[i]? = some q ∧ q.lo = p.lo ∧ q.hi = p.hi ∧ q.free = false ∧ q.value = x ∧
      Frame (base.set i { p with value := y }) (qs.set i { q with value := y }) := by
  have hb : (base.set i { p with value := x })[i]? = some { p with value := x } := by rw [List.getElem?_set]; simp [hi]
  obtain ⟨q, q1, q2, q3, q4, q5⟩ := h.some hb
  have hiq : i < qs.length := (List.getElem?_eq_some_iff.1 q1).1
  refine ⟨q, q1, q2, q3, q4.trans hp, q5 hp, ?_, ?_⟩
  · have := h.1
    simpa using this
  · intro j a b h1 h2
    by_cases e : i = j
    · subst e
      rw [List.getElem?_set] at h1 h2
      simp [hi] at h1
      simp [hiq] at h2
      subst h1 h2
      exact ⟨q2, q3, q4, fun _ => rfl⟩
    · rw [List.getElem?_set_ne e] at h1 h2
      exact h.2 j a b (by rw [List.getElem?_set_ne e]; exact h1) h2

theorem points_ok (f : Fitter) (hf : Respects f) (nfree i : Nat) (base : List Par) (p : Par) (hi : i < base.length) (hp : p.free = false) :
    ∀ (xs : List ℝ) (st : St) (v : ℝ), Frame (base.set i { p with value := v }) st.pars → (∀ x ∈ xs, p.lo ≤ x ∧ x ≤ p.hi) →
      ∃ s ls, points f nfree i xs st = (s, some ls) ∧ s.klims = st.klims ∧ ls.length = xs.length ∧
        (∀ (j : Nat) (x : ℝ), xs[j]? = some x → ∃ qs, Frame (base.set i { p with value := x }) qs ∧
          ls[j]? = some (f.value st.klims (qs.map (·.value))) ∧
          (nfree ≤ 1 → st.pars = base.set i { p with value := v } → qs = base.set i { p with value := x })) ∧
        ∃ w, Frame (base.set i { p with value := w }) s.pars ∧ ∀ x, xs.getLast? = some x → w = x
  | [], st, v, h, _ => ⟨st, [], rfl, rfl, rfl, fun j x hx => by simp at hx, v, h, fun x hx => by simp at hx⟩
  | x :: xs, st, v, h, hb => by
    obtain ⟨q, q1, q2, q3, q4, q5, q6⟩ := frame_set hi hp h x
    obtain ⟨b1, b2⟩ := hb x (by simp)
    have hset : setValue st.pars i x = some (st.pars.set i { q with value := x }) := by
      unfold setValue
      rw [q1]
      simp only
      rw [if_pos ⟨by rw [q2]; exact b1, by rw [q3]; exact b2⟩]
    set ps := st.pars.set i { q with value := x } with hps
    set qs := (if 1 < nfree then f.reminimize st.klims ps else ps) with hqs
    have hqf : Frame (base.set i { p with value := x }) qs := by
      rw [hqs]
      split
      · exact q6.trans (hf.reminimize _ _)
      · exact q6
    obtain ⟨s, ls, r1, r2, r3, r4, w, r5, r6⟩ := points_ok f hf nfree i base p hi hp xs ⟨qs, st.klims⟩ x hqf (fun y hy => hb y (by simp [hy]))
    have hexact : nfree ≤ 1 → st.pars = base.set i { p with value := v } → qs = base.set i { p with value := x } := by
      intro h1 h2
      rw [hqs, if_neg (by omega), hps, h2]
      have : q = { p with value := v } := by
        rw [h2, List.getElem?_set] at q1
        simp [hi] at q1
        exact q1.symm
      rw [this, List.set_set]
    refine ⟨s, f.value st.klims (qs.map (·.value)) :: ls, ?_, r2, by simp [r3], ?_, w, r5, ?_⟩
    · rw [points, hset]
      simp only
      rw [← hqs, r1]
      rfl
    · intro j y hy
      cases j with
      | zero =>
        simp at hy
        subst hy
        exact ⟨qs, hqf, rfl, hexact⟩
      | succ j =>
        rw [List.getElem?_cons_succ] at hy
        obtain ⟨rs, t1, t2, t3⟩ := r4 j y hy
        exact ⟨rs, t1, by rw [List.getElem?_cons_succ]; exact t2, fun h1 h2 => t3 h1 (hexact h1 h2)⟩
    · intro y hy
      cases xs with
      | nil =>
        simp at hy
        have : points f nfree i [] ⟨qs, st.klims⟩ = (⟨qs, st.klims⟩, some []) := rfl
        rw [this] at r1
        cases r1
        have hb : (base.set i { p with value := w })[i]? = some { p with value := w } := by rw [List.getElem?_set]; simp [hi]
        have hb' : (base.set i { p with value := x })[i]? = some { p with value := x } := by rw [List.getElem?_set]; simp [hi]
        obtain ⟨c, c1, _, _, _, c2⟩ := r5.some hb
        obtain ⟨d, d1, _, _, _, d2⟩ := hqf.some hb'
        simp only at c1
        rw [c1] at d1
        cases d1
        have e1 := c2 hp
        have e2 := d2 hp
        simp only at e1 e2
        rw [← e1, e2, hy]
      | cons z zs =>
        rw [List.getLast?_cons_cons] at hy
        exact r6 y hy

theorem points_thrown (f : Fitter) (hf : Respects f) (nfree i : Nat) (base : List Par) (p : Par) (hi : i < base.length) (hp : p.free = false) :
    ∀ (xs : List ℝ) (st : St) (v : ℝ), Frame (base.set i { p with value := v }) st.pars → (∃ x ∈ xs, ¬ (p.lo ≤ x ∧ x ≤ p.hi)) →
      ∃ s, points f nfree i xs st = (s, none) ∧ s.klims = st.klims ∧ ∃ w, Frame (base.set i { p with value := w }) s.pars
  | [], st, v, h, hb => by obtain ⟨x, hx, _⟩ := hb; simp at hx
  | x :: xs, st, v, h, hb => by
    obtain ⟨q, q1, q2, q3, q4, q5, q6⟩ := frame_set hi hp h x
    by_cases c : p.lo ≤ x ∧ x ≤ p.hi
    · have hset : setValue st.pars i x = some (st.pars.set i { q with value := x }) := by
        unfold setValue
        rw [q1]
        simp only
        rw [if_pos ⟨by rw [q2]; exact c.1, by rw [q3]; exact c.2⟩]
      set ps := st.pars.set i { q with value := x } with hps
      set qs := (if 1 < nfree then f.reminimize st.klims ps else ps) with hqs
      have hqf : Frame (base.set i { p with value := x }) qs := by
        rw [hqs]
        split
        · exact q6.trans (hf.reminimize _ _)
        · exact q6
      have hb' : ∃ x ∈ xs, ¬ (p.lo ≤ x ∧ x ≤ p.hi) := by
        obtain ⟨y, hy, hy'⟩ := hb
        rcases List.mem_cons.1 hy with e | e
        · rw [e] at hy'; exact absurd c hy'
        · exact ⟨y, e, hy'⟩
      obtain ⟨s, r1, r2, r3⟩ := points_thrown f hf nfree i base p hi hp xs ⟨qs, st.klims⟩ x hqf hb'
      refine ⟨s, ?_, r2, r3⟩
      rw [points, hset]
      simp only
      rw [← hqs, r1]
      rfl
    · have hset : setValue st.pars i x = none := by
        unfold setValue
        rw [q1]
        simp only
        rw [if_neg (by rw [q2, q3]; exact c)]
      refine ⟨st, ?_, rfl, v, h⟩
      rw [points, hset]

theorem countFree_ok (unc : List ℝ) : ∀ (ps : List Par) (n : Nat), n + ps.countP (·.free) ≤ unc.length →
    countFree unc ps n = .ok (n + ps.countP (·.free))
  | [], n, _ => by simp [countFree]
  | p :: ps, n, h => by
    rw [List.countP_cons] at h ⊢
    rw [countFree]
    cases hf : p.free
    · rw [hf] at h
      simp only [Bool.false_eq_true, if_false, add_zero] at h ⊢
      exact countFree_ok unc ps n h
    · rw [hf] at h
      simp only [if_true] at h ⊢
      rw [vget_lt _ _ (by omega), Res.bind_ok, countFree_ok unc ps (n + 1) (by omega)]
      congr 1
      omega

theorem frame_countP {ps qs : List Par} (h : Frame ps qs) : qs.countP (·.free) = ps.countP (·.free) := by
  have e : qs.map (·.free) = ps.map (·.free) := by
    apply List.ext_getElem?
    intro j
    rw [List.getElem?_map, List.getElem?_map]
    rcases hp : ps[j]? with _ | p
    · have : ps.length ≤ j := List.getElem?_eq_none_iff.1 hp
      rw [List.getElem?_eq_none (by rw [h.1]; exact this)]
    · obtain ⟨q, q1, _, _, q4, _⟩ := h.some hp
      rw [q1]
      simp [q4]
  have c : ∀ l : List Par, l.countP (·.free) = (l.map (·.free)).countP id := by
    intro l
    rw [List.countP_map]; rfl
  rw [c, c, e]

end Verif.StScan
