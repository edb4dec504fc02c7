import Verif.Accum.Spec
import Mathlib.Algebra.BigOperators.Group.List.Basic
import Mathlib.Tactic.Linarith
import Mathlib.Tactic.Ring
import Mathlib.Tactic.FieldSimp
/- Helper lemmas for the accumulators. -/
namespace Verif.Accum

theorem foldl_add (l : List ℝ) (a : ℝ) : l.foldl (· + ·) a = a + l.sum := by
  induction l generalizing a with
  | nil => simp
  | cons x xs ih => simp [ih, add_assoc]

theorem kahan_run (s : Kahan) (h : s.c = 0) (cs : List Call) : s.run cs = sums s.sum cs := by
  induction cs generalizing s with
  | nil => rfl
  | cons c cs ih =>
    cases c with
    | add v =>
      simp only [Kahan.run, sums]
      rw [ih (s.add v) (by simp [Kahan.add, h])]
      simp [Kahan.add, h]
    | total => simp only [Kahan.run, sums]; rw [ih _ rfl]; rfl

theorem sbn_add {p : SumByNumber} (hp : p.chunks ≠ []) (v : ℝ) :
    ∃ p', p.add v = .ok p' ∧ p'.chunks ≠ [] ∧ p'.chunks.sum = p.chunks.sum + v := by
  obtain ⟨b, hb⟩ : ∃ b, p.chunks.getLast? = some b := by
    cases h : p.chunks.getLast? with
    | none => simp [List.getLast?_eq_none_iff] at h; exact absurd h hp
    | some b => exact ⟨b, rfl⟩
  have hs : p.chunks = p.chunks.dropLast ++ [b] := by
    obtain ⟨l, hl⟩ := List.getLast?_eq_some_iff.1 hb
    rw [hl]; simp
  have hsum : p.chunks.sum = p.chunks.dropLast.sum + b := by
    conv => lhs; rw [hs]
    simp
  simp only [SumByNumber.add, hb]
  split
  · exact ⟨_, rfl, by simp, by simp [hsum]; ring⟩
  · exact ⟨_, rfl, by simp, by simp [hsum]; ring⟩

/-- Sum of everything held in the partial sums. -/
noncomputable def held (ps : List SumByNumber) : ℝ := (ps.map (fun p => p.chunks.sum)).sum

theorem held_set (ps : List SumByNumber) (i : Nat) (p' : SumByNumber) (h : i < ps.length) :
    held (ps.set i p') = held ps - ps[i].chunks.sum + p'.chunks.sum := by
  induction ps generalizing i with
  | nil => simp at h
  | cons q qs ih =>
    cases i with
    | zero => simp [held, add_comm]
    | succ i =>
      have := ih i (by simpa using h)
      simp only [held, List.set_cons_succ, List.map_cons, List.sum_cons,
        List.getElem_cons_succ] at *
      rw [this]; ring

/-- The bounds, when set, are positive and ordered. -/
def BoundsOk (s : Acc) : Prop :=
  s.npts = 10 ∧ 0 ≤ s.maxXrange ∧
  ((s.setOuter = true ∧ s.bounds = none) ∨
   (s.setOuter = false ∧ ∃ a b, s.bounds = some (a, b) ∧ 0 < a ∧ a ≤ b))

/-- Invariant: the state holds the current sum `cur`. -/
def AccInv (s : Acc) (cur : ℝ) : Prop :=
  BoundsOk s ∧
  ((s.first = true ∧ s.total = cur ∧ s.partials = [] ∧ (s.setOuter = true → cur = 0)) ∨
   (s.first = false ∧ s.partials.length = 10 ∧ (∀ p ∈ s.partials, p.chunks ≠ []) ∧
    held s.partials = cur ∧ (s.setOuter = true → cur = 0)))

theorem init_inv : AccInv Acc.init 0 := by
  refine ⟨⟨rfl, by norm_num [Acc.init], Or.inl ⟨rfl, rfl⟩⟩, Or.inl ⟨rfl, rfl, rfl, fun _ => rfl⟩⟩

theorem held_fresh (n : Nat) : held (vresize [] n SumByNumber.init) = 0 := by
  simp [held, vresize, SumByNumber.init]

theorem fresh_ne (n : Nat) : ∀ p ∈ vresize [] n SumByNumber.init, p.chunks ≠ [] := by
  intro p hp
  simp only [vresize, List.take_nil, List.nil_append] at hp
  rw [List.eq_of_mem_replicate hp]; simp [SumByNumber.init]

theorem getTotal_inv {s : Acc} {cur : ℝ} (h : AccInv s cur) :
    s.getTotal.2 = cur ∧ AccInv s.getTotal.1 0 := by
  obtain ⟨hb, h⟩ := h
  have hn := hb.1
  rcases h with ⟨hf, ht, hp, hs⟩ | ⟨hf, hl, hne, hh, hs⟩
  · simp only [Acc.getTotal, hf, if_true]
    refine ⟨ht, hb, Or.inr ⟨rfl, by simp [hn], ?_, ?_, fun _ => rfl⟩⟩
    · rw [hp]; exact fresh_ne _
    · simp only [hp]; exact held_fresh _
  · simp only [Acc.getTotal, hf, Bool.false_eq_true, if_false]
    refine ⟨?_, hb, Or.inr ⟨rfl, by simp [hn], fresh_ne _, held_fresh _, fun _ => rfl⟩⟩
    rw [foldl_add, zero_add, (List.mergeSort_perm _ _).sum_eq]
    rw [← hh, held]
    congr 2
    funext p
    simp [SumByNumber.total, foldl_add]

theorem indx_ok {s : Acc} {a b x : ℝ} (hn : s.npts = 10) (hl : s.partials.length = 10)
    (ha : 0 < a) : ∃ i, s.indx a b x = .ok i ∧ i < s.partials.length := by
  unfold Acc.indx
  split
  · exact ⟨0, rfl, by omega⟩
  · split
    · exact ⟨_, rfl, by omega⟩
    · rename_i h1 h2
      push Not at h1 h2
      have hlt : (⌊(Real.log x - Real.log a) / ((Real.log b - Real.log a) / (s.npts - 1 : ℝ))⌋₊) <
          s.partials.length := by
        have hx : 0 < x := ha.trans h1
        have l1 : Real.log a < Real.log x := Real.log_lt_log ha h1
        have l2 : Real.log x < Real.log b := Real.log_lt_log hx h2
        rw [hl, hn]
        apply (Nat.floor_lt' (by norm_num)).2
        rw [div_div_eq_mul_div, div_lt_iff₀ (by linarith)]
        push_cast
        nlinarith
      exact ⟨_, by simp only [hlt, if_true], hlt⟩

theorem updateBounds_inv {s : Acc} {cur v : ℝ} (h : AccInv s cur)
    (hz : s.setOuter = true → v ≠ 0) :
    ∃ s', s.updateBounds v = .ok s' ∧ AccInv s' cur ∧ s'.setOuter = false := by
  obtain ⟨⟨hn, hm, hb⟩, h⟩ := h
  rcases hb with ⟨hso, hbn⟩ | ⟨hso, a, b, hbn, ha, hab⟩
  · have hv : |v| ≠ 0 := abs_ne_zero.2 (hz hso)
    have hv0 : 0 < |v| := abs_pos.2 (hz hso)
    simp only [Acc.updateBounds, hso, hv, ne_eq, not_false_eq_true, and_self, if_true]
    refine ⟨_, rfl, ⟨⟨hn, hm, Or.inr ⟨rfl, _, _, rfl, hv0, le_refl _⟩⟩, ?_⟩, rfl⟩
    rcases h with ⟨hf, ht, hp, hs⟩ | ⟨hf, hl, hne, hh, hs⟩
    · exact Or.inl ⟨hf, (hs hso).symm, hp, by simp⟩
    · exact Or.inr ⟨hf, hl, hne, hh, by simp⟩
  · simp only [Acc.updateBounds, hso, hbn, Bool.false_eq_true, false_and, if_false]
    refine ⟨_, rfl, ⟨⟨hn, hm, Or.inr ⟨rfl, _, _, rfl, ?_, ?_⟩⟩, ?_⟩, rfl⟩
    · split
      · rename_i hc; exact lt_of_le_of_ne (abs_nonneg v) (Ne.symm hc.2.1)
      · exact ha
    · split
      · rename_i hc
        split
        · exact le_refl _
        · linarith
      · split
        · linarith
        · exact hab
    · rcases h with ⟨hf, ht, hp, hs⟩ | ⟨hf, hl, hne, hh, hs⟩
      · exact Or.inl ⟨hf, ht, hp, by simp⟩
      · exact Or.inr ⟨hf, hl, hne, hh, by simp⟩

theorem add_inv {s : Acc} {cur v : ℝ} (h : AccInv s cur) (hz : s.setOuter = true → v ≠ 0) :
    ∃ s', s.add v = .ok s' ∧ AccInv s' (cur + v) ∧ s'.setOuter = false := by
  obtain ⟨s1, hs1, ⟨hb1, h1⟩, hso⟩ := updateBounds_inv h hz
  obtain ⟨hn, hm, hb⟩ := hb1
  rcases hb with ⟨hso', _⟩ | ⟨_, a, b, hbn, ha, hab⟩
  · rw [hso] at hso'; cases hso'
  simp only [Acc.add, hs1, Res.bind_ok]
  rcases h1 with ⟨hf, ht, hp, hs⟩ | ⟨hf, hl, hne, hh, hs⟩
  · simp only [hf, if_true]
    refine ⟨_, rfl, ⟨⟨hn, hm, Or.inr ⟨hso, a, b, hbn, ha, hab⟩⟩,
      Or.inl ⟨rfl, by simp [ht], hp, by simp [hso]⟩⟩, hso⟩
  · obtain ⟨i, hi, hil⟩ := indx_ok (b := b) (x := |v|) hn hl ha
    obtain ⟨p', hp', hpne, hps⟩ := sbn_add (hne _ (List.getElem_mem hil)) v
    simp only [hf, hbn, hi, Res.bind_ok, vget_lt _ _ hil, hp', vset_lt _ _ _ hil,
      Bool.false_eq_true, if_false]
    refine ⟨_, rfl, ⟨⟨hn, hm, Or.inr ⟨hso, a, b, rfl, ha, hab⟩⟩,
      Or.inr ⟨rfl, by simp [hl], ?_, ?_, by simp [hso]⟩⟩, hso⟩
    · intro q hq
      rcases List.mem_or_eq_of_mem_set hq with hq | rfl
      · exact hne q hq
      · exact hpne
    · rw [held_set _ _ _ hil, hps, hh]; ring

theorem run_inv {s : Acc} {cur : ℝ} (h : AccInv s cur) (cs : List Call)
    (hz : s.setOuter = true → ¬ FirstAddZero cs) : s.run cs = .ok (sums cur cs) := by
  induction cs generalizing s cur with
  | nil => rfl
  | cons c cs ih =>
    cases c with
    | add v =>
      obtain ⟨s', h1, h2, h3⟩ := add_inv h (fun hs => hz hs)
      simp only [Acc.run, h1, Res.bind_ok, sums]
      exact ih h2 (by simp [h3])
    | total =>
      obtain ⟨h1, h2⟩ := getTotal_inv h
      have hso : s.getTotal.1.setOuter = s.setOuter := by unfold Acc.getTotal; split <;> rfl
      simp only [Acc.run, sums]
      rw [ih h2 (by rw [hso]; exact hz)]
      simp [h1]

theorem run_firstAddZero {s : Acc} {cur : ℝ} (h : AccInv s cur) (hs : s.setOuter = true)
    (cs : List Call) (hz : FirstAddZero cs) : s.run cs = .ub := by
  induction cs generalizing s cur with
  | nil => exact hz.elim
  | cons c cs ih =>
    cases c with
    | add v =>
      have hv : v = 0 := hz
      obtain ⟨⟨_, _, hb⟩, _⟩ := h
      rcases hb with ⟨_, hbn⟩ | ⟨hso, _⟩
      · simp [Acc.run, Acc.add, Acc.updateBounds, hv, hbn]
      · rw [hs] at hso; cases hso
    | total =>
      obtain ⟨_, h2⟩ := getTotal_inv h
      have hso : s.getTotal.1.setOuter = s.setOuter := by unfold Acc.getTotal; split <;> rfl
      simp only [Acc.run]
      rw [ih h2 (by rw [hso, hs]) hz]; rfl

end Verif.Accum
