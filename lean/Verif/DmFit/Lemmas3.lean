import Verif.DmFit.Lemmas2

set_option linter.unusedSimpArgs false
set_option linter.unusedVariables false

/-!
# Lemmas on the table
-/

namespace Verif.DmFit

open Vec Spec

theorem loop_or {σ : Type _} {body : Nat → σ → Res σ} (P : Nat → σ → Prop) {lo n : Nat} {s : σ}
    (h0 : P lo s)
    (hstep : ∀ i s, lo ≤ i → i < lo + n → P i s →
      body i s = .throws ∨ ∃ s', body i s = .ok s' ∧ P (i + 1) s') :
    loop body lo n s = .throws ∨ ∃ s', loop body lo n s = .ok s' ∧ P (lo + n) s' := by
  induction n generalizing lo s with
  | zero => exact Or.inr ⟨s, rfl, h0⟩
  | succ n ih =>
    rw [loop]
    rcases hstep lo s le_rfl (by omega) h0 with h | ⟨s1, h1, h2⟩
    · rw [h]; exact Or.inl rfl
    · rw [h1, Res.bind_ok]
      have := ih (lo := lo + 1) h2 (fun i s hi hi' => hstep i s (by omega) (by omega))
      rwa [show lo + 1 + n = lo + (n + 1) by omega] at this

theorem write_ok (m : Mem) (i : Int) (x : ℝ) (h : 0 ≤ i ∧ i < 72576) :
    write m i x = .ok (Function.update m i x) := by
  unfold write; rw [if_pos h]

theorem read_ok (m : Mem) (i : Int) (h : 0 ≤ i ∧ i < 72576) : read m i = .ok (m i) := by
  unfold read; rw [if_pos h]

theorem clear_ok (m : Mem) : ∃ m', clear m = .ok m' := by
  unfold clear
  obtain ⟨s', h, -⟩ := loop_inv (fun _ _ => True) (lo := 1) (n := 12) (s := m)
    (body := fun j m => loop (fun k m => loop (fun l m => write m (cell l k j) 0) 0 251 m) 1 24 m)
    trivial (by
      intro j s hj hj' _
      obtain ⟨s', h, -⟩ := loop_inv (fun _ _ => True) (lo := 1) (n := 24) (s := s)
        (body := fun k m => loop (fun l m => write m (cell l k j) 0) 0 251 m) trivial (by
          intro k s hk hk' _
          obtain ⟨s', h, -⟩ := loop_inv (fun _ _ => True) (lo := 0) (n := 251) (s := s)
            (body := fun l m => write m (cell l k j) 0) trivial (by
              intro l s hl hl' _
              exact ⟨_, write_ok _ _ _ (by unfold cell; omega), trivial⟩)
          exact ⟨s', h, trivial⟩)
      exact ⟨s', h, trivial⟩)
  exact ⟨s', h⟩

/-- The place of a number in the array, by the number of the line. -/
theorem cell_eq (l : Int) (k j : ℕ) (hk : 1 ≤ k) (hj : 1 ≤ j) :
    cell l k j = l + 1 + (((j - 1) * 24 + (k - 1) : ℕ) : Int) * 252 := by
  unfold cell
  push_cast
  rw [Int.natCast_sub hj, Int.natCast_sub hk]
  push_cast
  ring

theorem fill_ok (row : List ℝ) (hr : row.length = 250) (k j : ℕ) (hk : 1 ≤ k) (hk' : k ≤ 24)
    (hj : 1 ≤ j) (hj' : j ≤ 12) (m : Mem) :
    ∃ m', fill row k j m = .ok m' ∧ (∀ l : ℕ, l < 250 → m' (cell l k j) = val row l) ∧
      ∀ c, (∀ l : ℕ, l < 250 → c ≠ cell l k j) → m' c = m c := by
  unfold fill
  obtain ⟨m', h1, h2, h3⟩ := loop_inv (lo := 0) (n := 250) (s := m)
    (body := fun l m => do
      let x ← vget row l
      write m (cell l k j) x)
    (fun n m' => (∀ l : ℕ, l < n → m' (cell l k j) = val row l) ∧
      ∀ c, (∀ l : ℕ, l < 250 → c ≠ cell l k j) → m' c = m c)
    ⟨fun l h => absurd h (by omega), fun _ _ => rfl⟩ (by
      rintro l s hl hl' ⟨a, b⟩
      rw [vget_val (by omega), Res.bind_ok, write_ok _ _ _ (by unfold cell; omega)]
      refine ⟨_, rfl, ?_, ?_⟩
      · intro l' h
        by_cases e : l' = l
        · subst e; rw [Function.update_self]
        · rw [Function.update_of_ne (by unfold cell; omega)]
          exact a l' (by omega)
      · intro c h
        rw [Function.update_of_ne (h l (by omega))]
        exact b c h)
  exact ⟨m', h1, fun l h => h2 l (by omega), h3⟩

theorem readList_ok (n : ℕ) (r : List ℝ) (rs : Lines) (h : n ≤ r.length) :
    readList n (r :: rs) = some (r.take n, rs) := by
  simp [readList, h]

/-- The first lines are in the table. -/
def Upto (file : Lines) (n : ℕ) (s : Mem × Lines) : Prop :=
  s.2 = file.drop n ∧ ∀ q : ℕ, q < n → ∀ l : ℕ, l < 250 →
    s.1 (l + 1 + (q : Int) * 252) = val (file[q]?.getD []) l

theorem readOne_ok {file : Lines} (hf : ∀ r ∈ file, 250 ≤ r.length) {k j : ℕ} (hk : 1 ≤ k)
    (hk' : k ≤ 24) (hj : 1 ≤ j) (hj' : j ≤ 12) (hn : (j - 1) * 24 + (k - 1) < file.length)
    {s : Mem × Lines} (h : Upto file ((j - 1) * 24 + (k - 1)) s) :
    ∃ s', readOne k j s = .ok s' ∧ Upto file ((j - 1) * 24 + (k - 1) + 1) s' := by
  obtain ⟨h1, h2⟩ := h
  unfold readOne
  have e : s.2 = file[(j - 1) * 24 + (k - 1)] :: file.drop ((j - 1) * 24 + (k - 1) + 1) := by
    rw [h1]; exact List.drop_eq_getElem_cons hn
  have hr := hf _ (List.getElem_mem hn)
  rw [e, readList_ok _ _ _ hr]
  simp only
  obtain ⟨m', g1, g2, g3⟩ := fill_ok ((file[(j - 1) * 24 + (k - 1)]).take 250) (by simp [hr]) k j hk
    hk' hj hj' s.1
  rw [g1]
  refine ⟨(m', file.drop ((j - 1) * 24 + (k - 1) + 1)), rfl, rfl, ?_⟩
  intro q hq l hl
  by_cases hc : q = (j - 1) * 24 + (k - 1)
  · have := g2 l hl
    rw [cell_eq _ k j hk hj] at this
    subst hc
    refine Eq.trans this ?_
    rw [List.getElem?_eq_getElem hn, Option.getD_some]
    rw [val_lt (by simp; omega), val_lt (by omega)]
    simp
  · simp only
    rw [g3 _ (fun l' hl' => by rw [cell_eq _ k j hk hj]; omega)]
    exact h2 q (by omega) l hl

theorem readAll_ok {file : Lines} (hf : Regular file) (m : Mem) :
    ∃ s', readAll (m, file) = .ok s' ∧ Upto file 288 s' := by
  unfold readAll
  obtain ⟨s', h, h'⟩ := loop_inv (lo := 1) (n := 12) (s := (m, file))
    (body := fun j s => loop (fun k s => readOne k j s) 1 24 s)
    (fun j s => Upto file ((j - 1) * 24) s) ⟨rfl, fun q h => absurd h (by omega)⟩ (by
      intro j s hj hj' hs
      obtain ⟨s', h, h'⟩ := loop_inv (lo := 1) (n := 24) (s := s)
        (body := fun k s => readOne k j s)
        (fun k s => Upto file ((j - 1) * 24 + (k - 1)) s) hs (by
          intro k s hk hk' hs
          obtain ⟨s', h, h'⟩ := readOne_ok hf.2 hk (by omega) hj (by omega)
            (by have := hf.1; omega) hs
          exact ⟨s', h, by rwa [show (j - 1) * 24 + (k + 1 - 1) = (j - 1) * 24 + (k - 1) + 1 by omega]⟩)
      exact ⟨s', h, by rwa [show (j + 1 - 1) * 24 = (j - 1) * 24 + (1 + 24 - 1) by omega]⟩)
  exact ⟨s', h, h'⟩

theorem readAll_short {file : Lines} (hf : ∀ r ∈ file, 250 ≤ r.length) (hl : file.length < 288)
    (m : Mem) : readAll (m, file) = .throws := by
  unfold readAll
  have key := loop_or (lo := 1) (n := 12) (s := (m, file))
    (body := fun j s => loop (fun k s => readOne k j s) 1 24 s)
    (fun j s => (j - 1) * 24 ≤ file.length ∧ Upto file ((j - 1) * 24) s)
    ⟨by omega, rfl, fun q h => absurd h (by omega)⟩ (by
      intro j s hj hj' hs
      have := loop_or (lo := 1) (n := 24) (s := s)
        (body := fun k s => readOne k j s)
        (fun k s => (j - 1) * 24 + (k - 1) ≤ file.length ∧ Upto file ((j - 1) * 24 + (k - 1)) s) hs (by
          rintro k s hk hk' ⟨hs0, hs⟩
          by_cases hn : (j - 1) * 24 + (k - 1) < file.length
          · right
            obtain ⟨s', h, h'⟩ := readOne_ok hf hk (by omega) hj (by omega) hn hs
            exact ⟨s', h, by omega, by
              rwa [show (j - 1) * 24 + (k + 1 - 1) = (j - 1) * 24 + (k - 1) + 1 by omega]⟩
          · left
            unfold readOne
            rw [hs.1, List.drop_eq_nil_of_le (by omega)]
            rfl)
      rcases this with h | ⟨s', h, h0, h'⟩
      · exact Or.inl h
      · exact Or.inr ⟨s', h, by omega, by
          rwa [show (j + 1 - 1) * 24 = (j - 1) * 24 + (1 + 24 - 1) by omega]⟩)
  rcases key with h | ⟨s', h, h0, -⟩
  · exact h
  · omega

theorem number_mid (file : Lines) (s k l : ℕ) (h : l < 250) :
    number file s k l = val (file[s * 24 + k]?.getD []) l := by
  unfold number
  rw [show (max 0 (min 249 (l : Int))).toNat = l by omega]
  rfl

theorem number_low (file : Lines) (s k : ℕ) :
    number file s k (-1) = val (file[s * 24 + k]?.getD []) 0 := rfl

theorem number_high (file : Lines) (s k : ℕ) :
    number file s k 250 = val (file[s * 24 + k]?.getD []) 249 := rfl

/-- The table with the ends of the first spectra. -/
def Ends (file : Lines) (n : ℕ) (m : Mem) : Prop :=
  (∀ q : ℕ, q < 288 → ∀ l : ℕ, l < 250 → m (l + 1 + (q : Int) * 252) = val (file[q]?.getD []) l) ∧
  ∀ q : ℕ, q < n → m ((q : Int) * 252) = val (file[q]?.getD []) 0 ∧
    m (251 + (q : Int) * 252) = val (file[q]?.getD []) 249

theorem endsOne_ok {file : Lines} {k j : ℕ} (hk : 1 ≤ k)
    (hk' : k ≤ 24) (hj : 1 ≤ j) (hj' : j ≤ 12) {m : Mem}
    (h : Ends file ((j - 1) * 24 + (k - 1)) m) :
    ∃ m', endsOne k j m = .ok m' ∧ Ends file ((j - 1) * 24 + (k - 1) + 1) m' := by
  obtain ⟨h1, h2⟩ := h
  unfold endsOne
  obtain ⟨q, hq⟩ : ∃ q, q = (j - 1) * 24 + (k - 1) := ⟨_, rfl⟩
  rw [← hq] at h2 ⊢
  have c1 : ((k : Int) + j * 24) * 252 - 6299 = 1 + (q : Int) * 252 := by omega
  have c2 : ((k : Int) + j * 24) * 252 - 6300 = (q : Int) * 252 := by omega
  have c3 : cell (250 - 1) k j = 250 + (q : Int) * 252 := by
    rw [cell_eq _ k j hk hj, ← hq]; ring
  have c4 : cell 250 k j = 251 + (q : Int) * 252 := by
    rw [cell_eq _ k j hk hj, ← hq]; ring
  rw [c1, c2, c3, c4, read_ok _ _ (by omega), Res.bind_ok, write_ok _ _ _ (by omega), Res.bind_ok,
    read_ok _ _ (by omega), Res.bind_ok, write_ok _ _ _ (by omega)]
  refine ⟨_, rfl, ?_, ?_⟩
  · intro q' hq' l hl
    rw [Function.update_of_ne (by omega), Function.update_of_ne (by omega)]
    exact h1 q' hq' l hl
  · intro q' hq'
    by_cases e : q' = q
    · subst e
      rw [Function.update_of_ne (by omega), Function.update_self, Function.update_self,
        Function.update_of_ne (by omega)]
      have a := h1 q' (by omega) 0 (by omega)
      have b := h1 q' (by omega) 249 (by omega)
      constructor
      · rw [← a]; congr 1
      · rw [← b]; congr 1
    · rw [Function.update_of_ne (by omega), Function.update_of_ne (by omega),
        Function.update_of_ne (by omega), Function.update_of_ne (by omega)]
      exact h2 q' (by omega)

theorem ends_ok {file : Lines} {m : Mem} (h : Ends file 0 m) :
    ∃ m', ends m = .ok m' ∧ Ends file 288 m' := by
  unfold ends
  obtain ⟨s', h, h'⟩ := loop_inv (lo := 1) (n := 12) (s := m)
    (body := fun j s => loop (fun k s => endsOne k j s) 1 24 s)
    (fun j s => Ends file ((j - 1) * 24) s) h (by
      intro j s hj hj' hs
      obtain ⟨s', h, h'⟩ := loop_inv (lo := 1) (n := 24) (s := s)
        (body := fun k s => endsOne k j s)
        (fun k s => Ends file ((j - 1) * 24 + (k - 1)) s) hs (by
          intro k s hk hk' hs
          obtain ⟨s', h, h'⟩ := endsOne_ok hk (by omega) hj (by omega) hs
          exact ⟨s', h, by rwa [show (j - 1) * 24 + (k + 1 - 1) = (j - 1) * 24 + (k - 1) + 1 by omega]⟩)
      exact ⟨s', h, by rwa [show (j + 1 - 1) * 24 = (j - 1) * 24 + (1 + 24 - 1) by omega]⟩)
  exact ⟨s', h, h'⟩

theorem load_ok {file : Lines} (hf : Regular file) (m : Mem) :
    ∃ m', load m file = .ok m' ∧ Holds m' file := by
  obtain ⟨m0, h0⟩ := clear_ok m
  obtain ⟨s, h1, h1'⟩ := readAll_ok hf m0
  obtain ⟨m', h2, h2'⟩ := ends_ok (file := file) (m := s.1)
    ⟨h1'.2, fun q h => absurd h (by omega)⟩
  refine ⟨m', ?_, ?_⟩
  · unfold load
    rw [h0, Res.bind_ok, h1, Res.bind_ok, h2]
  · intro s hs k hk i hi hi'
    have hc : cell i ((k : ℕ) + 1) ((s : ℕ) + 1) = i + 1 + ((s * 24 + k : ℕ) : Int) * 252 := by
      unfold cell; push_cast; ring
    rw [hc]
    obtain ⟨g1, g2⟩ := h2'
    by_cases e1 : i = -1
    · subst e1
      rw [number_low, show (-1 : Int) + 1 + ((s * 24 + k : ℕ) : Int) * 252
        = ((s * 24 + k : ℕ) : Int) * 252 by omega]
      exact (g2 (s * 24 + k) (by omega)).1
    · by_cases e2 : i = 250
      · subst e2
        rw [number_high, show (250 : Int) + 1 + ((s * 24 + k : ℕ) : Int) * 252
          = 251 + ((s * 24 + k : ℕ) : Int) * 252 by omega]
        exact (g2 (s * 24 + k) (by omega)).2
      · obtain ⟨l, rfl⟩ : ∃ l : ℕ, i = l := ⟨i.toNat, by omega⟩
        rw [number_mid _ _ _ _ (by omega)]
        exact g1 (s * 24 + k) (by omega) l (by omega)

theorem load_short {file : Lines} (hf : ∀ r ∈ file, 250 ≤ r.length) (hl : file.length < 288)
    (m : Mem) : load m file = .throws := by
  obtain ⟨m0, h0⟩ := clear_ok m
  unfold load
  rw [h0, Res.bind_ok, readAll_short hf hl]
  rfl

end Verif.DmFit
