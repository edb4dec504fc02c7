import Verif.Vec
import Verif.Files.Model
import Verif.Files.Spec
import Mathlib.Tactic.Ring
set_option linter.unusedSectionVars false
set_option linter.unusedSimpArgs false
set_option linter.unusedVariables false
namespace Verif.Files
open Verif Verif.Vec Spec

theorem top_eq (g : Geo) (k : ℤ) : top g k = Spec.last g.nData k := by
  unfold top Spec.last; split <;> split <;> first | rfl | omega

/-! ### Lists -/

theorem overlay_nil {α : Type} (l : List α) : overlay [] l = l := by simp [overlay]

theorem overlay_length {α : Type} (a b : List α) : (overlay a b).length = max a.length b.length := by
  simp [overlay]; omega

theorem val_overlay (a b : List ℝ) (k : Nat) :
    val (overlay a b) k = if k < b.length then val b k else val a k := by
  unfold overlay val
  by_cases h : k < b.length
  · rw [if_pos h, List.getElem?_append_left h]
  · rw [if_neg h, List.getElem?_append_right (by omega), List.getElem?_drop]
    congr 3
    omega

theorem overlay_of_le {α : Type} {a b : List α} (h : a.length ≤ b.length) : overlay a b = b := by
  simp [overlay, List.drop_of_length_le h]

theorem found_append {α : Type} (h : List (List α)) (m : List α) : found (h ++ [m]) = overlay (found h) m := by
  simp [found, List.foldl_append]

theorem found_length {α : Type} (h : List (List α)) : ∀ n, (∀ m ∈ h, m.length ≤ n) → (found h).length ≤ n := by
  induction h using List.reverseRecOn with
  | nil => intro n _; simp [found]
  | append_singleton h m ih =>
    intro n hn
    rw [found_append, overlay_length]
    have h1 := ih n (fun m hm => hn m (by simp [hm]))
    have h2 := hn m (by simp)
    omega

/-- A history that ends with a longest map is read as that map. -/
theorem found_growing {α : Type} {h : List (List α)} {m : List α} (hg : Growing (h ++ [m])) : found (h ++ [m]) = m := by
  rw [found_append]
  refine overlay_of_le (found_length h _ fun x hx => ?_)
  exact hg m (by simp) x (by simp [hx])

/-- The planes of a list, one after the other, are the list. -/
theorem planes_flat (A : List ℝ) (n : Nat) (f : Nat → Nat → ℝ) : ∀ p, p * n ≤ A.length →
    (∀ k < p, ∀ j < n, f k j = val A (k * n + j)) →
    ((List.range p).flatMap fun k => (List.range n).map (f k)) = A.take (p * n) := by
  intro p
  induction p with
  | zero => intro _ _; simp
  | succ p ih =>
    intro hl hf
    have e : (p + 1) * n = p * n + n := by ring
    rw [List.range_succ, List.flatMap_append, ih (by rw [e] at hl; omega) (fun k hk => hf k (by omega)), e, List.take_add]
    congr 1
    simp only [List.flatMap_cons, List.flatMap_nil, List.append_nil]
    apply List.ext_getElem
    · simp
      rw [e] at hl
      omega
    · intro j h1 h2
      simp only [List.length_map, List.length_range] at h1
      simp only [List.getElem_map, List.getElem_range, List.getElem_take, List.getElem_drop]
      rw [hf p (by omega) j h1, val_lt (by rw [e] at hl; omega)]

/-! ### Cells -/

/-- The columns with the rows below `n` replaced by `w`, where `w` has something for the column. -/
noncomputable def paint (w : Col → Option (Nat → ℝ)) (n : Nat) (x : Col × (Nat → ℝ)) : Col × (Nat → ℝ) :=
  match w x.1 with
  | none => x
  | some v => (x.1, fun i => if i < n then v i else x.2 i)

theorem paint_zero (w : Col → Option (Nat → ℝ)) (l : List (Col × (Nat → ℝ))) : l.map (paint w 0) = l := by
  conv_rhs => rw [← List.map_id l]
  congr 1
  funext x
  unfold paint
  cases w x.1 <;> simp

theorem paint_fst (w : Col → Option (Nat → ℝ)) (n : Nat) (x : Col × (Nat → ℝ)) : (paint w n x).1 = x.1 := by
  unfold paint
  cases w x.1 <;> rfl

/-- What writes one column. -/
def one (c : Col) (v : Nat → ℝ) : Col → Option (Nat → ℝ) := fun d => if d = c then some v else none

theorem paint_one (c : Col) (v : Nat → ℝ) (n : Nat) (x : Col × (Nat → ℝ)) :
    paint (one c v) n x = if x.1 = c then (x.1, fun i => if i < n then v i else x.2 i) else x := by
  unfold paint one
  by_cases h : x.1 = c <;> simp [h]

theorem setCell_one (t : Table) (c : Col) (v : Nat → ℝ) (n : Nat) (m : Nat) :
    setCell { t with nrow := max m n, cols := t.cols.map (paint (one c v) n) } c n (v n) =
      { t with nrow := max m (n + 1), cols := t.cols.map (paint (one c v) (n + 1)) } := by
  unfold setCell
  simp only [List.map_map]
  have e : max (max m n) (n + 1) = max m (n + 1) := by omega
  rw [e]
  congr 2
  funext x
  simp only [Function.comp, paint_one]
  by_cases h : x.1 = c
  · simp only [h, if_true]
    congr 1
    funext i
    by_cases h1 : i = n
    · subst h1
      rw [if_pos rfl, if_pos (by omega)]
    · rw [if_neg h1]
      by_cases h2 : i < n
      · rw [if_pos h2, if_pos (by omega)]
      · rw [if_neg h2, if_neg (by omega)]
  · simp only [h, if_false]

/-- Writing the rows of one column. -/
theorem fill_one (t : Table) (c : Col) (v : Nat → ℝ) (n : Nat) :
    loop (fun i t => .ok (setCell t c i (v i))) 0 n t =
      .ok { t with nrow := max t.nrow n, cols := t.cols.map (paint (one c v) n) } := by
  have h := loop_eq (body := fun i t => .ok (setCell t c i (v i))) (lo := 0) (n := n)
    (fun j => { t with nrow := max t.nrow j, cols := t.cols.map (paint (one c v) j) })
    (fun i _ _ => by rw [setCell_one])
  simp only [paint_zero, Nat.max_zero, Nat.zero_add] at h
  exact h

/-- Writing a plane. -/
theorem plane_ok (g : Geo) (data : List ℝ) (c : Col) (t : Table) (o : Nat) (h : o + g.npix ≤ data.length) :
    writePlane g data c (t, o) =
      .ok ({ t with nrow := max t.nrow g.npix, cols := t.cols.map (paint (one c fun j => val data (o + j)) g.npix) },
        o + g.npix) := by
  unfold writePlane
  have h := loop_eq (body := fun j (s : Table × Nat) => do
      let v ← vget data s.2
      .ok (setCell s.1 c j v, s.2 + 1)) (lo := 0) (n := g.npix)
    (fun j => ({ t with nrow := max t.nrow j, cols := t.cols.map (paint (one c fun j => val data (o + j)) j) }, o + j))
    (fun i _ hi => by
      simp only
      rw [vget_val (by omega), Res.bind_ok]
      rw [← setCell_one (v := fun j => val data (o + j))]
      rfl)
  simp only [paint_zero, Nat.max_zero, Nat.zero_add, Nat.add_zero] at h
  exact h

/-- A plane that does not fit into the values. -/
theorem plane_ub (g : Geo) (data : List ℝ) (c : Col) (t : Table) (o : Nat) (h : data.length < o + g.npix)
    (ho : o ≤ data.length) : writePlane g data c (t, o) = .ub := by
  unfold writePlane
  have key : ∀ n lo (s : Table × Nat), s.2 = o + lo → lo + n = g.npix → s.2 ≤ data.length →
      loop (fun j (s : Table × Nat) => do
        let v ← vget data s.2
        .ok (setCell s.1 c j v, s.2 + 1)) lo n s = .ub := by
    intro n
    induction n with
    | zero => intro lo s h1 h2 h3; omega
    | succ n ih =>
      intro lo s h1 h2 h3
      rw [loop]
      by_cases hc : s.2 < data.length
      · rw [vget_val hc, Res.bind_ok, Res.bind_ok]
        exact ih (lo + 1) _ (by simp only; omega) (by omega) (by simp only; omega)
      · rw [vget_ge data s.2 (by omega)]
        rfl
  exact key g.npix 0 (t, o) (by simp) (by omega) ho

/-! ### Full maps -/

/-- The table holds `p` planes `a`; `pre` are the other columns. -/
structure Holds (g : Geo) (t : Table) (p : Nat) (a : Nat → Nat → ℝ) : Prop where
  cols : ∃ (h : Nat → ℝ) (f : Nat → Nat → ℝ),
    t.cols = (if g.allSky then [] else [(Col.pix, h)]) ++ (List.range p).map (fun k => (Col.chan (k + 1), f k)) ∧
      (∀ k < p, ∀ j < g.npix, f k j = a k j) ∧ ∀ i < g.npix, h i = g.glo i
  row : 0 < p → t.nrow = g.npix
  rows : t.nrow ≤ g.npix
  scheme : t.scheme = if g.allSky then .implicit else .explicit

theorem holds_congr {g : Geo} {t : Table} {p : Nat} {a b : Nat → Nat → ℝ} (h : Holds g t p a)
    (hab : ∀ k < p, ∀ j < g.npix, a k j = b k j) : Holds g t p b := by
  obtain ⟨⟨h1, f, e, hf, hh⟩, h2, h3, h4⟩ := h
  exact ⟨⟨h1, f, e, fun k hk j hj => (hf k hk j hj).trans (hab k hk j hj), hh⟩, h2, h3, h4⟩

/-- What a table that holds planes looks like before the header is written again. -/
theorem header_ok {g : Geo} {t : Table} {p : Nat} {a : Nat → Nat → ℝ} (h : Holds g t p a) :
    ∃ t', writeHeader g t = .ok t' ∧ Holds g t' p a := by
  obtain ⟨⟨h1, f, e, hf, hh⟩, h2, h3, h4⟩ := h
  unfold writeHeader
  by_cases hs : g.allSky = true
  · rw [if_pos hs]
    exact ⟨_, rfl, ⟨h1, f, e, hf, hh⟩, h2, h3, by simp [hs]⟩
  · simp only [Bool.not_eq_true] at hs
    rw [if_neg (by simp [hs]), fill_one]
    refine ⟨_, rfl, ⟨fun i => if i < g.npix then (g.glo i : ℝ) else h1 i, f, ?_, hf, fun i hi => ?_⟩, ?_, ?_, ?_⟩
    · have e1 : ensure { t with scheme := .explicit } .pix = { t with scheme := .explicit } := by
        unfold ensure
        rw [if_pos]
        simp only [e, hs]
        simp
      rw [e1]
      simp only [e, hs]
      simp [paint_one]
    · simp only
      rw [if_pos hi]
    · intro hp
      have e1 : (ensure { t with scheme := .explicit } .pix).nrow = t.nrow := by
        unfold ensure
        split <;> rfl
      have := h2 hp
      simp only [e1]
      omega
    · have e1 : (ensure { t with scheme := .explicit } .pix).nrow = t.nrow := by
        unfold ensure
        split <;> rfl
      simp only [e1]
      omega
    · have e1 : (ensure { t with scheme := .explicit } .pix).scheme = .explicit := by
        unfold ensure
        split <;> rfl
      simp only [e1, hs]
      rfl

/-- The header of a new table. -/
theorem header_new (g : Geo) : ∃ t', writeHeader g newTable = .ok t' ∧ Holds g t' 0 (fun _ _ => 0) := by
  unfold writeHeader
  by_cases hs : g.allSky = true
  · rw [if_pos hs]
    exact ⟨_, rfl, ⟨fun i => g.glo i, fun _ _ => 0, by simp [hs, newTable], by simp, by simp⟩, by simp, by simp [newTable], by simp [hs]⟩
  · simp only [Bool.not_eq_true] at hs
    rw [if_neg (by simp [hs]), fill_one]
    have e1 : ensure { newTable with scheme := .explicit } .pix = ⟨.explicit, 0, 0, [(.pix, fun _ => 0)]⟩ := by
      unfold ensure
      rw [if_neg (by simp [newTable])]
      rfl
    rw [e1]
    refine ⟨_, rfl, ⟨fun i => if i < g.npix then (g.glo i : ℝ) else 0, fun _ _ => 0, ?_, by simp, fun i hi => by simp [hi]⟩,
      by simp, by simp, by simp [hs]⟩
    simp [hs, paint_one]

/-- Writing plane `e` of a table that holds planes. -/
theorem plane_holds {g : Geo} {t : Table} {p : Nat} {a : Nat → Nat → ℝ} (h : Holds g t p a) (data : List ℝ) (e o : Nat)
    (he : e ≤ p) (ho : o + g.npix ≤ data.length) :
    ∃ t', writePlane g data (.chan (e + 1)) (ensure t (.chan (e + 1)), o) = .ok (t', o + g.npix) ∧
      Holds g t' (max p (e + 1)) (fun k j => if k = e then val data (o + j) else a k j) := by
  rw [plane_ok g data _ _ _ ho]
  refine ⟨_, rfl, ?_⟩
  obtain ⟨⟨h1, f, ec, hf, hh⟩, h2, h3, h4⟩ := h
  have hpre : ∀ (w : Nat → ℝ) n, (if g.allSky then [] else [(Col.pix, h1)]).map (paint (one (.chan (e + 1)) w) n) =
      (if g.allSky then [] else [(Col.pix, h1)]) := by
    intro w n
    cases g.allSky <;> simp [paint_one]
  by_cases hp : e < p
  · have e1 : ensure t (.chan (e + 1)) = t := by
      unfold ensure
      rw [if_pos]
      rw [ec]
      simp only [List.any_append, List.any_map, Bool.or_eq_true]
      exact Or.inr (List.any_eq_true.2 ⟨e, List.mem_range.2 hp, by simp⟩)
    rw [e1, show max p (e + 1) = p by omega]
    refine ⟨⟨h1, fun k i => if k = e ∧ i < g.npix then val data (o + i) else f k i, ?_, ?_, hh⟩, ?_, ?_, h4⟩
    · simp only [ec, List.map_append, hpre, List.map_map]
      congr 1
      refine List.map_congr_left fun k hk => ?_
      simp only [Function.comp, paint_one, Col.chan.injEq, Nat.add_right_cancel_iff]
      by_cases hke : k = e
      · simp [hke]
      · simp [hke]
    · intro k hk j hj
      simp only
      by_cases hke : k = e
      · rw [if_pos ⟨hke, hj⟩, if_pos hke]
      · rw [if_neg (by rintro ⟨h, -⟩; exact hke h), if_neg hke, hf k hk j hj]
    · intro hp'
      simp only [h2 (by omega)]
      omega
    · simp only
      omega
  · have hpe : e = p := by omega
    subst hpe
    have e1 : ensure t (.chan (e + 1)) = { t with cols := t.cols ++ [(.chan (e + 1), fun _ => 0)] } := by
      unfold ensure
      rw [if_neg]
      rw [ec]
      simp only [List.any_append, List.any_map, Bool.or_eq_true]
      rintro (hx | hx)
      · cases g.allSky <;> simp at hx
      · obtain ⟨k, hk, hk'⟩ := List.any_eq_true.1 hx
        simp at hk hk'
        omega
    rw [e1, show max e (e + 1) = e + 1 by omega]
    refine ⟨⟨h1, fun k i => if k = e then (if i < g.npix then val data (o + i) else 0) else f k i, ?_, ?_, hh⟩, ?_, ?_, h4⟩
    · simp only [ec, List.map_append, hpre, List.map_map, List.range_succ, List.append_assoc]
      congr 1
      congr 1
      · refine List.map_congr_left fun k hk => ?_
        have hke : k ≠ e := by
          have := List.mem_range.1 hk
          omega
        simp only [Function.comp, paint_one, Col.chan.injEq, Nat.add_right_cancel_iff]
        simp [hke]
      · simp [paint_one]
    · intro k hk j hj
      simp only
      by_cases hke : k = e
      · rw [if_pos hke, if_pos hj, if_pos hke]
      · rw [if_neg hke, if_neg hke, hf k (by omega) j hj]
    · intro _
      simp only
      omega
    · simp only
      omega

/-- Writing all planes. -/
theorem planes_holds {g : Geo} {t : Table} {p : Nat} {a : Nat → Nat → ℝ} (h : Holds g t p a) (data : List ℝ) (kmin q : Nat)
    (hd : q * g.npix ≤ data.length) :
    ∃ s, loop (fun e s => writePlane g data (.chan (e - kmin + 1)) (ensure s.1 (.chan (e - kmin + 1)), s.2)) kmin q (t, 0) = .ok s ∧
      Holds g s.1 (max p q) (fun k j => if k < q then val data (k * g.npix + j) else a k j) := by
  obtain ⟨s, h1, h2, h3⟩ := loop_inv
    (body := fun e s => writePlane g data (.chan (e - kmin + 1)) (ensure s.1 (.chan (e - kmin + 1)), s.2))
    (lo := kmin) (n := q) (s := (t, 0))
    (fun e (s : Table × Nat) => s.2 = (e - kmin) * g.npix ∧
      Holds g s.1 (max p (e - kmin)) (fun k j => if k < e - kmin then val data (k * g.npix + j) else a k j))
    ⟨by simp, by simpa using h⟩
    (by
      rintro e ⟨t', o⟩ he he' ⟨ho, ht⟩
      simp only at ho ht ⊢
      have hstep : (e - kmin) * g.npix + g.npix ≤ q * g.npix := by
        calc (e - kmin) * g.npix + g.npix = (e - kmin + 1) * g.npix := by ring
          _ ≤ q * g.npix := Nat.mul_le_mul_right _ (by omega)
      obtain ⟨t2, g1, g2⟩ := plane_holds ht data (e - kmin) o (by omega) (by omega)
      refine ⟨_, g1, ?_, ?_⟩
      · simp only
        rw [ho, show e + 1 - kmin = e - kmin + 1 by omega]
        ring
      · rw [show max p (e + 1 - kmin) = max (max p (e - kmin)) (e - kmin + 1) by omega]
        refine holds_congr g2 fun k hk j hj => ?_
        by_cases h1 : k = e - kmin
        · subst h1
          rw [if_pos rfl, if_pos (by omega), ho]
        · rw [if_neg h1]
          by_cases h2 : k < e - kmin
          · rw [if_pos h2, if_pos (by omega)]
          · rw [if_neg h2, if_neg (by omega)])
  refine ⟨s, h1, ?_⟩
  rw [show kmin + q - kmin = q by omega] at h3
  exact h3

/-- What is read from a table that holds planes. -/
theorem read_holds {g : Geo} {t : Table} {p : Nat} {a : Nat → Nat → ℝ} (h : Holds g t p a) (A : List ℝ)
    (hA : A.length = p * g.npix) (ha : ∀ k < p, ∀ j < g.npix, a k j = val A (k * g.npix + j)) : readFull t = (A, p) := by
  obtain ⟨⟨h1, f, ec, hf, hh⟩, h2, h3, h4⟩ := h
  have hfil : t.cols.filter (fun x => isData x.1) = (List.range p).map (fun k => (Col.chan (k + 1), f k)) := by
    rw [ec, List.filter_append]
    have e1 : (if g.allSky then [] else [(Col.pix, h1)]).filter (fun x => isData x.1) = [] := by
      cases g.allSky <;> simp [isData]
    rw [e1, List.nil_append, List.filter_eq_self.2]
    intro x hx
    obtain ⟨k, -, rfl⟩ := List.mem_map.1 hx
    rfl
  unfold readFull
  simp only [hfil, List.length_map, List.length_range, Prod.mk.injEq, and_true]
  rw [List.flatMap_map]
  rcases Nat.eq_zero_or_pos p with rfl | hp
  · simp at hA
    simp [hA]
  · rw [h2 hp]
    rw [planes_flat A g.npix f p (by omega) (fun k hk j hj => by rw [hf k hk j hj, ha k hk j hj])]
    rw [← hA, List.take_length]

/-! ### Sparse maps -/

/-- The columns of an entry. -/
noncomputable def entryCols (g : Geo) (l : List (Nat × ℝ)) : Col → Option (Nat → ℝ)
  | .pix => some fun i => (((val l i).1 % g.npix : Nat) : ℝ)
  | .channel => some fun i => (((val l i).1 / g.npix : Nat) : ℝ)
  | .value => some fun i => (val l i).2
  | .chan _ => none

theorem setCell_entry (g : Geo) (l : List (Nat × ℝ)) (t : Table) (m n : Nat) :
    setCell (setCell (setCell { t with nrow := max m n, cols := t.cols.map (paint (entryCols g l) n) }
      .pix n (((val l n).1 % g.npix : Nat) : ℝ)) .channel n (((val l n).1 / g.npix : Nat) : ℝ)) .value n (val l n).2 =
      { t with nrow := max m (n + 1), cols := t.cols.map (paint (entryCols g l) (n + 1)) } := by
  unfold setCell
  simp only [List.map_map]
  have e : max (max (max (max m n) (n + 1)) (n + 1)) (n + 1) = max m (n + 1) := by omega
  rw [e]
  congr 2
  funext x
  obtain ⟨c, f⟩ := x
  have key : ∀ v : Nat → ℝ, (fun j => if j = n then v n else if j < n then v j else f j) = fun j => if j < n + 1 then v j else f j := by
    intro v
    funext j
    by_cases h1 : j = n
    · subst h1
      rw [if_pos rfl, if_pos (by omega)]
    · rw [if_neg h1]
      by_cases h2 : j < n
      · rw [if_pos h2, if_pos (by omega)]
      · rw [if_neg h2, if_neg (by omega)]
  cases c with
  | pix => simpa [Function.comp, paint, entryCols] using key fun i => (((val l i).1 % g.npix : Nat) : ℝ)
  | channel => simpa [Function.comp, paint, entryCols] using key fun i => (((val l i).1 / g.npix : Nat) : ℝ)
  | value => simpa [Function.comp, paint, entryCols] using key fun i => (val l i).2
  | chan k => simp [Function.comp, paint, entryCols]

/-- Writing the entries. -/
theorem entries_ok (g : Geo) (l : List (Nat × ℝ)) (t : Table) (hn : 0 < g.npix) (hk : ∀ x ∈ l, x.1 / g.npix < g.nData) :
    loop (writeEntry g l) 0 l.length t =
      .ok { t with nrow := max t.nrow l.length, cols := t.cols.map (paint (entryCols g l) l.length) } := by
  have h := loop_eq (body := writeEntry g l) (lo := 0) (n := l.length)
    (fun j => { t with nrow := max t.nrow j, cols := t.cols.map (paint (entryCols g l) j) })
    (fun i _ hi => by
      unfold writeEntry
      rw [vget_val (by omega), Res.bind_ok, if_neg (by omega),
        if_neg (by have := hk _ (val_mem (l := l) (k := i) (by omega)); omega), setCell_entry])
  simp only [paint_zero, Nat.max_zero, Nat.zero_add] at h
  exact h

/-- An entry of a plane that the data does not have. -/
theorem entries_throw (g : Geo) (l : List (Nat × ℝ)) (hn : 0 < g.npix) : ∀ n lo t, lo + n = l.length →
    (∃ i, lo ≤ i ∧ i < l.length ∧ g.nData ≤ (val l i).1 / g.npix) → loop (writeEntry g l) lo n t = .throws := by
  intro n
  induction n with
  | zero => rintro lo t h ⟨i, h1, h2, -⟩; omega
  | succ n ih =>
    rintro lo t h ⟨i, h1, h2, h3⟩
    rw [loop]
    unfold writeEntry
    rw [vget_val (by omega), Res.bind_ok, if_neg (by omega)]
    by_cases hc : g.nData ≤ (val l lo).1 / g.npix
    · rw [if_pos hc]
      rfl
    · rw [if_neg hc, Res.bind_ok]
      refine ih (lo + 1) _ (by omega) ⟨i, ?_, h2, h3⟩
      rcases Nat.lt_or_ge lo i with h4 | h4
      · omega
      · exact absurd ((show i = lo by omega) ▸ h3) hc

/-- The table holds the entries `A`. -/
structure Sparse (g : Geo) (t : Table) (A : List (Nat × ℝ)) : Prop where
  cols : ∃ p c v : Nat → ℝ, t.cols = [(.pix, p), (.channel, c), (.value, v)] ∧ ∀ i < A.length,
    p i = (((val A i).1 % g.npix : Nat) : ℝ) ∧ c i = (((val A i).1 / g.npix : Nat) : ℝ) ∧ v i = (val A i).2
  rows : t.nrow = A.length

theorem val_overlay2 (a b : List (Nat × ℝ)) (k : Nat) :
    val (overlay a b) k = if k < b.length then val b k else val a k := by
  unfold overlay val
  by_cases h : k < b.length
  · rw [if_pos h, List.getElem?_append_left h]
  · rw [if_neg h, List.getElem?_append_right (by omega), List.getElem?_drop]
    congr 3
    omega

/-- Writing entries over entries. -/
theorem write_sparse {g : Geo} {t : Table} {A : List (Nat × ℝ)} (h : Sparse g t A) (w : Write (Nat × ℝ)) (hn : 0 < g.npix)
    (hk : ∀ x ∈ w.data, x.1 / g.npix < g.nData) :
    ∃ t', writeSparse g t w = .ok t' ∧ Sparse g t' (overlay A w.data) ∧ t'.scheme = .sparse ∧
      t'.nEnergy = (Spec.last g.nData w.kmax - w.kmin).toNat := by
  unfold writeSparse
  rw [top_eq]
  obtain ⟨⟨p, c, v, ec, hA⟩, hr⟩ := h
  have e1 : ensure (ensure (ensure { t with scheme := .sparse, nEnergy := (Spec.last g.nData w.kmax - w.kmin).toNat } .pix) .channel) .value =
      { t with scheme := .sparse, nEnergy := (Spec.last g.nData w.kmax - w.kmin).toNat } := by
    simp [ensure, ec]
  rw [e1, entries_ok g _ _ hn hk]
  refine ⟨_, rfl, ⟨⟨fun i => if i < w.data.length then (((val w.data i).1 % g.npix : Nat) : ℝ) else p i,
    fun i => if i < w.data.length then (((val w.data i).1 / g.npix : Nat) : ℝ) else c i,
    fun i => if i < w.data.length then (val w.data i).2 else v i, ?_, ?_⟩, ?_⟩, rfl, rfl⟩
  · simp only [ec, List.map_cons, List.map_nil, paint, entryCols]
  · intro i hi
    rw [overlay_length] at hi
    simp only [val_overlay2]
    by_cases h1 : i < w.data.length
    · simp [h1]
    · simp only [h1, if_false]
      exact hA i (by omega)
  · simp only [hr, overlay_length]

/-- Writing entries to a new table. -/
theorem write_sparse_new (g : Geo) (w : Write (Nat × ℝ)) (hn : 0 < g.npix) (hk : ∀ x ∈ w.data, x.1 / g.npix < g.nData) :
    ∃ t', writeSparse g newTable w = .ok t' ∧ Sparse g t' w.data ∧ t'.scheme = .sparse ∧
      t'.nEnergy = (Spec.last g.nData w.kmax - w.kmin).toNat := by
  unfold writeSparse
  rw [top_eq]
  have e1 : ensure (ensure (ensure { newTable with scheme := .sparse, nEnergy := (Spec.last g.nData w.kmax - w.kmin).toNat } .pix) .channel) .value =
      ⟨.sparse, (Spec.last g.nData w.kmax - w.kmin).toNat, 0, [(.pix, fun _ => 0), (.channel, fun _ => 0), (.value, fun _ => 0)]⟩ := by
    simp [ensure, newTable]
  rw [e1, entries_ok g _ _ hn hk]
  refine ⟨_, rfl, ⟨⟨fun i => if i < w.data.length then (((val w.data i).1 % g.npix : Nat) : ℝ) else 0,
    fun i => if i < w.data.length then (((val w.data i).1 / g.npix : Nat) : ℝ) else 0,
    fun i => if i < w.data.length then (val w.data i).2 else 0, ?_, ?_⟩, ?_⟩, rfl, rfl⟩
  · simp only [List.map_cons, List.map_nil, paint, entryCols]
  · intro i hi
    simp [hi]
  · simp

/-- Reading entries. -/
theorem read_sparse {g : Geo} {t : Table} {A : List (Nat × ℝ)} (h : Sparse g t A) : readSparse g.npix t = .ok (A, t.nEnergy) := by
  obtain ⟨⟨p, c, v, ec, hA⟩, hr⟩ := h
  have h1 : column t .pix = .ok p := by simp [column, ec]
  have h2 : column t .channel = .ok c := by simp [column, ec]
  have h3 : column t .value = .ok v := by simp [column, ec]
  unfold readSparse
  rw [h1, Res.bind_ok, h2, Res.bind_ok, h3, Res.bind_ok, hr]
  congr 2
  apply ext_val
  · simp
  · intro k hk
    simp only [List.length_map, List.length_range] at hk
    rw [val_map_range _ hk]
    obtain ⟨a1, a2, a3⟩ := hA k hk
    rw [a1, a2, a3, Nat.floor_natCast, Nat.floor_natCast, Nat.div_add_mod']

end Verif.Files
