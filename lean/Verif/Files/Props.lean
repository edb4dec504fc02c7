import Verif.Files.Lemmas
import Mathlib.Tactic.NormNum
set_option linter.unusedSectionVars false
set_option linter.unusedSimpArgs false
set_option linter.unusedVariables false
/-
C101: a map that is read from a file is the map that was written last.
-/
namespace Verif.Files
open Verif Verif.Vec Spec

/-- The call writes `q` planes, and the values are as many as needed. -/
def Fits (g : Geo) (w : Write ℝ) (q : Nat) : Prop :=
  Spec.last g.nData w.kmax = w.kmin + q ∧ w.data.length = q * g.npix

theorem write_full {g : Geo} {t t1 : Table} {p : Nat} {a : Nat → Nat → ℝ} (hh : writeHeader g t = .ok t1) (h : Holds g t1 p a)
    {w : Write ℝ} {q : Nat} (hw : Fits g w q) :
    ∃ t', writeFull g t w = .ok t' ∧
      Holds g t' (max p q) (fun k j => if k < q then val w.data (k * g.npix + j) else a k j) := by
  obtain ⟨h1, h2⟩ := hw
  unfold writeFull
  simp only [top_eq]
  rw [if_neg (by omega), hh, Res.bind_ok, show (Spec.last g.nData w.kmax).toNat - w.kmin = q by omega]
  obtain ⟨s, g1, g2⟩ := planes_holds h w.data w.kmin q (by omega)
  rw [g1, Res.bind_ok]
  exact ⟨_, rfl, g2⟩

/-- Writing full maps to a table that holds one. -/
theorem run_full {g : Geo} : ∀ (ws : List (Write ℝ)) (qs : List Nat), List.Forall₂ (Fits g) ws qs →
    ∀ (t : Table) (p : Nat) (A : List ℝ), Holds g t p (fun k j => val A (k * g.npix + j)) → A.length = p * g.npix →
    ∃ t', runFull g ws t = .ok t' ∧
      Holds g t' (qs.foldl max p) (fun k j => val ((ws.map (·.data)).foldl overlay A) (k * g.npix + j)) ∧
      ((ws.map (·.data)).foldl overlay A).length = qs.foldl max p * g.npix := by
  intro ws qs hf
  induction hf with
  | nil => intro t p A h hA; exact ⟨t, rfl, h, hA⟩
  | @cons w q ws qs hw hf ih =>
    intro t p A h hA
    obtain ⟨t1, h1, h2⟩ := header_ok h
    obtain ⟨t2, h3, h4⟩ := write_full h1 h2 hw
    have hlen : (overlay A w.data).length = max p q * g.npix := by
      rw [overlay_length, hA, hw.2]
      rcases Nat.le_total p q with hpq | hpq
      · rw [Nat.max_eq_right hpq, Nat.max_eq_right (Nat.mul_le_mul_right _ hpq)]
      · rw [Nat.max_eq_left hpq, Nat.max_eq_left (Nat.mul_le_mul_right _ hpq)]
    have h5 : Holds g t2 (max p q) (fun k j => val (overlay A w.data) (k * g.npix + j)) := by
      refine holds_congr h4 fun k hk j hj => ?_
      rw [val_overlay, hw.2]
      by_cases hkq : k < q
      · rw [if_pos hkq, if_pos (idx_lt hj hkq)]
      · rw [if_neg hkq, if_neg]
        have : q * g.npix ≤ k * g.npix := Nat.mul_le_mul_right _ (by omega)
        omega
    obtain ⟨t3, h6, h7, h8⟩ := ih t2 (max p q) (overlay A w.data) h5 hlen
    refine ⟨t3, ?_, h7, h8⟩
    rw [runFull, h3, Res.bind_ok, h6]

/-- C101.  Whatever full maps are written one after the other to the same place, what is read is
known: the last map, followed by what is left of longer maps before; and the number of planes is the
largest that was ever written.  The type of the map is read as full, and the rows of a map of a part
of the sky carry the positions of its pixels. -/
theorem C101_full_history (g : Geo) (w : Write ℝ) (q : Nat) (ws : List (Write ℝ)) (qs : List Nat) (hw : Fits g w q)
    (hf : List.Forall₂ (Fits g) ws qs) :
    ∃ t, runFull g (w :: ws) newTable = .ok t ∧ readFull t = (found ((w :: ws).map (·.data)), qs.foldl max q) ∧
      typeOf t = some false ∧ (g.allSky = false → ∃ pos, column t .pix = .ok pos ∧ ∀ i < g.npix, pos i = g.glo i) := by
  obtain ⟨t1, h1, h2⟩ := header_new g
  obtain ⟨t2, h3, h4⟩ := write_full h1 h2 hw
  have h5 : Holds g t2 q (fun k j => val w.data (k * g.npix + j)) := by
    rw [Nat.zero_max] at h4
    exact holds_congr h4 fun k hk j hj => by rw [if_pos hk]
  obtain ⟨t3, h6, h7, h8⟩ := run_full ws qs hf t2 q w.data h5 hw.2
  refine ⟨t3, ?_, ?_, ?_, ?_⟩
  · rw [runFull, h3, Res.bind_ok, h6]
  · rw [read_holds h7 _ h8 (fun k _ j _ => rfl)]
    simp [found, overlay_nil]
  · unfold typeOf
    rw [h7.scheme]
    cases g.allSky <;> rfl
  · intro hs
    obtain ⟨⟨pos, f, ec, -, hp⟩, -⟩ := h7
    refine ⟨pos, ?_, hp⟩
    simp [column, ec, hs]

/-- The hypotheses can be met: two planes, then the second of them alone, for two of twelve
pixels. -/
example : ∃ (g : Geo) (w : Write ℝ) (q : Nat) (ws : List (Write ℝ)) (qs : List Nat), Fits g w q ∧
    List.Forall₂ (Fits g) ws qs ∧ ws ≠ [] ∧ g.allSky = false ∧ 0 < g.npix :=
  ⟨⟨2, fun i => i + 5, false, 2⟩, ⟨[1, 2, 3, 4], 0, -1⟩, 2, [⟨[7, 8], 1, 2⟩], [1],
    ⟨by simp [Spec.last], rfl⟩, List.Forall₂.cons ⟨by simp [Spec.last], by simp⟩ List.Forall₂.nil, by simp, rfl, by norm_num⟩

/-- C101, in part.  A map is read as it was written if no map with more planes was at its place. -/
theorem C101_full_partial (g : Geo) (ws : List (Write ℝ)) (qs : List Nat) (w : Write ℝ) (q : Nat)
    (hf : List.Forall₂ (Fits g) ws qs) (hw : Fits g w q) (hq : ∀ p ∈ qs, p ≤ q) :
    ∃ t, runFull g (ws ++ [w]) newTable = .ok t ∧ readFull t = (w.data, q) := by
  have hall : List.Forall₂ (Fits g) (ws ++ [w]) (qs ++ [q]) :=
    List.rel_append hf (List.Forall₂.cons hw List.Forall₂.nil)
  have hgrow : Growing ((ws ++ [w]).map (·.data)) := by
    intro last hl m hm
    simp at hl
    subst hl
    obtain ⟨x, hx, rfl⟩ := List.mem_map.1 hm
    rcases List.mem_append.1 hx with hx | hx
    · obtain ⟨p, hp, hfit⟩ : ∃ p ∈ qs, Fits g x p := by
        clear hall hm hq
        induction hf with
        | nil => simp at hx
        | @cons a b as bs hab _ ih =>
          rcases List.mem_cons.1 hx with rfl | hx'
          · exact ⟨b, by simp, hab⟩
          · obtain ⟨p, hp, h⟩ := ih (by simp [hx']) hx'
            exact ⟨p, by simp [hp], h⟩
      rw [hfit.2, hw.2]
      exact Nat.mul_le_mul_right _ (hq p hp)
    · simp at hx
      rw [hx]
  have hmax : ∀ (l : List Nat) (p : Nat), (∀ x ∈ l, x ≤ q) → p ≤ q → (l ++ [q]).foldl max p = q := by
    intro l
    induction l with
    | nil => intro p _ hp; simp [hp]
    | cons a l ih => intro p hl hp; exact ih _ (fun x hx => hl x (by simp [hx])) (by have := hl a (by simp); omega)
  cases hf with
  | nil =>
    obtain ⟨t, h1, h2, -⟩ := C101_full_history g w q [] [] hw List.Forall₂.nil
    exact ⟨t, h1, by rw [h2]; simp [found, overlay_nil]⟩
  | @cons a b as bs hab hrest =>
    obtain ⟨t, h1, h2, -⟩ := C101_full_history g a b (as ++ [w]) (bs ++ [q]) hab
      (List.rel_append hrest (List.Forall₂.cons hw List.Forall₂.nil))
    refine ⟨t, h1, ?_⟩
    rw [h2]
    have e : ((a :: (as ++ [w])).map (·.data)) = ((a :: as).map (·.data)) ++ [w.data] := by simp
    rw [e, found_growing (by simpa using hgrow), hmax bs b (fun x hx => hq x (by simp [hx])) (hq b (by simp))]

/-- The hypotheses can be met. -/
example : ∃ (g : Geo) (ws : List (Write ℝ)) (qs : List Nat) (w : Write ℝ) (q : Nat), List.Forall₂ (Fits g) ws qs ∧ Fits g w q ∧
    (∀ p ∈ qs, p ≤ q) ∧ ws ≠ [] :=
  ⟨⟨2, fun i => i, true, 2⟩, [⟨[7, 8], 1, 2⟩], [1], ⟨[1, 2, 3, 4], 0, -1⟩, 2,
    List.Forall₂.cons ⟨by simp [Spec.last], by simp⟩ List.Forall₂.nil, ⟨by simp [Spec.last], rfl⟩, by simp, by simp⟩

/-- C101 is violated whenever a full map replaces one with more planes: the planes at the end of the
old map are read as planes of the new one. -/
theorem C101_full_violates (g : Geo) (hn : 0 < g.npix) (old new : Write ℝ) (p q : Nat) (hold : Fits g old p) (hnew : Fits g new q)
    (hpq : q < p) :
    ∃ t, runFull g [old, new] newTable = .ok t ∧ readFull t = (new.data ++ old.data.drop (q * g.npix), p) ∧
      (readFull t).1 ≠ new.data := by
  obtain ⟨t, h1, h2, -⟩ := C101_full_history g old p [new] [q] hold (List.Forall₂.cons hnew List.Forall₂.nil)
  refine ⟨t, h1, ?_, ?_⟩
  · rw [h2]
    simp only [found, List.map_cons, List.map_nil, List.foldl_cons, List.foldl_nil, overlay_nil]
    rw [Nat.max_eq_left (by omega)]
    simp [overlay, hnew.2]
  · rw [h2]
    intro h
    have hl := congrArg List.length h
    simp only [found, List.map_cons, List.map_nil, List.foldl_cons, List.foldl_nil, overlay_nil, overlay_length] at hl
    rw [hold.2, hnew.2] at hl
    have : q * g.npix < p * g.npix := Nat.mul_lt_mul_of_pos_right hpq hn
    omega

/-- The hypotheses can be met. -/
example : ∃ (g : Geo) (old new : Write ℝ) (p q : Nat), 0 < g.npix ∧ Fits g old p ∧ Fits g new q ∧ q < p :=
  ⟨⟨2, fun i => i, true, 2⟩, ⟨[1, 2, 3, 4], 0, -1⟩, ⟨[7, 8], 1, 2⟩, 2, 1, by norm_num, ⟨by simp [Spec.last], rfl⟩,
    ⟨by simp [Spec.last], by simp⟩, by norm_num⟩

/-! ### Sparse maps -/

/-- All keys are keys of planes of the data. -/
def InRange (g : Geo) (w : Write (Nat × ℝ)) : Prop := ∀ x ∈ w.data, x.1 < g.nData * g.npix

theorem inRange_div {g : Geo} (hn : 0 < g.npix) {w : Write (Nat × ℝ)} (h : InRange g w) : ∀ x ∈ w.data, x.1 / g.npix < g.nData :=
  fun x hx => (Nat.div_lt_iff_lt_mul hn).2 (h x hx)

theorem run_sparse {g : Geo} (hn : 0 < g.npix) : ∀ (ws : List (Write (Nat × ℝ))), (∀ w ∈ ws, InRange g w) →
    ∀ (t : Table) (A : List (Nat × ℝ)), Sparse g t A → t.scheme = .sparse →
    ∃ t', runSparse g ws t = .ok t' ∧ Sparse g t' ((ws.map (·.data)).foldl overlay A) ∧ t'.scheme = .sparse ∧
      (∀ w ∈ ws.getLast?, t'.nEnergy = (Spec.last g.nData w.kmax - w.kmin).toNat) ∧ (ws = [] → t' = t) := by
  intro ws
  induction ws with
  | nil => intro _ t A h hs; exact ⟨t, rfl, h, hs, by simp, fun _ => rfl⟩
  | cons w ws ih =>
    intro hr t A h hs
    obtain ⟨t1, h1, h2, h3, h4⟩ := write_sparse h w hn (inRange_div hn (hr w (by simp)))
    obtain ⟨t2, h5, h6, h7, h8, h9⟩ := ih (fun x hx => hr x (by simp [hx])) t1 _ h2 h3
    refine ⟨t2, by rw [runSparse, h1, Res.bind_ok, h5], h6, h7, ?_, by simp⟩
    intro x hx
    cases ws with
    | nil =>
      simp at hx
      rw [h9 rfl, h4, hx]
    | cons y ys =>
      refine h8 x ?_
      simpa using hx

/-- C101.  Whatever sparse maps are written one after the other to the same place, what is read is
known: the entries of the last map, followed by what is left of longer maps before; the number of
planes is that of the last map, and the type of the map is read as sparse. -/
theorem C101_sparse_history (g : Geo) (hn : 0 < g.npix) (ws : List (Write (Nat × ℝ))) (w : Write (Nat × ℝ))
    (hr : ∀ x ∈ ws ++ [w], InRange g x) :
    ∃ t, runSparse g (ws ++ [w]) newTable = .ok t ∧
      readSparse g.npix t = .ok (found ((ws ++ [w]).map (·.data)), (Spec.last g.nData w.kmax - w.kmin).toNat) ∧ typeOf t = some true := by
  cases ws with
  | nil =>
    obtain ⟨t1, h1, h2, h3, h4⟩ := write_sparse_new g w hn (inRange_div hn (hr w (by simp)))
    refine ⟨t1, ?_, ?_, by simp [typeOf, h3]⟩
    · simp only [List.nil_append, runSparse, h1, Res.bind_ok]
    · rw [read_sparse h2, h4]
      simp [found, overlay_nil]
  | cons a as =>
    obtain ⟨t1, h1, h2, h3, h4⟩ := write_sparse_new g a hn (inRange_div hn (hr a (by simp)))
    obtain ⟨t2, h5, h6, h7, h8, -⟩ := run_sparse hn (as ++ [w]) (fun x hx => hr x (by
      rw [List.cons_append]; exact List.mem_cons_of_mem _ hx)) t1 a.data h2 h3
    refine ⟨t2, by rw [List.cons_append, runSparse, h1, Res.bind_ok, h5], ?_, by simp [typeOf, h7]⟩
    rw [read_sparse h6, h8 w (by simp)]
    simp [found, overlay_nil]

/-- The hypotheses can be met. -/
example : ∃ (g : Geo) (ws : List (Write (Nat × ℝ))) (w : Write (Nat × ℝ)), 0 < g.npix ∧ (∀ x ∈ ws ++ [w], InRange g x) ∧
    ws ≠ [] ∧ w.data ≠ [] :=
  ⟨⟨12, fun i => i, true, 2⟩, [⟨[(3, 1), (15, 2)], 0, -1⟩], ⟨[(4, 5)], 0, -1⟩, by norm_num, by
    intro x hx
    simp at hx
    rcases hx with rfl | rfl
    · intro y hy
      simp at hy
      rcases hy with rfl | rfl <;> norm_num
    · intro y hy
      simp at hy
      rw [hy]
      norm_num, by simp, by simp⟩

/-- C101, in part.  A sparse map is read as it was written if no map with more entries was at its
place. -/
theorem C101_sparse_partial (g : Geo) (hn : 0 < g.npix) (ws : List (Write (Nat × ℝ))) (w : Write (Nat × ℝ))
    (hr : ∀ x ∈ ws ++ [w], InRange g x) (hl : ∀ x ∈ ws, x.data.length ≤ w.data.length) :
    ∃ t, runSparse g (ws ++ [w]) newTable = .ok t ∧ readSparse g.npix t = .ok (w.data, (Spec.last g.nData w.kmax - w.kmin).toNat) := by
  obtain ⟨t, h1, h2, -⟩ := C101_sparse_history g hn ws w hr
  refine ⟨t, h1, ?_⟩
  rw [h2, List.map_append, List.map_cons, List.map_nil, found_growing]
  intro last hlast m hm
  simp at hlast
  subst hlast
  simp at hm
  rcases hm with ⟨x, hx, rfl⟩ | rfl
  · exact hl x hx
  · exact le_rfl

/-- C101 is violated whenever a sparse map replaces one with more entries: the entries at the end of
the old map are read as entries of the new one. -/
theorem C101_sparse_violates (g : Geo) (hn : 0 < g.npix) (old new : Write (Nat × ℝ)) (hold : InRange g old) (hnew : InRange g new)
    (hl : new.data.length < old.data.length) :
    ∃ t n, runSparse g [old, new] newTable = .ok t ∧
      readSparse g.npix t = .ok (new.data ++ old.data.drop new.data.length, n) ∧
      new.data ++ old.data.drop new.data.length ≠ new.data := by
  obtain ⟨t, h1, h2, -⟩ := C101_sparse_history g hn [old] new (by
    intro x hx
    simp at hx
    rcases hx with rfl | rfl
    · exact hold
    · exact hnew)
  refine ⟨t, (Spec.last g.nData new.kmax - new.kmin).toNat, h1, ?_, ?_⟩
  · rw [h2]
    simp only [found, List.map_cons, List.map_nil, List.foldl_cons, List.foldl_nil, List.cons_append, List.nil_append, overlay_nil]
    rfl
  · intro h
    have := congrArg List.length h
    simp at this
    omega

/-- The hypotheses can be met, and the keys that are read can be out of order, so that a value is not
found by bisection. -/
example : ∃ (g : Geo) (old new : Write (Nat × ℝ)), 0 < g.npix ∧ InRange g old ∧ InRange g new ∧
    new.data.length < old.data.length ∧
    ¬ ((new.data ++ old.data.drop new.data.length).map (·.1)).Pairwise (· < ·) :=
  ⟨⟨12, fun i => i, true, 2⟩, ⟨[(3, 1), (15, 2)], 0, -1⟩, ⟨[(20, 5)], 0, -1⟩, by norm_num, by
    intro y hy
    simp at hy
    rcases hy with rfl | rfl <;> norm_num, by
    intro y hy
    simp at hy
    rw [hy]
    norm_num, by simp, by simp⟩

/-- C101 is violated for sparse maps that have planes beyond those of the data, as they are needed
for the energy dispersion: they cannot be written. -/
theorem C101_sparse_planes_violates (g : Geo) (hn : 0 < g.npix) (t : Table) (w : Write (Nat × ℝ))
    (h : ∃ x ∈ w.data, g.nData * g.npix ≤ x.1) : writeSparse g t w = .throws := by
  obtain ⟨x, hx, hk⟩ := h
  obtain ⟨i, hi, hv⟩ := List.mem_iff_getElem.1 hx
  unfold writeSparse
  refine entries_throw g w.data hn _ 0 _ (by omega) ⟨i, by omega, hi, ?_⟩
  rw [val_lt hi, hv]
  exact (Nat.le_div_iff_mul_le hn).2 hk

/-- The hypotheses can be met. -/
example : ∃ (g : Geo) (w : Write (Nat × ℝ)), 0 < g.npix ∧ ∃ x ∈ w.data, g.nData * g.npix ≤ x.1 :=
  ⟨⟨12, fun i => i, true, 2⟩, ⟨[(3, 1), (25, 2)], 0, -1⟩, by norm_num, (25, 2), by simp, by norm_num⟩

/-- C101 is violated for a range of planes of a sparse map: all entries are written with their old
keys, so that entries are read that lie outside the planes of the map. -/
theorem C101_sparse_range_violates (g : Geo) (hn : 0 < g.npix) (w : Write (Nat × ℝ)) (q : Nat) (hw : Spec.last g.nData w.kmax = w.kmin + q)
    (hr : InRange g w) (hx : ∃ x ∈ w.data, q * g.npix ≤ x.1) :
    ∃ t entries, writeSparse g newTable w = .ok t ∧ readSparse g.npix t = .ok (entries, q) ∧
      ∃ x ∈ entries, q * g.npix ≤ x.1 := by
  obtain ⟨t1, h1, h2, h3, h4⟩ := write_sparse_new g w hn (inRange_div hn hr)
  refine ⟨t1, w.data, h1, ?_, hx⟩
  rw [read_sparse h2, h4]
  congr 2
  omega

/-- The hypotheses can be met: the second plane of two. -/
example : ∃ (g : Geo) (w : Write (Nat × ℝ)) (q : Nat), 0 < g.npix ∧ Spec.last g.nData w.kmax = w.kmin + q ∧ InRange g w ∧
    ∃ x ∈ w.data, q * g.npix ≤ x.1 :=
  ⟨⟨12, fun i => i, true, 2⟩, ⟨[(3, 1), (15, 2)], 1, 2⟩, 1, by norm_num, by simp [Spec.last], by
    intro y hy
    simp at hy
    rcases hy with rfl | rfl <;> norm_num, (15, 2), by simp, by norm_num⟩

/-! ### Maps of different kinds at the same place -/

/-- C101 is violated when a full map replaces a sparse one: the column of planes of the sparse map is
read as the first plane. -/
theorem C101_sparse_full_violates : ∃ (g : Geo) (a : Write (Nat × ℝ)) (b : Write ℝ) (t1 t2 : Table),
    InRange g a ∧ Fits g b 1 ∧ writeSparse g newTable a = .ok t1 ∧ writeFull g t1 b = .ok t2 ∧
      typeOf t2 = some false ∧ b.data = [7] ∧ readFull t2 = ([0, 7], 2) := by
  obtain ⟨t1, h1, h2, h3, h4⟩ := write_sparse_new ⟨1, fun i => i, true, 1⟩ ⟨[(0, 5)], 0, -1⟩ (by norm_num) (by simp)
  obtain ⟨⟨p, c, v, ec, hA⟩, hr⟩ := h2
  have hc : c 0 = 0 := by simpa using (hA 0 (by simp)).2.1
  have hcols : t1 = ⟨t1.scheme, t1.nEnergy, 1, [(.pix, p), (.channel, c), (.value, v)]⟩ := by
    have hr1 : t1.nrow = 1 := hr
    rw [← ec, ← hr1]
  refine ⟨_, _, ⟨[7], 0, -1⟩, t1, ⟨.implicit, t1.nEnergy, 1, [(.pix, p), (.channel, c), (.value, v),
    (.chan 1, fun j => if j = 0 then 7 else 0)]⟩, ?_, ⟨by simp [Spec.last], by simp⟩, h1, ?_, rfl, rfl, ?_⟩
  · intro x hx
    simp at hx
    rw [hx]
    norm_num
  · rw [hcols]
    simp [writeFull, writeHeader, writePlane, top, Spec.last, loop, ensure, setCell, vget]
  · simp [readFull, isData, hc]

/-- C101 is violated when a sparse map replaces a full one: the rest of the rows are read as further
entries. -/
theorem C101_full_sparse_violates : ∃ (g : Geo) (a : Write ℝ) (b : Write (Nat × ℝ)) (t1 t2 : Table),
    Fits g a 1 ∧ InRange g b ∧ writeFull g newTable a = .ok t1 ∧ writeSparse g t1 b = .ok t2 ∧ typeOf t2 = some true ∧
      b.data = [(1, 5)] ∧ readSparse g.npix t2 = .ok ([(1, 5), (0, 0)], 1) := by
  refine ⟨⟨2, fun i => i, true, 1⟩, ⟨[3, 4], 0, -1⟩, ⟨[(1, 5)], 0, -1⟩,
    ⟨.implicit, 0, 2, [(.chan 1, fun j => if j = 1 then 4 else if j = 0 then 3 else 0)]⟩,
    ⟨.sparse, 1, 2, [(.chan 1, fun j => if j = 1 then 4 else if j = 0 then 3 else 0), (.pix, fun j => if j = 0 then 1 else 0),
      (.channel, fun j => if j = 0 then 0 else 0), (.value, fun j => if j = 0 then 5 else 0)]⟩,
    ⟨by simp [Spec.last], by simp⟩, ?_, ?_, ?_, rfl, rfl, ?_⟩
  · intro x hx
    simp at hx
    rw [hx]
    norm_num
  · simp [writeFull, writeHeader, writePlane, top, Spec.last, loop, ensure, setCell, vget, newTable]
  · simp [writeSparse, writeEntry, top, Spec.last, loop, ensure, setCell, vget]
  · simp [readSparse, column, List.range_succ]

/-! ### Images -/

/-- The image holds as many values as its size says. -/
def Whole (im : Image) : Prop := im.data.length = im.planes * im.npix

/-- C101.  A range of planes of a complete map is read from the image as it was written, whatever
image was there before, as long as the range is not that of all planes. -/
theorem C101_image_range (g : Geo) (im : Image) (hp : im.npix = g.npix) (w : Write ℝ) (q : Nat) (hw : Spec.last g.nData w.kmax = w.kmin + q)
    (hq : q ≠ g.nData) (hd : (w.kmin + q) * g.npix ≤ w.data.length) :
    ∃ im', writeImage g im w = .ok im' ∧ readImage im' = ((w.data.drop (w.kmin * g.npix)).take (q * g.npix), q) ∧ Whole im' ∧
      im'.npix = g.npix := by
  unfold writeImage
  simp only [top_eq]
  have e : (Spec.last g.nData w.kmax).toNat = w.kmin + q := by omega
  rw [if_neg (by omega), if_neg (by omega)]
  simp only [e]
  have e2 : w.kmin + q - w.kmin = q := by omega
  rw [if_neg (by omega), e2]
  have hl : ((w.data.drop (w.kmin * g.npix)).take (q * g.npix)).length = q * g.npix := by
    rw [List.length_take, List.length_drop]
    rw [Nat.add_mul] at hd
    omega
  have hdata : (imageSet (imageResize im q) ((w.data.drop (w.kmin * g.npix)).take (q * g.npix))).data =
      (w.data.drop (w.kmin * g.npix)).take (q * g.npix) := by
    unfold imageSet imageResize
    simp only [hp, hl]
    rw [List.drop_of_length_le (l := vresize im.data (q * g.npix) 0) (by simp), List.append_nil, List.take_of_length_le (by omega)]
  refine ⟨_, rfl, ?_, ?_, hp⟩
  · unfold readImage
    rw [hdata]
    rfl
  · unfold Whole
    rw [hdata, hl]
    show _ = q * im.npix
    rw [hp]

/-- The hypotheses can be met: the second of two planes. -/
example : ∃ (g : Geo) (im : Image) (w : Write ℝ) (q : Nat), im.npix = g.npix ∧ Spec.last g.nData w.kmax = w.kmin + q ∧ q ≠ g.nData ∧
    (w.kmin + q) * g.npix ≤ w.data.length ∧ 0 < q * g.npix :=
  ⟨⟨2, fun i => i, true, 2⟩, ⟨2, 2, [0, 0, 0, 0]⟩, ⟨[1, 2, 3, 4], 1, 2⟩, 1, rfl, by simp [Spec.last], by norm_num, by simp, by norm_num⟩

/-- C101, in part.  A complete map is read as it was written if the image that was there before had
all planes, or if there was none. -/
theorem C101_image_partial (g : Geo) (w : Write ℝ) (hk : w.kmin = 0) (hw : Spec.last g.nData w.kmax = g.nData)
    (hd : w.data.length = g.nData * g.npix) :
    (∀ im, im.npix = g.npix → im.planes = g.nData → Whole im →
      ∃ im', writeImage g im w = .ok im' ∧ readImage im' = (w.data, g.nData)) ∧
    ∃ im', appendImage g w = .ok im' ∧ readImage im' = (w.data, g.nData) := by
  have key : ∀ im, im.npix = g.npix → im.planes = g.nData → Whole im →
      ∃ im', writeImage g im w = .ok im' ∧ readImage im' = (w.data, g.nData) := by
    intro im h1 h2 h3
    unfold writeImage
    simp only [top_eq]
    rw [if_pos (by omega)]
    refine ⟨_, rfl, ?_⟩
    unfold readImage imageSet
    unfold Whole at h3
    simp only [h1, h2] at h3 ⊢
    rw [List.take_of_length_le (by omega), List.drop_of_length_le (by omega), List.append_nil]
  refine ⟨key, ?_⟩
  unfold appendImage
  simp only [top_eq]
  rw [if_neg (by omega)]
  exact key _ rfl (by simp only; omega) (by unfold Whole; simp)

/-- The hypotheses can be met. -/
example : ∃ (g : Geo) (w : Write ℝ) (im : Image), w.kmin = 0 ∧ Spec.last g.nData w.kmax = g.nData ∧ w.data.length = g.nData * g.npix ∧
    im.npix = g.npix ∧ im.planes = g.nData ∧ Whole im ∧ 0 < g.npix :=
  ⟨⟨2, fun i => i, true, 2⟩, ⟨[1, 2, 3, 4], 0, -1⟩, ⟨2, 2, [0, 0, 0, 0]⟩, rfl, by simp [Spec.last], by simp, rfl, rfl, by simp [Whole], by norm_num⟩

/-- C101 is violated whenever a complete map replaces a part: the image is not enlarged, so only the
first planes are read. -/
theorem C101_image_violates (g : Geo) (hn : 0 < g.npix) (part all : Write ℝ) (q : Nat) (hp : Spec.last g.nData part.kmax = part.kmin + q)
    (hq : q < g.nData) (hd : (part.kmin + q) * g.npix ≤ part.data.length) (hk : all.kmin = 0) (ha : Spec.last g.nData all.kmax = g.nData)
    (had : all.data.length = g.nData * g.npix) :
    ∃ im im', appendImage g part = .ok im ∧ writeImage g im all = .ok im' ∧
      readImage im' = (all.data.take (q * g.npix), q) ∧ (readImage im').1 ≠ all.data := by
  obtain ⟨im, h1, h2, h3, h4⟩ := C101_image_range g ⟨g.npix, q, List.replicate (q * g.npix) 0⟩ rfl part q hp (by omega) hd
  have hp2 : im.planes = q := congrArg Prod.snd h2
  have hle : q * g.npix < g.nData * g.npix := Nat.mul_lt_mul_of_pos_right hq hn
  unfold Whole at h3
  rw [hp2, h4] at h3
  have e : (imageSet im all.data) = ⟨g.npix, q, all.data.take (q * g.npix)⟩ := by
    unfold imageSet
    rw [hp2, h4, List.drop_of_length_le (by omega), List.append_nil]
  refine ⟨im, imageSet im all.data, ?_, ?_, ?_, ?_⟩
  · unfold appendImage
    simp only [top_eq]
    rw [if_neg (by omega), show (Spec.last g.nData part.kmax).toNat - part.kmin = q by omega]
    exact h1
  · unfold writeImage
    simp only [top_eq]
    rw [if_pos (by omega)]
  · rw [e]
    rfl
  · rw [e]
    intro h
    have := congrArg List.length h
    simp only [readImage, List.length_take] at this
    omega

/-- The hypotheses can be met. -/
example : ∃ (g : Geo) (part all : Write ℝ) (q : Nat), 0 < g.npix ∧ Spec.last g.nData part.kmax = part.kmin + q ∧ q < g.nData ∧
    (part.kmin + q) * g.npix ≤ part.data.length ∧ all.kmin = 0 ∧ Spec.last g.nData all.kmax = g.nData ∧
    all.data.length = g.nData * g.npix :=
  ⟨⟨2, fun i => i, true, 2⟩, ⟨[1, 2, 3, 4], 1, 2⟩, ⟨[1, 2, 3, 4], 0, -1⟩, 1, by norm_num, by simp [Spec.last], by norm_num, by simp, rfl,
    by simp [Spec.last], by simp⟩

/-- C101 is violated for a map that was made for a range of planes only, as it is when a part of a
source map is saved: the values are taken from behind the end of the map. -/
theorem C101_image_made_violates (g : Geo) (hn : 0 < g.npix) (w : Write ℝ) (q : Nat) (hw : Spec.last g.nData w.kmax = w.kmin + q)
    (hq : q ≠ g.nData) (hk : 0 < w.kmin) (hd : w.data.length = q * g.npix) (im : Image) :
    writeImage g im w = .ub ∧ appendImage g w = .ub := by
  have key : ∀ im, writeImage g im w = .ub := by
    intro im
    unfold writeImage
    simp only [top_eq]
    rw [if_neg (by omega), if_neg (by omega)]
    rw [if_pos]
    have : q * g.npix < (w.kmin + q) * g.npix := Nat.mul_lt_mul_of_pos_right (by omega) hn
    rw [show (Spec.last g.nData w.kmax).toNat = w.kmin + q by omega]
    omega
  refine ⟨key im, ?_⟩
  unfold appendImage
  simp only [top_eq]
  rw [if_neg (by omega)]
  exact key _

/-- The hypotheses can be met: the second of two planes. -/
example : ∃ (g : Geo) (w : Write ℝ) (q : Nat), 0 < g.npix ∧ Spec.last g.nData w.kmax = w.kmin + q ∧ q ≠ g.nData ∧ 0 < w.kmin ∧
    w.data.length = q * g.npix :=
  ⟨⟨2, fun i => i, true, 2⟩, ⟨[7, 8], 1, 2⟩, 1, by norm_num, by simp [Spec.last], by norm_num, by norm_num, by simp⟩

end Verif.Files
