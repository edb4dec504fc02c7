import Verif.LtSum.Model
import Verif.LtSum.Spec
import Mathlib.Tactic.Ring
import Mathlib.Tactic.NormNum
import Mathlib.Tactic.Linarith
set_option linter.unusedSectionVars false
set_option linter.unusedSimpArgs false
set_option linter.unusedVariables false
namespace Verif.LtSum
open Verif Spec

/-- The value in a cell of a list of rows. -/
def at2 (rows : List (List ℝ)) (i j : Nat) : ℝ := ((rows[i]?.getD [])[j]?).getD 0

theorem cell_eq (t : Tab) (i j : Nat) : cell t i j = at2 t.rows i j := rfl

theorem at2_nil (i j : Nat) : at2 [] i j = 0 := by simp [at2]

theorem at2_zero (a : List ℝ) (as : List (List ℝ)) (j : Nat) : at2 (a :: as) 0 j = (a[j]?).getD 0 := by simp [at2]

theorem at2_succ (a : List ℝ) (as : List (List ℝ)) (i j : Nat) : at2 (a :: as) (i + 1) j = at2 as i j := by simp [at2]

theorem zipWith_getD : ∀ (a m : List ℝ) (j : Nat), a.length = m.length →
    ((List.zipWith (· + ·) a m)[j]?).getD 0 = (a[j]?).getD 0 + (m[j]?).getD 0
  | [], [], j, _ => by simp
  | [], _ :: _, _, h => by simp at h
  | _ :: _, [], _, h => by simp at h
  | x :: a, y :: m, 0, _ => by simp
  | x :: a, y :: m, j + 1, h => by simpa using zipWith_getD a m j (by simpa using h)

theorem addRows_ok : ∀ (a m : List (List ℝ)), a.map List.length = m.map List.length →
    ∃ r, addRows a m = .ok r ∧ r.map List.length = a.map List.length ∧ ∀ i j, at2 r i j = at2 a i j + at2 m i j
  | [], [], _ => ⟨[], rfl, rfl, fun i j => by simp [at2_nil]⟩
  | [], _ :: _, h => by simp at h
  | _ :: _, [], h => by simp at h
  | a :: as, m :: ms, h => by
    simp only [List.map_cons, List.cons.injEq] at h
    obtain ⟨rs, h1, h2, h3⟩ := addRows_ok as ms h.2
    refine ⟨List.zipWith (· + ·) a m :: rs, ?_, ?_, ?_⟩
    · rw [addRows, addRow, if_neg (by simpa using h.1), Res.bind_ok, h1, Res.bind_ok]
    · simp only [List.map_cons, h2, List.length_zipWith, ← h.1, Nat.min_self]
    · intro i j
      cases i with
      | zero => simp only [at2_zero, zipWith_getD _ _ _ h.1]
      | succ i => simp only [at2_succ, h3]

theorem addRows_throws : ∀ (a m : List (List ℝ)), a.length = m.length → a.map List.length ≠ m.map List.length →
    addRows a m = .throws
  | [], [], _, h => absurd rfl h
  | [], _ :: _, h, _ => by simp at h
  | _ :: _, [], h, _ => by simp at h
  | a :: as, m :: ms, hl, h => by
    rw [addRows, addRow]
    by_cases e : a.length = m.length
    · rw [if_neg (by simpa using e), Res.bind_ok]
      have : as.map List.length ≠ ms.map List.length := by
        intro h'
        exact h (by simp only [List.map_cons, e, h'])
      rw [addRows_throws as ms (by simpa using hl) this]
      rfl
    · rw [if_pos e]
      rfl

theorem zenOf_eq (t : Tab) : zenOf t = zen t := by
  unfold zenOf zen
  cases t.zenmax <;> rfl

theorem Spec.Alike.refl (a : Tab) : Alike a a := ⟨rfl, rfl⟩

theorem Spec.Alike.symm {a b : Tab} (h : Alike a b) : Alike b a := ⟨h.1.symm, h.2.symm⟩

theorem Spec.Alike.trans {a b c : Tab} (h : Alike a b) (k : Alike b c) : Alike a c := ⟨h.1.trans k.1, h.2.trans k.2⟩

theorem addTab_ok {acc t : Tab} (h : Alike acc t) :
    ∃ s, addTab (zen acc) acc t = .ok s ∧ Alike s acc ∧ (∀ i j, cell s i j = cell acc i j + cell t i j) ∧
      s.tstart = min acc.tstart t.tstart ∧ s.tstop = max acc.tstop t.tstop := by
  obtain ⟨r, h1, h2, h3⟩ := addRows_ok _ _ h.1
  have hl : acc.rows.length = t.rows.length := by simpa using congrArg List.length h.1
  refine ⟨⟨r, if t.tstart < acc.tstart then t.tstart else acc.tstart, if acc.tstop < t.tstop then t.tstop else acc.tstop,
    acc.zenmax⟩, ?_, ?_, ?_, ?_, ?_⟩
  · unfold addTab
    rw [zenOf_eq, if_neg (by rw [h.2]; simp), if_neg (by simpa using hl), h1, Res.bind_ok]
  · exact ⟨h2, rfl⟩
  · exact h3
  · simp only
    split
    · rw [min_eq_right (by linarith)]
    · rw [min_eq_left (by linarith)]
  · simp only
    split
    · rw [max_eq_right (by linarith)]
    · rw [max_eq_left (by linarith)]

theorem addTab_throws {acc t : Tab} (h : ¬ Alike acc t) : addTab (zen acc) acc t = .throws := by
  unfold addTab
  rw [zenOf_eq]
  by_cases e : zen t = zen acc
  · rw [if_neg (by simpa using e)]
    by_cases hl : acc.rows.length = t.rows.length
    · rw [if_neg (by simpa using hl), addRows_throws _ _ hl (fun h' => h ⟨h', e.symm⟩)]
      rfl
    · rw [if_pos hl]
  · rw [if_pos e]

/-- The files of a list. -/
def Opens (fs : FS) (ks : List Nat) (fl : List LtFile) : Prop := List.Forall₂ (fun k f => fs k = some f) ks fl

theorem open_ok {fs : FS} {k : Nat} {f : LtFile} (h : fs k = some f) : open' fs k = .ok f := by
  unfold open'; rw [h]

theorem isSum_single (t : Tab) : IsSum [t] t := by
  refine ⟨?_, ?_, ?_, ⟨t, by simp, rfl⟩, ?_, ⟨t, by simp, rfl⟩⟩
  · intro u hu; rw [List.mem_singleton.1 hu]; exact Alike.refl _
  · intro i j; simp
  · intro u hu; rw [List.mem_singleton.1 hu]
  · intro u hu; rw [List.mem_singleton.1 hu]

/-- One more table. -/
theorem Spec.IsSum.add {ts : List Tab} {acc t s : Tab} (h : IsSum ts acc) (ha : Alike s acc) (ht : Alike acc t)
    (hc : ∀ i j, cell s i j = cell acc i j + cell t i j) (h1 : s.tstart = min acc.tstart t.tstart)
    (h2 : s.tstop = max acc.tstop t.tstop) : IsSum (ts ++ [t]) s := by
  obtain ⟨a1, a2, a3, ⟨u, a4, a4'⟩, a5, ⟨v, a6, a6'⟩⟩ := h
  refine ⟨?_, ?_, ?_, ?_, ?_, ?_⟩
  · intro x hx
    rcases List.mem_append.1 hx with hx | hx
    · exact (a1 x hx).trans ha.symm
    · rw [List.mem_singleton.1 hx]; exact ht.symm.trans ha.symm
  · intro i j
    rw [hc, a2]; simp
  · intro x hx
    rw [h1]
    rcases List.mem_append.1 hx with hx | hx
    · exact le_trans (min_le_left _ _) (a3 x hx)
    · rw [List.mem_singleton.1 hx]; exact min_le_right _ _
  · rcases le_total acc.tstart t.tstart with h | h
    · exact ⟨u, by simp [a4], by rw [h1, min_eq_left h, a4']⟩
    · exact ⟨t, by simp, by rw [h1, min_eq_right h]⟩
  · intro x hx
    rw [h2]
    rcases List.mem_append.1 hx with hx | hx
    · exact le_trans (a5 x hx) (le_max_left _ _)
    · rw [List.mem_singleton.1 hx]; exact le_max_right _ _
  · rcases le_total acc.tstop t.tstop with h | h
    · exact ⟨t, by simp, by rw [h2, max_eq_right h]⟩
    · exact ⟨v, by simp [a6], by rw [h2, max_eq_left h, a6']⟩

theorem addRest_ok {fs : FS} {sel : LtFile → Tab} : ∀ {ks : List Nat} {fl : List LtFile} (ts : List Tab) (acc : Tab),
    Opens fs ks fl → IsSum ts acc → (∀ f ∈ fl, Alike acc (sel f)) →
    ∃ s, addRest fs sel (zen acc) acc ks = .ok s ∧ IsSum (ts ++ fl.map sel) s ∧ Alike s acc
  | _, _, ts, acc, .nil, h, _ => ⟨acc, rfl, by simpa using h, Alike.refl _⟩
  | _, _, ts, acc, .cons (a := k) (b := f) (l₁ := ks) (l₂ := fl) e es, h, hf => by
    obtain ⟨s1, p1, p2, p3, p4, p5⟩ := addTab_ok (hf f List.mem_cons_self)
    have hs := h.add p2 (hf f List.mem_cons_self) p3 p4 p5
    obtain ⟨s, q1, q2, q3⟩ := addRest_ok (sel := sel) (ts ++ [sel f]) s1 es hs
      (fun g hg => p2.trans (hf g (List.mem_cons_of_mem _ hg)))
    refine ⟨s, ?_, ?_, q3.trans p2⟩
    · rw [addRest, open_ok e, Res.bind_ok, p1, Res.bind_ok, ← p2.2, q1]
    · simpa using q2

theorem addRest_throws {fs : FS} {sel : LtFile → Tab} : ∀ {ks : List Nat} {fl : List LtFile} (acc : Tab),
    Opens fs ks fl → (¬ ∀ f ∈ fl, Alike acc (sel f)) → addRest fs sel (zen acc) acc ks = .throws
  | _, _, acc, .nil, h => absurd (by simp) h
  | _, _, acc, .cons (a := k) (b := f) (l₁ := ks) (l₂ := fl) e es, h => by
    rw [addRest, open_ok e, Res.bind_ok]
    by_cases hf : Alike acc (sel f)
    · obtain ⟨s1, p1, p2, p3, p4, p5⟩ := addTab_ok hf
      rw [p1, Res.bind_ok, ← p2.2]
      refine addRest_throws s1 es (fun h' => h ?_)
      intro g hg
      rcases List.mem_cons.1 hg with rfl | hg
      · exact hf
      · exact p2.symm.trans (h' g hg)
    · rw [addTab_throws hf]; rfl

theorem total_ok {fs : FS} (sel : LtFile → Tab) {ks : List Nat} {f : LtFile} {fl : List LtFile} (h : Opens fs ks (f :: fl))
    (ha : ∀ g ∈ fl, Alike (sel f) (sel g)) :
    ∃ s, total fs sel ks = .ok s ∧ IsSum ((f :: fl).map sel) s ∧ Alike s (sel f) := by
  cases h with
  | cons e es =>
    obtain ⟨s, h1, h2, h3⟩ := addRest_ok [sel f] (sel f) es (isSum_single _) ha
    exact ⟨s, by rw [total, open_ok e, Res.bind_ok, zenOf_eq, h1], by simpa using h2, h3⟩

theorem total_throws {fs : FS} (sel : LtFile → Tab) {ks : List Nat} {f : LtFile} {fl : List LtFile} (h : Opens fs ks (f :: fl))
    (ha : ¬ ∀ g ∈ fl, Alike (sel f) (sel g)) : total fs sel ks = .throws := by
  cases h with
  | cons e es => rw [total, open_ok e, Res.bind_ok, zenOf_eq, addRest_throws _ es ha]

theorem zip_any : ∀ (a b : List ℝ), a.length = b.length →
    ((open Classical in (List.zip a b).any fun p => decide (p.1 ≠ p.2)) = true ↔ a ≠ b)
  | [], [], _ => by simp
  | [], _ :: _, h => by simp at h
  | _ :: _, [], h => by simp at h
  | x :: a, y :: b, h => by
    have ih := zip_any a b (by simpa using h)
    rw [List.zip_cons_cons, List.any_cons, Bool.or_eq_true, ih]
    by_cases e : x = y <;> simp [e]

theorem differ_iff (m o : List ℝ) : differ m o = true ↔ m ≠ o := by
  unfold differ
  by_cases h : o.length = m.length
  · have := zip_any o m h
    rw [Bool.or_eq_true, this]
    simp only [h, ne_eq, not_true_eq_false, decide_false, Bool.false_eq_true, false_or]
    exact ⟨fun h h' => h h'.symm, fun h h' => h h'.symm⟩
  · simp only [h, ne_eq, not_false_eq_true, decide_true, Bool.true_or, true_iff]
    rintro rfl
    exact h rfl

theorem checkRest_iff {fs : FS} (m : List ℝ) : ∀ {ks : List Nat} {fl : List LtFile}, Opens fs ks fl →
    ((∀ f ∈ fl, m = f.bounds) → checkRest fs m ks = .ok ()) ∧ ((¬ ∀ f ∈ fl, m = f.bounds) → checkRest fs m ks = .throws)
  | _, _, .nil => ⟨fun _ => rfl, fun h => absurd (by simp) h⟩
  | _, _, .cons (a := k) (b := f) (l₁ := ks) (l₂ := fl) e es => by
    have ih := checkRest_iff m es
    have hd := differ_iff m f.bounds
    rw [checkRest, open_ok e, Res.bind_ok]
    constructor
    · intro h
      rw [if_neg (by rw [hd]; simpa using h f List.mem_cons_self)]
      exact ih.1 fun g hg => h g (List.mem_cons_of_mem _ hg)
    · intro h
      by_cases hm : m = f.bounds
      · rw [if_neg (by rw [hd]; simpa using hm)]
        refine ih.2 fun h' => h ?_
        intro g hg
        rcases List.mem_cons.1 hg with rfl | hg
        · exact hm
        · exact h' g hg
      · rw [if_pos (by rw [hd]; exact hm)]

theorem Opens.put {fs : FS} {out : Nat} {o : LtFile} : ∀ {ks : List Nat} {fl : List LtFile}, Opens fs ks fl → out ∉ ks →
    Opens (put fs out o) ks fl
  | _, _, .nil, _ => .nil
  | _, _, .cons (a := k) (b := f) (l₁ := ks) (l₂ := fl) e es, h => by
    refine .cons ?_ (Opens.put es fun h' => h (List.mem_cons_of_mem _ h'))
    unfold LtSum.put
    rw [if_neg (by rintro rfl; exact h List.mem_cons_self)]
    exact e

theorem put_self (fs : FS) (k : Nat) (f : LtFile) : put fs k f k = some f := if_pos rfl

theorem put_other (fs : FS) (f : LtFile) {k i : Nat} (h : i ≠ k) : put fs k f i = fs i := if_neg h

theorem overwrite_ok {t s : Tab} (h : Alike s t) (hz : s.zenmax = t.zenmax) : overwrite t s = .ok s := by
  have hl : s.rows.length = t.rows.length := by simpa using congrArg List.length h.1
  unfold overwrite
  rw [if_neg (by omega), ← hl, List.take_length]
  congr 1
  cases s; cases t; simp_all

theorem overwrite_ok' {t s : Tab} (h : Alike s t) :
    overwrite t s = .ok ⟨s.rows, s.tstart, s.tstop, t.zenmax⟩ := by
  have hl : s.rows.length = t.rows.length := by simpa using congrArg List.length h.1
  unfold overwrite
  rw [if_neg (by omega), ← hl, List.take_length]

theorem Spec.IsSum.rezen {ts : List Tab} {s : Tab} (h : IsSum ts s) {z : Option ℝ} (hz : ∀ a b c, zen ⟨a, b, c, z⟩ = zen s) :
    IsSum ts ⟨s.rows, s.tstart, s.tstop, z⟩ := by
  obtain ⟨a1, a2, a3, a4, a5, a6⟩ := h
  exact ⟨fun t ht => ⟨(a1 t ht).1, by rw [hz]; exact (a1 t ht).2⟩, a2, a3, a4, a5, a6⟩

end Verif.LtSum
