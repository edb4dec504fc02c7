import Verif.LtCube.Model
import Verif.LtCube.Spec
import Verif.Livetime.Props
/-
Lemmas about gtltcube.
-/
set_option linter.unusedSectionVars false
set_option linter.unusedVariables false
set_option linter.unusedSimpArgs false
namespace Verif.LtCube
open Verif.Livetime Verif.LtCube.Spec

variable {δ : Type}

/-- The two computations of the extreme times agree. -/
theorem bounds_eq (g : ℝ × ℝ) (gs : List (ℝ × ℝ)) :
    bounds (g :: gs) = .ok (Livetime.tmin (g :: gs), Livetime.tmax (g :: gs)) := by
  have key : ∀ (l : List (ℝ × ℝ)) (b : ℝ × ℝ),
      l.foldl (fun b i => (if i.1 < b.1 then i.1 else b.1, if b.2 < i.2 then i.2 else b.2)) b =
        (l.foldl (fun m g => if g.1 < m then g.1 else m) b.1, l.foldl (fun m g => if m < g.2 then g.2 else m) b.2) := by
    intro l
    induction l with
    | nil => intro b; rfl
    | cons x l ih => intro b; rw [List.foldl_cons, ih, List.foldl_cons, List.foldl_cons]
  unfold bounds Livetime.tmin Livetime.tmax
  simp only
  rw [key, List.foldl_cons, List.foldl_cons, if_neg (lt_irrefl _), if_neg (lt_irrefl _)]

/-- A row of at most a minute that does not pass the filter has no good time. -/
theorem rejected {gtis : List (ℝ × ℝ)} {r : Row δ} (hr : r.start ≤ r.stop) (hl : r.stop - r.start ≤ 60)
    (h : passes (Livetime.tmin gtis, Livetime.tmax gtis) r = false) :
    Livetime.Spec.fraction r.start r.stop [] gtis = 0 := by
  classical
  have h' : ¬ (Livetime.tmin gtis - 60 ≤ r.start ∧ r.stop ≤ Livetime.tmax gtis + 60) := by
    unfold passes at h
    exact of_decide_eq_false h
  refine fraction_zero ?_
  rcases not_and_or.1 h' with h' | h'
  · left; linarith [not_le.1 h']
  · right; linarith [not_le.1 h']

/-- The rows that do not pass the filter may be left out of a sum. -/
theorem sum_filter {gtis : List (ℝ × ℝ)} (w : Row δ → ℝ) (rows : List (Row δ)) (hr : ∀ r ∈ rows, r.start ≤ r.stop)
    (hl : ∀ r ∈ rows, r.stop - r.start ≤ 60) :
    ((rows.filter (passes (Livetime.tmin gtis, Livetime.tmax gtis))).map fun r =>
      w r * Livetime.Spec.fraction r.start r.stop [] gtis).sum =
    (rows.map fun r => w r * Livetime.Spec.fraction r.start r.stop [] gtis).sum := by
  induction rows with
  | nil => rfl
  | cons r rows ih =>
    have ih := ih (fun x hx => hr x (List.mem_cons_of_mem _ hx)) (fun x hx => hl x (List.mem_cons_of_mem _ hx))
    cases hp : passes (Livetime.tmin gtis, Livetime.tmax gtis) r with
    | true => rw [List.filter_cons_of_pos hp, List.map_cons, List.sum_cons, ih, List.map_cons, List.sum_cons]
    | false =>
      rw [List.filter_cons_of_neg (by rw [hp]; exact Bool.false_ne_true), ih, List.map_cons, List.sum_cons,
        rejected (hr r (List.mem_cons_self ..)) (hl r (List.mem_cons_self ..)) hp, mul_zero, zero_add]

theorem inOrder_filter {rows : List (Row δ)} (h : InOrder rows) (p : Row δ → Bool) : Livetime.Sorted (rows.filter p) :=
  ⟨fun r hr => h.1 r (List.mem_of_mem_filter hr), h.2.sublist List.filter_sublist⟩

theorem loadFiles_eq (w : World δ) {gtis : List (ℝ × ℝ)} (hg : Livetime.Spec.Ordered gtis) (hne : gtis ≠ [])
    (files : List Nat)
    (hf : ∀ k ∈ files, ∃ rows, w.sc k = some rows ∧ InOrder rows ∧ ∀ r ∈ rows, r.stop - r.start ≤ 60) :
    ∃ fills, loadFiles w gtis (Livetime.tmin gtis, Livetime.tmax gtis) files = .ok fills ∧
      (∀ f, (fills.map fun x => f x.dir * x.time).sum = livetime gtis (allRows w files) f) ∧
      ∀ f, (fills.map fun x => f x.dir * x.weighted).sum = Spec.weighted gtis (allRows w files) f := by
  induction files with
  | nil => exact ⟨[], rfl, fun _ => rfl, fun _ => rfl⟩
  | cons k ks ih =>
    obtain ⟨rows, h1, h2, h3⟩ := hf k (List.mem_cons_self ..)
    obtain ⟨b, e1, e2, e3⟩ := ih fun x hx => hf x (List.mem_cons_of_mem _ hx)
    obtain ⟨a, d1, d2, d3⟩ := C60_load [] gtis (rows.filter (passes (Livetime.tmin gtis, Livetime.tmax gtis))) hg hne
      (inOrder_filter h2 _)
    have hr : allRows w (k :: ks) = rows ++ allRows w ks := by
      unfold allRows; rw [List.flatMap_cons, h1]; rfl
    refine ⟨a ++ b, ?_, fun f => ?_, fun f => ?_⟩
    · rw [loadFiles, h1]
      simp only
      rw [d1, Res.bind_ok, e1, Res.bind_ok]
    · rw [List.map_append, List.sum_append, d2, e2, hr]
      unfold livetime
      rw [List.map_append, List.sum_append]
      have := sum_filter (gtis := gtis) (fun r : Row δ => f r.dir * r.livetime) rows h2.1 h3
      simp only [mul_assoc] at this
      rw [this]
    · rw [List.map_append, List.sum_append, d3, e3, hr]
      unfold Spec.weighted
      rw [List.map_append, List.sum_append]
      have := sum_filter (gtis := gtis) (fun r : Row δ => f r.dir * r.livetime * (r.livetime / (r.stop - r.start))) rows
        h2.1 h3
      have e : ∀ r : Row δ, f r.dir * (r.livetime * Livetime.Spec.fraction r.start r.stop [] gtis *
          (r.livetime / (r.stop - r.start))) = f r.dir * r.livetime * (r.livetime / (r.stop - r.start)) *
          Livetime.Spec.fraction r.start r.stop [] gtis := fun r => by ring
      simp only [e]
      rw [this]

theorem put_same (w : World δ) (f : Nat) (x : Option (Cube δ)) : (w.put f x).cubes f = x := if_pos rfl

theorem put_other (w : World δ) {f k : Nat} (h : k ≠ f) (x : Option (Cube δ)) : (w.put f x).cubes k = w.cubes k :=
  if_neg h

theorem createCube_put (w : World δ) (c : Call) (cuts : Cuts) (f : Nat) (x : Option (Cube δ)) :
    createCube (w.put f x) c cuts = createCube w c cuts := by
  have : ∀ gtis b files, loadFiles (w.put f x) gtis b files = loadFiles w gtis b files := by
    intro gtis b files
    induction files with
    | nil => rfl
    | cons k ks ih => rw [loadFiles, loadFiles, ih]; rfl
  unfold createCube
  simp only [this]

/-- What `finish` changes. -/
theorem finish_frame (c : Call) (cuts : Cuts) (w : World δ) :
    (finish c cuts w).2.sc = w.sc ∧ ∀ k, k ≠ c.out → (finish c cuts w).2.cubes k = w.cubes k := by
  unfold finish
  cases createCube w c cuts with
  | ok fills => exact ⟨rfl, fun k hk => put_other w hk _⟩
  | throws => exact ⟨rfl, fun k hk => rfl⟩
  | ub => exact ⟨rfl, fun k hk => rfl⟩

end Verif.LtCube
