import Verif.ScanPrior.Model
import Verif.ScanPrior.Spec
import Verif.Energy.Lemmas
import Verif.Vec
import Mathlib.Tactic.Linarith
import Mathlib.Tactic.Ring
import Mathlib.Tactic.FieldSimp
import Mathlib.Tactic.NormNum
/-
Lemmas for priors of scans.
-/
set_option linter.unusedSectionVars false
set_option linter.unusedSimpArgs false
set_option linter.unusedVariables false
namespace Verif.ScanPrior
open Spec Verif.Vec

/-- The elements with a flag. -/
def pick {α : Type} : List Bool → List α → List α
  | true :: bs, a :: l => a :: pick bs l
  | false :: bs, _ :: l => pick bs l
  | _, _ => []

theorem pick_length {α : Type} : ∀ {bs : List Bool} {l : List α}, bs.length = l.length → (pick bs l).length = bs.count true
  | [], [], _ => rfl
  | true :: bs, a :: l, h => by simp [pick, pick_length (bs := bs) (l := l) (by simpa using h)]
  | false :: bs, a :: l, h => by simp [pick, pick_length (bs := bs) (l := l) (by simpa using h)]

theorem pick_append {α : Type} : ∀ {bs : List Bool} {l m : List α}, bs.length = l.length → pick bs (l ++ m) = pick bs l
  | [], [], m, _ => by cases m <;> rfl
  | true :: bs, a :: l, m, h => by simp [pick, pick_append (bs := bs) (l := l) (m := m) (by simpa using h)]
  | false :: bs, a :: l, m, h => by simp [pick, pick_append (bs := bs) (l := l) (m := m) (by simpa using h)]

theorem pick_map {α β : Type} (f : α → β) : ∀ (bs : List Bool) (l : List α), pick bs (l.map f) = (pick bs l).map f
  | [], _ => by simp [pick]
  | true :: bs, [] => rfl
  | false :: bs, [] => rfl
  | true :: bs, a :: l => by simp [pick, pick_map f bs l]
  | false :: bs, a :: l => by simp [pick, pick_map f bs l]

theorem pick_true {α : Type} (l : List α) : pick (List.replicate l.length true) l = l := by
  induction l with
  | nil => rfl
  | cons a l ih => simp [List.replicate_succ, pick, ih]

theorem idxRed_mapM {α : Type} (l : List α) : ∀ (bs : List Bool) (k : Nat), k + bs.length ≤ l.length →
    (idxRed k bs).mapM (vget l) = .ok (pick bs (l.drop k))
  | [], k, _ => by simp [idxRed, pick]
  | b :: bs, k, h => by
    rw [List.length_cons] at h
    have hk : k < l.length := by omega
    rw [List.drop_eq_getElem_cons hk]
    have ih := idxRed_mapM l bs (k + 1) (by omega)
    cases b with
    | true =>
      unfold idxRed
      rw [if_pos rfl, List.mapM_cons, vget_lt l k hk, Res.bind_ok, ih, Res.bind_ok]
      rfl
    | false =>
      unfold idxRed
      rw [if_neg (by simp), ih]
      rfl

theorem range_mapM {β : Type} (f : Nat → Res β) (l : List β) (n : Nat) (hn : l.length = n)
    (h : ∀ i (hi : i < l.length), f i = .ok l[i]) : (List.range n).mapM f = .ok l := by
  subst hn
  cases l with
  | nil => rfl
  | cons b l' =>
    rw [mapM_ok f (fun i => ((b :: l')[i]?).getD b) (List.range (b :: l').length) (fun i hi => by
      rw [List.mem_range] at hi
      rw [h i hi, List.getElem?_eq_getElem hi]; rfl)]
    congr 1
    apply List.ext_getElem (by simp)
    intro i h1 h2
    rw [List.getElem_map, List.getElem_range, List.getElem?_eq_getElem h2]
    rfl

/-- The diagonal of one parameter. -/
noncomputable def entry (b : Bool) (u : ℝ) : ℝ × ℝ := if b then diagValue u else (0, 0)

theorem updateDiag_ok {c u : List ℝ} {h bs : List Bool} (hu : u.length = c.length) (hh : h.length = c.length)
    (hb : bs.length = c.length) (incl : Bool) :
    updateDiag c u h bs incl = .ok ⟨pick bs c ++ (if incl then [0] else []),
      Sym.diag ((pick bs (List.zipWith entry h u)).map Prod.fst ++ (if incl then [0] else [])),
      Sym.diag ((pick bs (List.zipWith entry h u)).map Prod.snd ++ (if incl then [0] else [])), bs, incl⟩ := by
  have hz : (List.zipWith entry h u).length = c.length := by simp [hu, hh]
  unfold updateDiag
  rw [range_mapM (diagEntry u h) (List.zipWith entry h u) c.length hz (fun i hi => by
    rw [hz] at hi
    unfold diagEntry
    rw [vget_lt h i (by omega), Res.bind_ok, List.getElem_zipWith]
    unfold entry
    by_cases hb : h[i] = true
    · rw [if_pos hb, if_pos hb, vget_lt u i (by omega), Res.bind_ok]
    · rw [if_neg hb, if_neg hb]), Res.bind_ok]
  cases incl with
  | true =>
    simp only [if_true]
    rw [idxRed_mapM _ bs 0 (by simp; omega), Res.bind_ok, idxRed_mapM _ bs 0 (by simp; omega), Res.bind_ok]
    rw [List.drop_zero, List.drop_zero, pick_append (by omega), pick_append (by omega)]
  | false =>
    simp only [if_false, Bool.false_eq_true, List.append_nil]
    rw [idxRed_mapM _ bs 0 (by omega), Res.bind_ok, idxRed_mapM _ bs 0 (by omega), Res.bind_ok]
    rw [List.drop_zero, List.drop_zero]

/-- The sum of squares. -/
noncomputable def quad : List ℝ → List ℝ → List ℝ → ℝ
  | h :: hs, c :: cs, x :: xs => h * (x - c) ^ 2 + quad hs cs xs
  | _, _, _ => 0

theorem quad_sum : ∀ (h c x : List ℝ), h.length = c.length → x.length = c.length →
    ∑ i ∈ Finset.range x.length, (x[i]?.getD 0 - c[i]?.getD 0) * (h[i]?.getD 0) * (x[i]?.getD 0 - c[i]?.getD 0) = quad h c x
  | [], [], [], _, _ => by simp [quad]
  | h :: hs, c :: cs, x :: xs, h1, h2 => by
    have ih := quad_sum hs cs xs (by simpa using h1) (by simpa using h2)
    rw [List.length_cons, Finset.sum_range_succ']
    unfold quad
    simp only [List.getElem?_cons_succ, List.getElem?_cons_zero, Option.getD_some]
    rw [ih]
    ring

theorem logLike_diag {p : Prior} {h : List ℝ} (hp : p.hess = Sym.diag h) (hh : h.length = p.central.length) {x : List ℝ}
    (hx : x.length = p.central.length) : p.logLike x = .ok (-(1 / 2) * quad h p.central x) := by
  unfold Prior.logLike
  rw [if_neg (by simpa using hx), if_neg (by rw [hp]; simp [Sym.diag]; omega), ← quad_sum h p.central x hh hx]
  congr 2
  apply Finset.sum_congr rfl
  intro i hi
  rw [Finset.sum_eq_single i]
  · rw [hp]; simp [Sym.diag]
  · intro j _ hj
    rw [hp]
    simp [Sym.diag]
    intro e
    exact absurd e.symm hj
  · intro h; exact absurd hi h

theorem quad_append : ∀ {h c x : List ℝ} {z : ℝ}, h.length = c.length → x.length = c.length →
    quad (h ++ [0]) (c ++ [0]) (x ++ [z]) = quad h c x
  | [], [], [], z, _, _ => by simp [quad]
  | h :: hs, c :: cs, x :: xs, z, h1, h2 => by
    simp only [List.cons_append, quad]
    rw [quad_append (by simpa using h1) (by simpa using h2)]

/-! ### The priors of parameters -/

/-- Mean, width and flag in units of the reference value. -/
noncomputable def inUnits (p : Option (ℝ × ℝ)) (r : ℝ) : ℝ × ℝ × Bool :=
  ((p.map Prod.fst).getD 0 / r, (p.map Prod.snd).getD 0 / r, p.isSome)

theorem rescale_all {ps : List (Option (ℝ × ℝ))} {refv : List ℝ} (hl : refv.length = ps.length)
    (hr : ∀ r ∈ refv, 1e-15 ≤ r) : (ps.zipIdx.map fun p => rescale refv p.2 p.1) = List.zipWith inUnits ps refv := by
  apply List.ext_getElem (by simp [hl])
  intro i h1 h2
  have hi : i < ps.length := by simpa using h1
  rw [List.getElem_map, List.getElem_zipIdx, List.getElem_zipWith]
  unfold rescale
  simp only [Nat.zero_add]
  rw [List.getElem?_eq_getElem (by omega)]
  simp only
  rw [if_neg (not_lt.2 (hr _ (List.getElem_mem _)))]
  rfl

theorem entry_again (b : Bool) (u : ℝ) : entry true (Real.sqrt (entry b u).1) = entry b u := by
  unfold entry
  rw [if_pos rfl]
  have z : diagValue (Real.sqrt 0) = (0, 0) := by
    unfold diagValue
    rw [if_neg (by simp)]
  cases b with
  | false => simp only [if_false, Bool.false_eq_true]; exact z
  | true =>
    simp only [if_true]
    by_cases hu : 0 < |u|
    · have e : diagValue u = (u * u, 1 / (u * u)) := by unfold diagValue; rw [if_pos hu]
      rw [e]
      simp only
      rw [Real.sqrt_mul_self_eq_abs]
      unfold diagValue
      rw [abs_abs, if_pos hu, abs_mul_abs_self]
    · have e : diagValue u = (0, 0) := by unfold diagValue; rw [if_neg hu]
      rw [e]
      exact z

/-- The diagonal of all parameters. -/
noncomputable def diagAll (ps : List (Option (ℝ × ℝ))) (refv : List ℝ) : List (ℝ × ℝ) :=
  List.zipWith (fun p r => entry (inUnits p r).2.2 (inUnits p r).2.1) ps refv

/-- The means of all parameters. -/
noncomputable def meanAll (ps : List (Option (ℝ × ℝ))) (refv : List ℝ) : List ℝ :=
  List.zipWith (fun p r => (inUnits p r).1) ps refv

theorem quad_prior : ∀ (ps : List (Option (ℝ × ℝ))) (refv : List ℝ) (bs : List Bool) (x : List ℝ),
    refv.length = ps.length → bs.length = ps.length → x.length = bs.count true → (∀ r ∈ refv, (1e-15 : ℝ) ≤ r) →
    -(1 / 2) * quad (pick bs ((diagAll ps refv).map Prod.snd)) (pick bs (meanAll ps refv)) x = logPrior ps refv bs x
  | [], [], [], [], _, _, _, _ => by simp [quad, pick, logPrior]
  | p :: ps, r :: rs, true :: bs, x, h1, h2, h3, h4 => by
    cases x with
    | nil => simp at h3
    | cons x xs =>
      have ih := quad_prior ps rs bs xs (by simpa using h1) (by simpa using h2) (by simpa using h3)
        (fun r hr => h4 r (by simp [hr]))
      have hr : 0 < r := lt_of_lt_of_le (by norm_num) (h4 r (by simp))
      unfold diagAll meanAll at ih ⊢
      simp only [List.zipWith_cons_cons, List.map_cons, pick, quad, logPrior]
      rw [← ih, mul_add]
      congr 1
      cases p with
      | none => simp [inUnits, entry, term]
      | some q =>
        obtain ⟨m, s⟩ := q
        simp only [inUnits, entry, Option.isSome_some, if_true, Option.map_some, Option.getD_some, term]
        unfold diagValue
        by_cases hs : s = 0
        · subst hs; simp
        · rw [if_pos (by rw [abs_pos]; exact div_ne_zero hs hr.ne'), if_neg hs]
          field_simp
  | p :: ps, r :: rs, false :: bs, x, h1, h2, h3, h4 => by
    have ih := quad_prior ps rs bs x (by simpa using h1) (by simpa using h2) (by simpa using h3)
      (fun r hr => h4 r (by simp [hr]))
    unfold diagAll meanAll at ih ⊢
    simp only [List.zipWith_cons_cons, List.map_cons, pick, logPrior]
    exact ih

theorem logPrior_append : ∀ (ps : List (Option (ℝ × ℝ))) (refv : List ℝ) (bs : List Bool) (x : List ℝ) (z : ℝ),
    refv.length = ps.length → bs.length = ps.length → x.length = bs.count true →
    logPrior ps refv bs (x ++ [z]) = logPrior ps refv bs x
  | [], [], [], [], z, _, _, _ => by simp [logPrior]
  | p :: ps, r :: rs, true :: bs, x, z, h1, h2, h3 => by
    cases x with
    | nil => simp at h3
    | cons x xs =>
      simp only [List.cons_append, logPrior]
      rw [logPrior_append ps rs bs xs z (by simpa using h1) (by simpa using h2) (by simpa using h3)]
  | p :: ps, r :: rs, false :: bs, x, z, h1, h2, h3 => by
    have := logPrior_append ps rs bs x z (by simpa using h1) (by simpa using h2) (by simpa using h3)
    cases x with
    | nil => simpa [logPrior] using this
    | cons y ys => simpa [logPrior] using this

theorem logPrior_none : ∀ (ps : List (Option (ℝ × ℝ))) (refv : List ℝ) (bs : List Bool) (x : List ℝ),
    ps.any Option.isSome = false → logPrior ps refv bs x = 0
  | [], _, _, _, _ => by simp [logPrior]
  | p :: ps, [], _, _, _ => by simp [logPrior]
  | p :: ps, r :: rs, [], _, _ => by simp [logPrior]
  | p :: ps, r :: rs, true :: bs, [], _ => by simp [logPrior]
  | p :: ps, r :: rs, true :: bs, x :: xs, h => by
    rw [List.any_cons, Bool.or_eq_false_iff] at h
    cases p with
    | some q => simp at h
    | none => simp [logPrior, term, logPrior_none ps rs bs xs h.2]
  | p :: ps, r :: rs, false :: bs, x, h => by
    rw [List.any_cons, Bool.or_eq_false_iff] at h
    cases x with
    | nil => simpa [logPrior] using logPrior_none ps rs bs [] h.2
    | cons y ys => simpa [logPrior] using logPrior_none ps rs bs (y :: ys) h.2

/-- The prior of all parameters. -/
def FromPars (ps : List (Option (ℝ × ℝ))) (refv : List ℝ) (o : Option Prior) : Prop :=
  (ps.any Option.isSome = false ∧ o = none) ∨ ∃ P, o = some P ∧ P.central = meanAll ps refv ∧
    P.cov = Sym.diag ((diagAll ps refv).map Prod.fst)

theorem meanAll_length {ps : List (Option (ℝ × ℝ))} {refv : List ℝ} (hl : refv.length = ps.length) :
    (meanAll ps refv).length = ps.length := by unfold meanAll; simp [hl]

theorem diagAll_length {ps : List (Option (ℝ × ℝ))} {refv : List ℝ} (hl : refv.length = ps.length) :
    (diagAll ps refv).length = ps.length := by unfold diagAll; simp [hl]

theorem uncertainties_ok {ps : List (Option (ℝ × ℝ))} {refv : List ℝ} (hl : refv.length = ps.length) {P : Prior}
    (h1 : P.central = meanAll ps refv) (h2 : P.cov = Sym.diag ((diagAll ps refv).map Prod.fst)) :
    uncertainties P = .ok ((diagAll ps refv).map fun d => Real.sqrt d.1) := by
  unfold uncertainties
  apply range_mapM
  · rw [List.length_map, diagAll_length hl, h1, meanAll_length hl]
  · intro i hi
    rw [List.length_map] at hi
    unfold Sym.get
    rw [h2, if_pos (by simp [Sym.diag]; exact hi), Res.bind_ok]
    simp [Sym.diag, hi]

theorem entry_all {ps : List (Option (ℝ × ℝ))} {refv : List ℝ} (hl : refv.length = ps.length) :
    List.zipWith entry (List.replicate ps.length true) ((diagAll ps refv).map fun d => Real.sqrt d.1) = diagAll ps refv := by
  have hd := diagAll_length hl
  apply List.ext_getElem (by simp [hd])
  intro i h1 h2
  rw [List.getElem_zipWith, List.getElem_map, List.getElem_replicate]
  have e : (diagAll ps refv)[i] = entry (inUnits (ps[i]'(by omega)) (refv[i]'(by omega))).2.2
      (inUnits (ps[i]'(by omega)) (refv[i]'(by omega))).2.1 := List.getElem_zipWith
  rw [e, entry_again]

/-- The prior of the free parameters. -/
noncomputable def made (ps : List (Option (ℝ × ℝ))) (refv : List ℝ) (bs : List Bool) (incl : Bool) : Prior :=
  ⟨pick bs (meanAll ps refv) ++ (if incl then [0] else []),
   Sym.diag ((pick bs (diagAll ps refv)).map Prod.fst ++ (if incl then [0] else [])),
   Sym.diag ((pick bs (diagAll ps refv)).map Prod.snd ++ (if incl then [0] else [])), bs, incl⟩

/-- What the priors of the free parameters give. -/
def Gives (ps : List (Option (ℝ × ℝ))) (refv : List ℝ) (st : St) : Prop :=
  ∀ t (x : List ℝ), x.length = npar st.free t →
    contribution (getPrior st .init t) x = .ok (logPrior ps refv st.free x)

theorem refactorPrior_ok {ps : List (Option (ℝ × ℝ))} {refv : List ℝ} (hl : refv.length = ps.length)
    (hr : ∀ r ∈ refv, (1e-15 : ℝ) ≤ r) {st : St} (hf : FromPars ps refv st.fullB) (hb : st.free.length = ps.length) :
    ∃ it ib, refactorPrior st.free st = .ok { st with initT := it, initB := ib } ∧
      Gives ps refv { st with initT := it, initB := ib } := by
  rcases hf with ⟨h0, hn⟩ | ⟨P, hP, hc, hv⟩
  · refine ⟨none, none, ?_, ?_⟩
    · unfold refactorPrior
      rw [hn]
    · intro t x hx
      cases t <;> · rw [logPrior_none ps refv st.free x h0]; rfl
  · have hd := diagAll_length hl
    have hm := meanAll_length hl
    have hu : ∀ incl, updateDiag (meanAll ps refv) ((diagAll ps refv).map fun d => Real.sqrt d.1)
        (List.replicate ps.length true) st.free incl = .ok (made ps refv st.free incl) := fun incl => by
      rw [updateDiag_ok (by simp [hd, hm]) (by simp [hm]) (by omega) incl, entry_all hl]
      rfl
    have hq := pick_length (bs := st.free) (l := meanAll ps refv) (by omega)
    have hq' := pick_length (bs := st.free) (l := diagAll ps refv) (by omega)
    refine ⟨some (made ps refv st.free true), some (made ps refv st.free false), ?_, ?_⟩
    · unfold refactorPrior
      rw [hP]
      simp only
      rw [uncertainties_ok hl hc hv, Res.bind_ok, hc, List.length_map, hd, hu false, Res.bind_ok, hu true, Res.bind_ok]
    · intro t x hx
      cases t with
      | false =>
        simp only [npar, Bool.false_eq_true, if_false, Nat.add_zero] at hx
        simp only [getPrior, contribution, made, if_false, Bool.false_eq_true, List.append_nil]
        rw [logLike_diag (h := (pick st.free (diagAll ps refv)).map Prod.snd) rfl
          (by simp only [List.length_map]; omega) (by simp only; omega), ← pick_map,
          quad_prior ps refv st.free x hl hb hx hr]
      | true =>
        simp only [npar, if_true] at hx
        obtain ⟨y, z, rfl⟩ : ∃ y z, x = y ++ [z] := by
          refine ⟨x.dropLast, x.getLast (by intro h; rw [h] at hx; simp at hx), ?_⟩
          rw [List.dropLast_append_getLast]
        have hy : y.length = st.free.count true := by simpa using hx
        simp only [getPrior, contribution, made, if_true]
        rw [logLike_diag (h := (pick st.free (diagAll ps refv)).map Prod.snd ++ [0]) rfl
          (by simp only [List.length_map, List.length_append]; omega)
          (by simp only [List.length_append, List.length_singleton]; omega)]
        simp only
        rw [quad_append (by simp only [List.length_map]; omega) (by omega), ← pick_map,
          quad_prior ps refv st.free y hl hb hy hr, logPrior_append ps refv st.free y z hl hb hy]

/-- What holds after the priors of parameters were read. -/
structure Inv (ps : List (Option (ℝ × ℝ))) (refv : List ℝ) (st : St) : Prop where
  full : FromPars ps refv st.fullB
  bkg : st.nbkg = ps.length
  ref : st.refv = refv
  free : st.free.length = ps.length
  gives : Gives ps refv st

theorem refactorModel_ok {ps : List (Option (ℝ × ℝ))} {refv : List ℝ} (hl : refv.length = ps.length)
    (hr : ∀ r ∈ refv, (1e-15 : ℝ) ≤ r) {st : St} (hf : FromPars ps refv st.fullB) (hn : st.nbkg = ps.length)
    (hv : st.refv = refv) {free : List Bool} {scales : List ℝ} (h1 : free.length = ps.length)
    (h2 : free.length ≤ scales.length) (test : Bool) :
    ∃ st', refactorModel free scales test st = .ok st' ∧ st'.free = free ∧ st'.test = test ∧ Inv ps refv st' := by
  unfold refactorModel
  rw [if_neg (by omega), if_neg (by omega)]
  simp only
  set st1 : St := { st with
                    pars := freeScales free scales ++ (if test then [0] else [])
                    cov := ⟨(freeScales free scales ++ (if test then [0] else [])).length, fun _ _ => 0⟩
                    free := free
                    test := test } with h
  obtain ⟨it, ib, e, g⟩ := refactorPrior_ok hl hr (st := st1) hf h1
  rw [show refactorPrior free st1 = _ from e, Res.bind_ok]
  exact ⟨_, rfl, rfl, rfl, ⟨hf, hn, hv, h1, g⟩⟩

theorem extract_ok {ps : List (Option (ℝ × ℝ))} {st : St} (hl : st.refv.length = ps.length)
    (hr : ∀ r ∈ st.refv, (1e-15 : ℝ) ≤ r) : ∃ st', extract ps st = .ok st' ∧ FromPars ps st.refv st'.fullB ∧
      st'.nbkg = st.nbkg ∧ st'.refv = st.refv ∧ st'.test = st.test := by
  unfold extract
  by_cases hs : ps.any Option.isSome = true
  · simp only
    rw [if_pos hs, if_neg (by omega), rescale_all hl hr]
    have hz : (List.zipWith inUnits ps st.refv).length = ps.length := by simp [hl]
    have hm : (List.zipWith inUnits ps st.refv).map (fun q => q.1) = meanAll ps st.refv := by
      unfold meanAll; rw [List.map_zipWith]
    have hw : List.zipWith entry ((List.zipWith inUnits ps st.refv).map fun q => q.2.2)
        ((List.zipWith inUnits ps st.refv).map fun q => q.2.1) = diagAll ps st.refv := by
      apply List.ext_getElem (by simp [diagAll])
      intro i h1 h2
      simp [diagAll]
    have hu : ∀ incl, updateDiag ((List.zipWith inUnits ps st.refv).map fun q => q.1)
        ((List.zipWith inUnits ps st.refv).map fun q => q.2.1) ((List.zipWith inUnits ps st.refv).map fun q => q.2.2)
        (List.replicate ps.length true) incl = _ := fun incl =>
      updateDiag_ok (by simp) (by simp) (by simp [hl]) incl
    rw [hu true, Res.bind_ok, hu false, Res.bind_ok]
    refine ⟨_, rfl, Or.inr ⟨_, rfl, ?_, ?_⟩, rfl, rfl, rfl⟩
    · simp only [Bool.false_eq_true, if_false, List.append_nil]
      rw [hm, ← meanAll_length hl, pick_true]
    · simp only [Bool.false_eq_true, if_false, List.append_nil]
      rw [hw, ← diagAll_length hl, pick_true]
  · simp only
    rw [if_neg hs]
    exact ⟨_, rfl, Or.inl ⟨by simpa using hs, rfl⟩, rfl, rfl, rfl⟩

theorem buildExternal_keeps {inv : Sym → Option Sym} {c : List ℝ} {v : Sym} {bs : List Bool} {g : Bool} {st st' : St}
    (h : buildExternal inv c v bs g st = .ok st') : ∃ a b d e, st' = { st with globT := a, globB := b, locT := d, locB := e } := by
  unfold buildExternal at h
  obtain ⟨t, _, h⟩ := Res.bind_eq_ok.1 h
  cases g with
  | true =>
    rw [if_pos rfl] at h
    split at h
    · cases h
    · obtain ⟨b, _, h⟩ := Res.bind_eq_ok.1 h
      cases h
      exact ⟨_, _, _, _, rfl⟩
  | false =>
    rw [if_neg (by simp)] at h
    obtain ⟨b, _, h⟩ := Res.bind_eq_ok.1 h
    cases h
    exact ⟨_, _, _, _, rfl⟩

theorem buildCurrent_keeps {inv : Sym → Option Sym} {s : ℝ} {bs : List Bool} {g : Bool} {st st' : St}
    (h : buildCurrent inv bs s g st = .ok st') : ∃ a b d e, st' = { st with globT := a, globB := b, locT := d, locB := e } := by
  unfold buildCurrent at h
  split at h
  · split at h
    · cases h
    · obtain ⟨t, _, h⟩ := Res.bind_eq_ok.1 h
      exact buildExternal_keeps h
  · exact buildExternal_keeps h

theorem step_inv {inv : Sym → Option Sym} {ps : List (Option (ℝ × ℝ))} {refv : List ℝ} (hl : refv.length = ps.length)
    (hr : ∀ r ∈ refv, (1e-15 : ℝ) ≤ r) {o : Op} (ho : Quiet o) {st st' : St} (hi : Inv ps refv st)
    (h : step inv o st = .ok st') : Inv ps refv st' := by
  cases o with
  | refactor free scales test =>
    have h' : refactorModel free scales test st = .ok st' := h
    by_cases h1 : free.length = ps.length
    · by_cases h2 : free.length ≤ scales.length
      · obtain ⟨st2, e, _, _, i⟩ := refactorModel_ok hl hr hi.full hi.bkg hi.ref h1 h2 test
        rw [e] at h'
        cases h'
        exact i
      · unfold refactorModel at h'
        rw [if_neg (by rw [hi.bkg]; omega), if_pos (by omega)] at h'
        cases h'
    · unfold refactorModel at h'
      rw [if_pos (by rw [hi.bkg]; omega)] at h'
      cases h'
  | addTest =>
    simp only [step] at h
    split at h
    · cases h; exact hi
    · obtain ⟨c, _, h⟩ := Res.bind_eq_ok.1 h
      cases h
      exact ⟨hi.full, hi.bkg, hi.ref, hi.free, hi.gives⟩
  | removeTest =>
    simp only [step] at h
    split at h
    · cases h; exact hi
    · obtain ⟨c, _, h⟩ := Res.bind_eq_ok.1 h
      cases h
      exact ⟨hi.full, hi.bkg, hi.ref, hi.free, hi.gives⟩
  | fit pars cov =>
    cases h
    exact ⟨hi.full, hi.bkg, hi.ref, hi.free, hi.gives⟩
  | external c v bs g =>
    obtain ⟨_, _, _, _, rfl⟩ := buildExternal_keeps h
    exact ⟨hi.full, hi.bkg, hi.ref, hi.free, hi.gives⟩
  | current bs s g =>
    obtain ⟨_, _, _, _, rfl⟩ := buildCurrent_keeps h
    exact ⟨hi.full, hi.bkg, hi.ref, hi.free, hi.gives⟩
  | remake ps free scales => exact absurd ho (by simp [Quiet])

theorem run_inv {inv : Sym → Option Sym} {ps : List (Option (ℝ × ℝ))} {refv : List ℝ} (hl : refv.length = ps.length)
    (hr : ∀ r ∈ refv, (1e-15 : ℝ) ≤ r) : ∀ {os : List Op} {st st' : St}, (∀ o ∈ os, Quiet o) → Inv ps refv st →
    run inv os st = .ok st' → Inv ps refv st'
  | [], st, st', _, hi, h => by cases h; exact hi
  | o :: os, st, st', hq, hi, h => by
    rw [run] at h
    obtain ⟨st1, e, h⟩ := Res.bind_eq_ok.1 h
    exact run_inv hl hr (fun o ho => hq o (by simp [ho])) (step_inv hl hr (hq o (by simp)) hi e) h

end Verif.ScanPrior
