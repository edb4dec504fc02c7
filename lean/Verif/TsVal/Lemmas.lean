import Mathlib.Tactic.Linarith
import Mathlib.Tactic.Ring
import Mathlib.Tactic.FieldSimp
import Verif.TsVal.Model
import Verif.TsVal.Spec
/-
Lemmas for the test statistics of gtlike.
-/
set_option linter.unusedSectionVars false
set_option linter.unusedVariables false
set_option linter.unusedSimpArgs false
namespace Verif.TsVal

open Verif Spec

variable {κ D : Type}

theorem SamePar.refl (p : Par) : SamePar p p := ⟨rfl, rfl, rfl, fun _ => rfl⟩
theorem SameSrc.refl (s : Src D) : SameSrc s s :=
  ⟨rfl, rfl, List.forall₂_same.2 (fun p _ => SamePar.refl p)⟩
theorem Variant.refl (m : Mod κ D) : Variant m m :=
  List.forall₂_same.2 (fun x _ => ⟨rfl, SameSrc.refl _⟩)

theorem numFree_pos {ps : List Par} : 0 < numFree ps ↔ ∃ p ∈ ps, p.free = true := by
  unfold numFree
  rw [List.length_pos_iff_exists_mem]
  simp only [List.mem_filter]

theorem numFree_append (a b : List Par) : numFree (a ++ b) = numFree a + numFree b := by
  simp [numFree]

/-! ### restoring -/

theorem setPars_restore {ps qs : List Par} (h : List.Forall₂ SamePar ps qs)
    (hb : ∀ p ∈ ps, p.lo ≤ p.value ∧ p.value ≤ p.hi) (rest : List ℝ) :
    setPars qs ((ps.filter (·.free)).map (·.value) ++ rest) = .ok (ps, rest) := by
  induction h with
  | nil => rfl
  | @cons p q ps qs hpq _ ih =>
    obtain ⟨h1, h2, h3, h4⟩ := hpq
    have ih := ih (fun p hp => hb p (List.mem_cons_of_mem _ hp))
    have hbp := hb p List.mem_cons_self
    obtain ⟨v, l, hh, f⟩ := p
    obtain ⟨v', l', h', f'⟩ := q
    simp only at h1 h2 h3 h4 hbp
    subst h1 h2 h3
    cases f' with
    | true =>
      simp only [setPars, List.filter_cons_of_pos, List.map_cons, List.cons_append, if_true, setValue]
      rw [if_pos hbp]
      simp only [Res.bind_ok]
      rw [ih]; rfl
    | false =>
      rw [List.filter_cons_of_neg (by simp)]
      simp only [setPars, Bool.false_eq_true, if_false]
      rw [ih, h4 rfl]; rfl

theorem setLoop_restore {m m' : Mod κ D} (h : Variant m m') (hb : InBounds m) (rest : List ℝ) :
    setLoop m' (freeValues m ++ rest) = .ok (m, rest) := by
  induction h with
  | nil => rfl
  | @cons x y m m' hxy _ ih =>
    have ih := ih (fun x hx => hb x (List.mem_cons_of_mem _ hx))
    obtain ⟨k, s⟩ := x
    obtain ⟨k', s'⟩ := y
    obtain ⟨h1, h2, h3, h4⟩ := hxy
    simp only at h1 h2 h3 h4
    subst h1
    have := setPars_restore h4 (hb (k', s) List.mem_cons_self) (freeValues m ++ rest)
    simp only [setLoop]
    have e : freeValues ((k', s) :: m) ++ rest
        = (s.pars.filter (·.free)).map (·.value) ++ (freeValues m ++ rest) := by
      simp [freeValues, collect, List.append_assoc]
    rw [e, this]
    simp only [Res.bind_ok]
    rw [ih]
    simp only [Res.bind_ok]
    obtain ⟨a, b, c⟩ := s
    obtain ⟨a', b', c'⟩ := s'
    simp only at h2 h3
    subst h2 h3
    rfl

theorem numFree_same {ps qs : List Par} (h : List.Forall₂ SamePar ps qs) :
    numFree qs = numFree ps := by
  induction h with
  | nil => rfl
  | @cons p q ps qs hpq _ ih =>
    have h3 := hpq.2.2.1
    unfold numFree at ih ⊢
    cases hf : p.free with
    | true => rw [List.filter_cons_of_pos hf, List.filter_cons_of_pos (by rw [h3, hf])]
              simp [ih]
    | false => rw [List.filter_cons_of_neg (a := q) (by rw [h3, hf]; simp), List.filter_cons_of_neg (a := p) (by rw [hf]; simp)]
               exact ih

theorem numFree_variant {m m' : Mod κ D} (h : Variant m m') :
    numFree (collect m') = numFree (collect m) := by
  induction h with
  | nil => rfl
  | @cons x y m m' hxy _ ih =>
    obtain ⟨k, s⟩ := x
    obtain ⟨k', s'⟩ := y
    simp only [collect]
    rw [numFree_append, numFree_append, ih, numFree_same hxy.2.2.2]

theorem setFree_restore {m m' : Mod κ D} (h : Variant m m') (hb : InBounds m) :
    setFree m' (freeValues m) = .ok m := by
  unfold setFree
  rw [if_pos (by rw [numFree_variant h]; simp [freeValues, numFree])]
  have := setLoop_restore h hb []
  rw [List.append_nil] at this
  rw [this]; rfl

/-! ### what the fits leave -/

theorem leavePars_same (ps : List Par) (vs : List ℝ) :
    List.Forall₂ SamePar ps (leavePars ps vs).1 := by
  induction ps generalizing vs with
  | nil => exact .nil
  | cons p ps ih =>
    unfold leavePars
    cases hf : p.free with
    | true =>
      cases vs with
      | nil => exact List.forall₂_same.2 (fun p _ => SamePar.refl p)
      | cons v vs =>
        exact .cons ⟨rfl, rfl, hf.symm, fun h => absurd (hf.symm.trans h) (by simp)⟩ (ih vs)
    | false => exact .cons (SamePar.refl p) (ih vs)

theorem leave_variant (m : Mod κ D) (vs : List ℝ) : Variant m (leave m vs) := by
  induction m generalizing vs with
  | nil => exact .nil
  | cons x m ih => exact .cons ⟨rfl, rfl, rfl, leavePars_same _ _⟩ (ih _)

theorem nearby_iff (S : Setup κ D) (d : D) (s : Src D) :
    isDiffuseOrNearby S d s = true ↔ ∀ e, s.kind = .point e → S.sep d e < 20 := by
  obtain ⟨k, ps, nn⟩ := s
  cases k with
  | point e =>
    simp only [isDiffuseOrNearby, maxdist]
    exact ⟨fun h e' he => by cases he; exact of_decide_eq_true h, fun h => decide_eq_true (h e rfl)⟩
  | diffuse => simp [isDiffuseOrNearby]
  | composite => simp [isDiffuseOrNearby]

/-- The source after the round of `renormModel`. -/
theorem renormSrc_ok {S : Setup κ D} {d : D} {c : ℝ} {s s' : Src D}
    (h : renormSrc S d c s = .ok s') :
    (Scaled S d s ∧ s' = rescale c s) ∨ (¬ Scaled S d s ∧ s' = s) := by
  unfold renormSrc normPar at h
  cases hp : s.pars[s.norm]? with
  | none => rw [hp] at h; simp at h
  | some p =>
    rw [hp] at h
    simp only [Res.bind_ok] at h
    by_cases hc : (p.free && isDiffuseOrNearby S d s) = true
    · rw [if_pos hc] at h
      rw [Bool.and_eq_true, nearby_iff] at hc
      left
      refine ⟨⟨⟨p, hp, hc.1⟩, hc.2⟩, ?_⟩
      obtain ⟨p', h1, h2⟩ := Res.bind_eq_ok.1 h
      unfold setValue at h1
      split at h1
      · cases h1; cases h2
        unfold rescale
        congr 1
        rw [List.modify_eq_set_getElem?, hp]
        rfl
      · cases h1
    · rw [if_neg hc] at h
      cases h
      right
      refine ⟨?_, rfl⟩
      rintro ⟨⟨q, hq, hf⟩, hn⟩
      rw [hp] at hq; cases hq
      exact hc (by rw [Bool.and_eq_true, nearby_iff]; exact ⟨hf, hn⟩)

theorem forall₂_modify (f : Par → Par) (ps : List Par) (i : Nat)
    (h : ∀ p, ps[i]? = some p → SamePar p (f p)) : List.Forall₂ SamePar ps (ps.modify i f) := by
  induction ps generalizing i with
  | nil => cases i <;> exact .nil
  | cons p ps ih =>
    cases i with
    | zero => exact .cons (h p rfl) (List.forall₂_same.2 (fun p _ => SamePar.refl p))
    | succ i => exact .cons (SamePar.refl p) (ih i (fun q hq => h q (by simpa using hq)))

theorem rescale_same {S : Setup κ D} {d : D} {s : Src D} (c : ℝ) (h : Scaled S d s) :
    SameSrc s (rescale c s) := by
  refine ⟨rfl, rfl, forall₂_modify _ _ _ ?_⟩
  intro p hp
  obtain ⟨⟨q, hq, hf⟩, _⟩ := h
  rw [hp] at hq; cases hq
  exact ⟨rfl, rfl, rfl, fun h => absurd (hf.symm.trans h) (by simp)⟩

/-- The relation between the sources before and after `renormModel`. -/
def Renormed (S : Setup κ D) (d : D) (c : ℝ) (m m' : Mod κ D) : Prop :=
  List.Forall₂ (fun x y => y.1 = x.1 ∧
    ((Scaled S d x.2 ∧ y.2 = rescale c x.2) ∨ (¬ Scaled S d x.2 ∧ y.2 = x.2))) m m'

theorem renormLoop_ok {S : Setup κ D} {d : D} {c : ℝ} {m m' : Mod κ D}
    (h : renormLoop S d c m = .ok m') : Renormed S d c m m' := by
  induction m generalizing m' with
  | nil => cases h; exact .nil
  | cons x m ih =>
    obtain ⟨k, s⟩ := x
    unfold renormLoop at h
    obtain ⟨s', h1, h2⟩ := Res.bind_eq_ok.1 h
    obtain ⟨m'', h3, h4⟩ := Res.bind_eq_ok.1 h2
    cases h4
    exact .cons ⟨rfl, renormSrc_ok h1⟩ (ih h3)

theorem Renormed.variant {S : Setup κ D} {d : D} {c : ℝ} {m m' : Mod κ D}
    (h : Renormed S d c m m') : Variant m m' := by
  refine h.imp ?_
  rintro ⟨k, s⟩ ⟨k', s'⟩ ⟨h1, h2⟩
  refine ⟨h1, ?_⟩
  rcases h2 with ⟨h2, h3⟩ | ⟨h2, h3⟩
  · simp only at h3; subst h3; exact rescale_same c h2
  · simp only at h3; subst h3; exact SameSrc.refl _

theorem renorm_variant {S : Setup κ D} {d : D} {m m' : Mod κ D} (h : renorm S d m = .ok m') :
    Variant m m' := by
  unfold renorm at h
  obtain ⟨r, _, h2⟩ := Res.bind_eq_ok.1 h
  unfold renormBy at h2
  split at h2
  · cases h2; exact Variant.refl _
  · exact (renormLoop_ok h2).variant

/-- What the loop of `npredValues` computes. -/
theorem npredValues_ok {S : Setup κ D} {d : D} {m : Mod κ D} {acc r : ℝ × ℝ}
    (h : npredValues S d m acc = .ok r) : open Classical in
    r.1 = acc.1 + ((m.filter (fun x => Scaled S d x.2)).map (fun x => S.npred x.2)).sum ∧
    r.2 = acc.2 + total S m := by
  classical
  induction m generalizing acc with
  | nil => cases h; simp [total]
  | cons x m ih =>
    obtain ⟨k, s⟩ := x
    unfold npredValues normPar at h
    cases hp : s.pars[s.norm]? with
    | none => rw [hp] at h; simp at h
    | some p =>
      rw [hp] at h
      simp only [Res.bind_ok] at h
      obtain ⟨h1, h2⟩ := ih h
      have hs : (p.free && isDiffuseOrNearby S d s) = true ↔ Scaled S d s := by
        rw [Bool.and_eq_true, nearby_iff]
        refine ⟨fun h => ⟨⟨p, hp, h.1⟩, h.2⟩, ?_⟩
        rintro ⟨⟨q, hq, hf⟩, hn⟩
        rw [hp] at hq; cases hq; exact ⟨hf, hn⟩
      constructor
      · by_cases hc : Scaled S d s
        · rw [if_pos (hs.2 hc)] at h1
          rw [List.filter_cons_of_pos (by simpa using hc), h1]
          simp only [List.map_cons, List.sum_cons]; ring
        · rw [if_neg (fun h => hc (hs.1 h))] at h1
          rw [List.filter_cons_of_neg (by simpa using hc), h1]
      · rw [h2]; simp only [total, List.map_cons, List.sum_cons]; ring

theorem scaled_lt {S : Setup κ D} {d : D} {s : Src D} (h : Scaled S d s) :
    s.norm < s.pars.length := by
  obtain ⟨⟨p, hp, _⟩, _⟩ := h
  exact (List.getElem?_eq_some_iff.1 hp).1

theorem Renormed.total {S : Setup κ D} {d : D} {c : ℝ} {m m' : Mod κ D}
    (h : Renormed S d c m m') (hl : Linear S) : open Classical in
    total S m' = total S m
      + (c - 1) * ((m.filter (fun x => Scaled S d x.2)).map (fun x => S.npred x.2)).sum := by
  classical
  induction h with
  | nil => simp [Spec.total]
  | @cons x y m m' hxy _ ih =>
    obtain ⟨k, s⟩ := x
    obtain ⟨k', s'⟩ := y
    simp only [Spec.total, List.map_cons, List.sum_cons] at ih ⊢
    rw [ih]
    rcases hxy.2 with ⟨h2, h3⟩ | ⟨h2, h3⟩
    · simp only at h2 h3
      rw [List.filter_cons_of_pos (by simpa using h2), h3, hl c s (scaled_lt h2)]
      simp only [List.map_cons, List.sum_cons]; ring
    · simp only at h2 h3
      rw [List.filter_cons_of_neg (by simpa using h2), h3]; ring

/-- After `renormModel` the counts predicted are the observed ones, unless there are too
many already or nothing can be rescaled. -/
theorem renorm_total {S : Setup κ D} {d : D} {m m' : Mod κ D} (h : renorm S d m = .ok m')
    (hl : Linear S)
    (hpos : open Classical in
      0 < ((m.filter (fun x => Scaled S d x.2)).map (fun x => S.npred x.2)).sum) :
    total S m' = max S.observed (total S m) := by
  classical
  unfold renorm at h
  obtain ⟨r, h1, h2⟩ := Res.bind_eq_ok.1 h
  obtain ⟨e1, e2⟩ := npredValues_ok h1
  simp only [zero_add] at e1 e2
  unfold renormBy at h2
  rw [if_neg (by rw [e1]; exact not_le.2 hpos)] at h2
  rw [(renormLoop_ok h2).total hl, ← e1, ← e2]
  have hr : 0 < r.1 := by rw [e1]; exact hpos
  unfold factor
  by_cases hc : 1 + (S.observed - r.2) / r.1 < 1
  · rw [if_pos hc]
    have : (S.observed - r.2) / r.1 < 0 := by linarith
    have : S.observed - r.2 < 0 := by
      by_contra hn
      exact absurd (div_nonneg (not_lt.1 hn) hr.le) (not_le.2 this)
    rw [max_eq_right (by linarith)]; ring
  · rw [if_neg hc]
    have : 0 ≤ (S.observed - r.2) / r.1 := by linarith
    have : 0 ≤ S.observed - r.2 := by
      by_contra hn
      exact absurd (div_neg_of_neg_of_pos (not_le.1 hn) hr) (not_lt.2 this)
    rw [max_eq_left (by linarith)]
    field_simp
    ring

/-! ### the map of sources -/

variable [LinearOrder κ]

theorem ordered_iff {m : Mod κ D} : Ordered m ↔ StdMap.Sorted m := by
  simp [Ordered, StdMap.Sorted, StdMap.keys, List.pairwise_map]

theorem erase_eq_null {m : Mod κ D} (h : StdMap.Sorted m) (n : κ) :
    StdMap.erase m n = null m n := by
  induction m with
  | nil => rfl
  | cons x m ih =>
    obtain ⟨k, s⟩ := x
    rw [StdMap.sorted_cons] at h
    unfold StdMap.erase null
    by_cases hk : k = n
    · rw [if_pos hk, List.filter_cons_of_neg (by simp [hk])]
      rw [List.filter_eq_self.2]
      intro y hy
      have := h.1 y.1 (List.mem_map.2 ⟨y, hy, rfl⟩)
      simp only [ne_eq, decide_eq_true_eq]
      rintro rfl
      exact absurd this (by rw [hk]; exact lt_irrefl _)
    · rw [if_neg hk, List.filter_cons_of_pos (by simpa using hk), ih h.2]
      rfl

theorem put_erase {m : Mod κ D} (h : StdMap.Sorted m) {n : κ} {s : Src D}
    (hf : StdMap.find m n = some s) : StdMap.put (StdMap.erase m n) n s = m := by
  apply StdMap.ext (StdMap.sorted_put (StdMap.sorted_erase h n) _ _) h
  intro k
  rw [StdMap.find_put (StdMap.sorted_erase h n), StdMap.find_erase h]
  by_cases hk : k = n
  · subst hk; simp [hf]
  · simp [hk, Ne.symm hk]

theorem put_variant {m m' : Mod κ D} (h : Variant m m') (n : κ) (s : Src D) :
    Variant (StdMap.put m n s) (StdMap.put m' n s) := by
  induction h with
  | nil => exact .cons ⟨rfl, SameSrc.refl _⟩ .nil
  | @cons x y m m' hxy hh ih =>
    obtain ⟨k, t⟩ := x
    obtain ⟨k', t'⟩ := y
    have e : k' = k := hxy.1
    subst e
    unfold StdMap.put
    split
    · exact .cons ⟨rfl, SameSrc.refl _⟩ (.cons hxy hh)
    · split
      · exact .cons ⟨rfl, SameSrc.refl _⟩ hh
      · exact .cons hxy ih

end Verif.TsVal
