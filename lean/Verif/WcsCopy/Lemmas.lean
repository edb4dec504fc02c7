import Verif.WcsCopy.Model
import Verif.WcsCopy.Spec

set_option linter.unusedSectionVars false
set_option linter.unusedSimpArgs false
set_option linter.unusedVariables false

namespace Verif.WcsCopy

open Spec

variable {ν δ : Type}

theorem isWcs_iff (k : String) : k ∈ wcsKeys ↔ IsWcs k := by
  unfold wcsKeys IsWcs
  simp only [List.mem_cons, List.not_mem_nil, or_false]
  tauto

theorem skipped_iff (n : String) : skipped n = true ↔ Reserved n := by
  unfold skipped Reserved
  simp [or_assoc]

theorem setNums_of_not_mem (k : String) : ∀ (l : List (String × ν)) (h : Header ν),
    (∀ x, (k, x) ∉ l) → setNums l h k = h k
  | [], h, _ => rfl
  | (a, y) :: l, h, hk => by
    rw [setNums, setNums_of_not_mem k l _ (fun x hx => hk x (List.mem_cons_of_mem _ hx))]
    unfold setKey
    rw [if_neg]
    rintro rfl
    exact hk y (by simp)

theorem setStrs_of_not_mem (k : String) : ∀ (l : List (String × String)) (h : Header ν),
    (∀ x, (k, x) ∉ l) → setStrs l h k = h k
  | [], h, _ => rfl
  | (a, y) :: l, h, hk => by
    rw [setStrs, setStrs_of_not_mem k l _ (fun x hx => hk x (List.mem_cons_of_mem _ hx))]
    unfold setKey
    rw [if_neg]
    rintro rfl
    exact hk y (by simp)

theorem setNums_mem (k : String) (x : ν) : ∀ (l : List (String × ν)) (h : Header ν),
    (k, x) ∈ l → (∀ y, (k, y) ∈ l → y = x) → setNums l h k = some (.num x)
  | [], h, hm, _ => by cases hm
  | (a, y) :: l, h, hm, hu => by
    rw [setNums]
    by_cases hl : ∃ z, (k, z) ∈ l
    · obtain ⟨z, hz⟩ := hl
      have : z = x := hu z (List.mem_cons_of_mem _ hz)
      subst this
      exact setNums_mem k z l _ hz (fun y hy => hu y (List.mem_cons_of_mem _ hy))
    · rw [setNums_of_not_mem k l _ (fun z hz => hl ⟨z, hz⟩)]
      rcases List.mem_cons.1 hm with h1 | h1
      · injection h1 with h2 h3
        subst h2; subst h3
        simp [setKey]
      · exact absurd ⟨x, h1⟩ hl

theorem setStrs_mem (k : String) (x : String) : ∀ (l : List (String × String)) (h : Header ν),
    (k, x) ∈ l → (∀ y, (k, y) ∈ l → y = x) → setStrs l h k = some (.str x)
  | [], h, hm, _ => by cases hm
  | (a, y) :: l, h, hm, hu => by
    rw [setStrs]
    by_cases hl : ∃ z, (k, z) ∈ l
    · obtain ⟨z, hz⟩ := hl
      have : z = x := hu z (List.mem_cons_of_mem _ hz)
      subst this
      exact setStrs_mem k z l _ hz (fun y hy => hu y (List.mem_cons_of_mem _ hy))
    · rw [setStrs_of_not_mem k l _ (fun z hz => hl ⟨z, hz⟩)]
      rcases List.mem_cons.1 hm with h1 | h1
      · injection h1 with h2 h3
        subst h2; subst h3
        simp [setKey]
      · exact absurd ⟨x, h1⟩ hl

theorem mem_nums {conv : String → Option ν} {h : Header ν} {k : String} {x : ν} :
    (k, x) ∈ numericValues conv h ↔ IsWcs k ∧ getNum conv h k = some x := by
  unfold numericValues
  rw [List.mem_filterMap, ← isWcs_iff]
  constructor
  · rintro ⟨a, ha, hb⟩
    obtain ⟨y, hy, hz⟩ := Option.map_eq_some_iff.1 hb
    injection hz with h1 h2
    subst h1; subst h2
    exact ⟨ha, hy⟩
  · rintro ⟨ha, hb⟩
    exact ⟨k, ha, by rw [hb]; rfl⟩

theorem mem_strs {conv : String → Option ν} {h : Header ν} {k : String} {s : String} :
    (k, s) ∈ stringValues conv h ↔ IsWcs k ∧ getNum conv h k = none ∧ h k = some (.str s) := by
  unfold stringValues
  rw [List.mem_filterMap, ← isWcs_iff]
  constructor
  · rintro ⟨a, ha, hb⟩
    cases hg : getNum conv h a with
    | some x => rw [hg] at hb; cases hb
    | none =>
      rw [hg] at hb
      simp only at hb
      obtain ⟨y, hy, hz⟩ := Option.map_eq_some_iff.1 hb
      injection hz with h1 h2
      subst h1; subst h2
      refine ⟨ha, hg, ?_⟩
      unfold getStr at hy
      cases hv : h a with
      | none => rw [hv] at hy; cases hy
      | some v =>
        rw [hv] at hy
        cases v with
        | num _ => cases hy
        | str t => injection hy with hy; rw [hy]
  · rintro ⟨ha, hb, hc⟩
    refine ⟨k, ha, ?_⟩
    rw [hb]
    simp only
    unfold getStr
    rw [hc]
    rfl

/-- What setting the keywords does. -/
def upd (conv : String → Option ν) (p h : Header ν) : Header ν :=
  setStrs (stringValues conv p) (setNums (numericValues conv p) h)

theorem upd_other (conv : String → Option ν) (p h : Header ν) (k : String) (hk : ¬ IsWcs k ∨ p k = none) :
    upd conv p h k = h k := by
  have hg : ¬ IsWcs k ∨ (getNum conv p k = none ∧ p k = none) := by
    rcases hk with hk | hk
    · exact Or.inl hk
    · exact Or.inr ⟨by unfold getNum; rw [hk], hk⟩
  unfold upd
  rw [setStrs_of_not_mem, setNums_of_not_mem]
  · intro x hx
    obtain ⟨a, b⟩ := mem_nums.1 hx
    rcases hg with hg | hg
    · exact hg a
    · rw [hg.1] at b; cases b
  · intro x hx
    obtain ⟨a, b, c⟩ := mem_strs.1 hx
    rcases hg with hg | hg
    · exact hg a
    · rw [hg.2] at c; cases c

theorem upd_num (conv : String → Option ν) (p h : Header ν) (k : String) (x : ν) (hw : IsWcs k)
    (hk : getNum conv p k = some x) : upd conv p h k = some (.num x) := by
  unfold upd
  rw [setStrs_of_not_mem]
  · refine setNums_mem k x _ _ (mem_nums.2 ⟨hw, hk⟩) (fun y hy => ?_)
    have := (mem_nums.1 hy).2
    rw [hk] at this
    exact (Option.some.inj this).symm
  · intro s hs
    have := (mem_strs.1 hs).2.1
    rw [hk] at this; cases this

theorem upd_str (conv : String → Option ν) (p h : Header ν) (k : String) (s : String) (hw : IsWcs k)
    (hk : p k = some (.str s)) (hc : conv s = none) : upd conv p h k = some (.str s) := by
  have hg : getNum conv p k = none := by unfold getNum; rw [hk]; exact hc
  unfold upd
  refine setStrs_mem k s _ _ (mem_strs.2 ⟨hw, hg, hk⟩) (fun y hy => ?_)
  have := (mem_strs.1 hy).2.2
  rw [hk] at this
  injection this with this
  injection this with this
  exact this.symm

theorem upd_idem (conv : String → Option ν) (p h : Header ν) : upd conv p (upd conv p h) = upd conv p h := by
  funext k
  by_cases hw : IsWcs k
  · cases hk : p k with
    | none => exact upd_other conv p _ k (Or.inr hk)
    | some v =>
      cases hg : getNum conv p k with
      | some x => rw [upd_num conv p _ k x hw hg, upd_num conv p h k x hw hg]
      | none =>
        cases v with
        | num x => unfold getNum at hg; rw [hk] at hg; cases hg
        | str s =>
          have hc : conv s = none := by unfold getNum at hg; rw [hk] at hg; exact hg
          rw [upd_str conv p _ k s hw hk hc, upd_str conv p h k s hw hk hc]
  · exact upd_other conv p _ k (Or.inl hw)

open Classical in
/-- Part `i` of the file, edited if it is the first with identifier `e`. -/
theorem editFirst_get (e : String) (f : Header ν → Header ν) : ∀ (fl : File ν δ) (i : Nat) (u : Hdu ν δ),
    fl[i]? = some u →
    (editFirst e f fl)[i]? = some (if u.id = e ∧ FirstOfName fl i ∧ u.image = true then
      { u with header := f u.header } else u) := by
  intro fl
  induction fl with
  | nil => intro i u h; simp at h
  | cons v l ih =>
    intro i u h
    cases i with
    | zero =>
      have hv : v = u := by simpa using h
      subst hv
      have hf : FirstOfName (v :: l) 0 := by intro j a b hj; omega
      rw [editFirst]
      by_cases h1 : v.id = e
      · rw [if_pos h1]
        by_cases h2 : v.image = true
        · simp [h1, h2, hf]
        · simp [h1, h2, hf]
      · rw [if_neg h1]
        simp [h1]
    | succ i =>
      have hu : l[i]? = some u := by simpa using h
      rw [editFirst]
      by_cases h1 : v.id = e
      · rw [if_pos h1, List.getElem?_cons_succ, hu]
        have : ¬ (u.id = e ∧ FirstOfName (v :: l) (i + 1) ∧ u.image = true) := by
          rintro ⟨a, b, _⟩
          exact b 0 v u (by omega) (by simp) (by simpa using hu) (h1.trans a.symm)
        rw [if_neg this]
      · rw [if_neg h1, List.getElem?_cons_succ, ih i u hu]
        have hiff : (u.id = e ∧ FirstOfName l i ∧ u.image = true) ↔
            (u.id = e ∧ FirstOfName (v :: l) (i + 1) ∧ u.image = true) := by
          constructor
          · rintro ⟨a, b, c⟩
            refine ⟨a, ?_, c⟩
            intro j x y hj hx hy
            have hyu : y = u := by
              have : l[i]? = some y := by simpa using hy
              rw [hu] at this; exact (Option.some.inj this).symm
            subst hyu
            cases j with
            | zero =>
              have : v = x := by simpa using hx
              subst this
              rw [a]; exact h1
            | succ j => exact b j x y (by omega) (by simpa using hx) hu
          · rintro ⟨a, b, c⟩
            refine ⟨a, ?_, c⟩
            intro j x y hj hx hy
            exact b (j + 1) x y (by omega) (by simpa using hx) (by simpa using hy)
        by_cases hc : u.id = e ∧ FirstOfName l i ∧ u.image = true
        · rw [if_pos hc, if_pos (hiff.1 hc)]
        · rw [if_neg hc, if_neg (fun h => hc (hiff.2 h))]

theorem editFirst_length (e : String) (f : Header ν → Header ν) (fl : File ν δ) :
    (editFirst e f fl).length = fl.length := by
  induction fl with
  | nil => rfl
  | cons v l ih =>
    rw [editFirst]
    split
    · simp
    · simp [ih]

/-- Only headers are edited. -/
theorem editFirst_id (e : String) (f : Header ν → Header ν) (fl : File ν δ) (i : Nat) (u : Hdu ν δ)
    (h : (editFirst e f fl)[i]? = some u) : ∃ v, fl[i]? = some v ∧ u.id = v.id := by
  cases hv : fl[i]? with
  | none =>
    have : (editFirst e f fl)[i]? = none := by
      rw [List.getElem?_eq_none_iff] at hv ⊢
      rw [editFirst_length]; exact hv
    rw [this] at h; cases h
  | some v =>
    rw [editFirst_get e f fl i v hv] at h
    refine ⟨v, rfl, ?_⟩
    have := Option.some.inj h
    rw [← this]
    split <;> rfl

open Classical in
theorem editFirst_first (e : String) (f : Header ν → Header ν) (fl : File ν δ) (i : Nat) :
    FirstOfName (editFirst e f fl) i ↔ FirstOfName fl i := by
  constructor
  · intro h j a b hj ha hb
    have g1 := editFirst_get e f fl j a ha
    have g2 := editFirst_get e f fl i b hb
    have := h j _ _ hj g1 g2
    have e1 : (if a.id = e ∧ FirstOfName fl j ∧ a.image = true then { a with header := f a.header } else a).id = a.id := by
      split <;> rfl
    have e2 : (if b.id = e ∧ FirstOfName fl i ∧ b.image = true then { b with header := f b.header } else b).id = b.id := by
      split <;> rfl
    rw [e1, e2] at this
    exact this
  · intro h j a b hj ha hb
    obtain ⟨v, g1, g2⟩ := editFirst_id e f fl j a ha
    obtain ⟨w, g3, g4⟩ := editFirst_id e f fl i b hb
    rw [g2, g4]
    exact h j v w hj g1 g3

open Classical in
theorem copyLoop_get (f : Header ν → Header ν) (hf : ∀ h, f (f h) = f h) : ∀ (es : List String) (fl : File ν δ)
    (i : Nat) (u : Hdu ν δ), fl[i]? = some u →
    ((u.id ∈ es ∧ skipped u.id = false ∧ FirstOfName fl i ∧ u.image = true) →
      (copyLoop f es fl)[i]? = some { u with header := f u.header }) ∧
    (¬ (u.id ∈ es ∧ skipped u.id = false ∧ FirstOfName fl i ∧ u.image = true) →
      (copyLoop f es fl)[i]? = some u) := by
  intro es
  induction es with
  | nil =>
    intro fl i u h
    exact ⟨(fun hh => absurd hh.1 List.not_mem_nil), fun _ => h⟩
  | cons e es ih =>
    intro fl i u h
    rw [copyLoop]
    by_cases hs : skipped e = true
    · rw [if_pos hs]
      have hiff : (u.id ∈ e :: es ∧ skipped u.id = false ∧ FirstOfName fl i ∧ u.image = true) ↔
          (u.id ∈ es ∧ skipped u.id = false ∧ FirstOfName fl i ∧ u.image = true) := by
        constructor
        · rintro ⟨a, b, c⟩
          rcases List.mem_cons.1 a with a | a
          · rw [a, hs] at b; cases b
          · exact ⟨a, b, c⟩
        · rintro ⟨a, b⟩
          exact ⟨List.mem_cons_of_mem _ a, b⟩
      rw [hiff]
      exact ih fl i u h
    · rw [if_neg hs]
      have hg := editFirst_get e f fl i u h
      by_cases hc : u.id = e ∧ FirstOfName fl i ∧ u.image = true
      · rw [if_pos hc] at hg
        have hfirst : FirstOfName (editFirst e f fl) i := (editFirst_first e f fl i).2 hc.2.1
        have hsk : skipped u.id = false := by rw [hc.1]; simpa using hs
        obtain ⟨i1, i2⟩ := ih _ i _ hg
        refine ⟨fun _ => ?_, fun hn => absurd ⟨by rw [hc.1]; simp, hsk, hc.2.1, hc.2.2⟩ hn⟩
        by_cases hm : u.id ∈ es
        · rw [i1 ⟨hm, hsk, hfirst, hc.2.2⟩]
          simp only [hf]
        · exact i2 (fun hh => hm hh.1)
      · rw [if_neg hc] at hg
        obtain ⟨i1, i2⟩ := ih _ i u hg
        constructor
        · rintro ⟨a, b, c, d⟩
          rcases List.mem_cons.1 a with a | a
          · exact absurd ⟨a, c, d⟩ hc
          · exact i1 ⟨a, b, (editFirst_first e f fl i).2 c, d⟩
        · intro hn
          refine i2 ?_
          rintro ⟨a, b, c, d⟩
          exact hn ⟨List.mem_cons_of_mem _ a, b, (editFirst_first e f fl i).1 c, d⟩

theorem copyLoop_length (f : Header ν → Header ν) : ∀ (es : List String) (fl : File ν δ),
    (copyLoop f es fl).length = fl.length := by
  intro es
  induction es with
  | nil => intro fl; rfl
  | cons e es ih =>
    intro fl
    rw [copyLoop, ih]
    split
    · rfl
    · exact editFirst_length _ _ _

/-- The parts after the copy. -/
theorem copyWcs_get (conv : String → Option ν) (p : Hdu ν δ) (l : File ν δ) (hp : p.image = true) :
    ∃ r, copyWcs conv (p :: l) = .ok r ∧ r.length = (p :: l).length ∧
      ∀ (i : Nat) (u : Hdu ν δ), (p :: l)[i]? = some u →
        ((¬ Reserved u.id ∧ FirstOfName (p :: l) i ∧ u.image = true) →
          r[i]? = some { u with header := upd conv p.header u.header }) ∧
        (¬ (¬ Reserved u.id ∧ FirstOfName (p :: l) i ∧ u.image = true) → r[i]? = some u) := by
  refine ⟨copyLoop (upd conv p.header) ((p :: l).map (·.id)) (p :: l), ?_, copyLoop_length _ _ _, ?_⟩
  · simp only [copyWcs, if_pos hp]
    rfl
  · intro i u hu
    obtain ⟨h1, h2⟩ := copyLoop_get (upd conv p.header) (upd_idem conv p.header) ((p :: l).map (·.id)) (p :: l) i u hu
    have hm : u.id ∈ (p :: l).map (·.id) := List.mem_map.2 ⟨u, List.mem_of_getElem? hu, rfl⟩
    have hr : skipped u.id = false ↔ ¬ Reserved u.id := by
      rw [← skipped_iff]; simp
    constructor
    · rintro ⟨a, b, c⟩
      exact h1 ⟨hm, hr.2 a, b, c⟩
    · intro hn
      refine h2 ?_
      rintro ⟨_, a, b, c⟩
      exact hn ⟨hr.1 a, b, c⟩

end Verif.WcsCopy
