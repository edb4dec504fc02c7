import Verif.CntMap.Model
import Verif.CntMap.Spec
import Verif.HistND.Props
import Mathlib.Tactic.Linarith
import Mathlib.Tactic.NormNum
import Mathlib.Tactic.FieldSimp
set_option linter.unusedSectionVars false
set_option linter.unusedSimpArgs false
set_option linter.unusedVariables false
namespace Verif.CntMap
open Verif.Vec Verif.HistND Spec

/-- A binner finds exactly the bins of a list. -/
def Matches (b : Binner ℝ) (l : List Interval) : Prop :=
  b.n = l.length ∧ ∀ (v : ℝ) (k : Nat), k < l.length →
    (b.index v = (k : Int) ↔ ∃ x, l[k]? = some x ∧ InBin x v)

theorem pixel_iff {n i : Nat} (hi : i < n) (v : ℝ) :
    (pixelBinner n).index v = (i : Int) ↔ InPixel i v := by
  unfold pixelBinner InPixel
  simp only
  have hin : (i : ℝ) + 1 ≤ n := by exact_mod_cast hi
  have hi0 : (0 : ℝ) ≤ i := Nat.cast_nonneg i
  by_cases h : v < 0.5 ∨ (n : ℝ) + 0.5 ≤ v
  · rw [if_pos h]
    constructor
    · intro h'; omega
    · rintro ⟨h1, h2⟩
      rcases h with h | h <;> exfalso <;> norm_num at h <;> linarith
  · rw [if_neg h, Int.floor_eq_iff]
    norm_num
    constructor
    · rintro ⟨h1, h2⟩; constructor <;> linarith
    · rintro ⟨h1, h2⟩; constructor <;> linarith

theorem ordered_matches {l : List Interval} (hd : l.Pairwise (fun a b => a.hi ≤ b.lo)) :
    Matches (orderedBinner l) l := by
  refine ⟨rfl, fun v k hk => ?_⟩
  unfold orderedBinner
  simp only
  generalize hf : List.findIdx? _ l = o
  cases o with
  | none =>
    simp only
    constructor
    · intro h; omega
    · rintro ⟨x, hx, h1, h2⟩
      rw [List.findIdx?_eq_none_iff] at hf
      have := hf x (List.mem_of_getElem? hx)
      rw [decide_eq_false_iff_not] at this
      exact absurd ⟨h1, h2⟩ this
  | some i =>
    simp only
    rw [List.findIdx?_eq_some_iff_getElem] at hf
    obtain ⟨hi, h1, h2⟩ := hf
    rw [decide_eq_true_iff] at h1
    constructor
    · intro h
      have : i = k := by omega
      subst this
      exact ⟨l[i], List.getElem?_eq_getElem hi, h1⟩
    · rintro ⟨x, hx, h3⟩
      rw [List.getElem?_eq_getElem hk, Option.some.injEq] at hx
      subst hx
      rw [List.pairwise_iff_getElem] at hd
      rcases lt_trichotomy i k with h | h | h
      · have := hd i k hi hk h
        have a1 := h1.2; have a2 := h3.1
        linarith
      · rw [h]
      · have := hd k i hk hi h
        have a1 := h1.1; have a2 := h3.2
        linarith

theorem log_matches {a b : ℝ} {n : Nat} (ha : 0 < a) (hab : a < b) (hn : 0 < n) {l : List Interval}
    (hl : intervals (.log a b n) = .ok l) : Matches (logBinner a b n) l := by
  unfold intervals at hl
  simp only [Res.ok.injEq] at hl
  subst hl
  have hL : 0 < Real.log (b / a) := Real.log_pos (by rw [lt_div_iff₀ ha]; linarith)
  have hn' : (0 : ℝ) < n := by exact_mod_cast hn
  refine ⟨by simp [logBinner], fun v k hk => ?_⟩
  rw [List.length_map, List.length_range] at hk
  have hget : ((List.range n).map fun k : Nat =>
      (⟨a * Real.exp (Real.log (b / a) / n * k), a * Real.exp (Real.log (b / a) / n * (k + 1))⟩ : Interval))[k]? =
      some ⟨a * Real.exp (Real.log (b / a) / n * k), a * Real.exp (Real.log (b / a) / n * (k + 1))⟩ := by
    rw [List.getElem?_map, List.getElem?_range hk]; rfl
  rw [hget]
  have hend : a * Real.exp (Real.log (b / a) / n * n) = b := by
    rw [div_mul_cancel₀ _ hn'.ne', Real.exp_log (by positivity [lt_trans ha hab])]
    field_simp
  have hkn : (k : ℝ) + 1 ≤ n := by exact_mod_cast hk
  have hk0 : (0 : ℝ) ≤ k := Nat.cast_nonneg k
  have hstep : 0 < Real.log (b / a) / n := by positivity
  have hlow : a ≤ a * Real.exp (Real.log (b / a) / n * k) := by
    have : 1 ≤ Real.exp (Real.log (b / a) / n * k) := Real.one_le_exp (by positivity)
    nlinarith
  have hhigh : a * Real.exp (Real.log (b / a) / n * (k + 1)) ≤ b := by
    rw [← hend]
    apply mul_le_mul_of_nonneg_left _ ha.le
    apply Real.exp_le_exp.2
    rw [hend]
    apply mul_le_mul_of_nonneg_left hkn hstep.le
  unfold logBinner InBin
  simp only [Option.some.injEq, exists_eq_left']
  by_cases h : v < a ∨ b ≤ v
  · rw [if_pos h]
    constructor
    · intro h'; omega
    · rintro ⟨h1, h2⟩
      rcases h with h | h <;> exfalso <;> linarith
  · rw [if_neg h, Int.floor_eq_iff]
    push Not at h
    have hv : 0 < v := lt_of_lt_of_le ha h.1
    have e1 : ∀ x : ℝ, (a * Real.exp (Real.log (b / a) / n * x) ≤ v ↔
        x ≤ (n : ℝ) * Real.log (v / a) / Real.log (b / a)) := by
      intro x
      have : a * Real.exp (Real.log (b / a) / n * x) ≤ v ↔
          Real.exp (Real.log (b / a) / n * x) ≤ v / a := by
        rw [le_div_iff₀ ha, mul_comm]
      rw [this, ← Real.le_log_iff_exp_le (by positivity), le_div_iff₀ hL, div_mul_eq_mul_div,
        div_le_iff₀ hn', mul_comm x, mul_comm (n : ℝ)]
    have e2 : v < a * Real.exp (Real.log (b / a) / n * (k + 1)) ↔
        (n : ℝ) * Real.log (v / a) / Real.log (b / a) < k + 1 := by
      rw [← not_le, e1, not_le]
    rw [e1, e2]
    push_cast
    rfl

theorem binsOf_length (es : List ℝ) : (binsOf es).length = es.length - 1 := by
  unfold binsOf; simp

theorem binsOf_get {es : List ℝ} {k : Nat} (hk : k < (binsOf es).length) :
    (binsOf es)[k].lo = val es k ∧ (binsOf es)[k].hi = val es (k + 1) := by
  have hl := binsOf_length es
  have h2 : k + 1 < es.length := by omega
  have h1 : k < es.length := by omega
  have e : (binsOf es)[k] = ⟨es[k], es[k + 1]⟩ := by simp [binsOf]
  rw [val_lt h1, val_lt h2, e]
  exact ⟨rfl, rfl⟩

/-- The bins of the constructors, and that the binner finds them. -/
theorem bins_ok {b : Bins} (hg : Good b) : ∃ l, intervals b = .ok l ∧ Asked b l ∧ l ≠ [] ∧
    (∀ x ∈ l, x.lo < x.hi) ∧
    l.Pairwise (fun x y => x.hi ≤ y.lo) ∧ Matches (energyBinner b l) l := by
  cases b with
  | log a b n =>
    obtain ⟨ha, hab, hn⟩ := hg
    have hn' : (0 : ℝ) < n := by exact_mod_cast hn
    have hL : 0 < Real.log (b / a) := Real.log_pos (by rw [lt_div_iff₀ ha]; linarith)
    have hba : 0 < b / a := div_pos (lt_trans ha hab) ha
    refine ⟨_, rfl, ⟨by simp, fun k hk => ?_⟩, ?_, ?_, ?_, log_matches ha hab hn rfl⟩
    · simp only [List.getElem_map, List.getElem_range]
      rw [Real.rpow_def_of_pos hba, Real.rpow_def_of_pos hba]
      constructor <;> congr 2 <;> ring
    · intro h
      have := congrArg List.length h
      simp at this; omega
    · intro x hx
      rw [List.mem_map] at hx
      obtain ⟨k, _, rfl⟩ := hx
      simp only
      apply mul_lt_mul_of_pos_left _ ha
      apply Real.exp_lt_exp.2
      apply mul_lt_mul_of_pos_left _ (by positivity)
      linarith
    · rw [List.pairwise_map]
      refine (List.pairwise_lt_range).imp ?_
      intro i j hij
      simp only
      apply mul_le_mul_of_nonneg_left _ ha.le
      apply Real.exp_le_exp.2
      apply mul_le_mul_of_nonneg_left _ (by positivity)
      exact_mod_cast hij
  | edges es =>
    obtain ⟨h2, hp⟩ := hg
    have hl := binsOf_length es
    have hd : (binsOf es).Pairwise (fun x y => x.hi ≤ y.lo) := by
      rw [List.pairwise_iff_getElem]
      intro i j hi hj hij
      rw [(binsOf_get hi).2, (binsOf_get hj).1]
      rw [val_lt (by omega), val_lt (by omega)]
      rcases Nat.lt_or_ge (i + 1) j with h | h
      · exact le_of_lt ((List.pairwise_iff_getElem.1 hp) (i + 1) j (by omega) (by omega) h)
      · have : i + 1 = j := by omega
        subst this; exact le_rfl
    refine ⟨binsOf es, ?_, ⟨by omega, fun k hk => binsOf_get hk⟩, ?_, ?_, hd, ordered_matches hd⟩
    · cases es with
      | nil => simp at h2
      | cons e es => rfl
    · intro h
      have := congrArg List.length h
      rw [hl] at this; simp at this; omega
    · intro x hx
      obtain ⟨k, hk, rfl⟩ := List.getElem_of_mem hx
      rw [(binsOf_get hk).1, (binsOf_get hk).2, val_lt (by omega), val_lt (by omega)]
      exact (List.pairwise_iff_getElem.1 hp) k (k + 1) (by omega) (by omega) (by omega)
  | pairs as bs =>
    obtain ⟨hne, hlen, h1, h2⟩ := hg
    cases as with
    | nil => exact absurd rfl hne
    | cons a as =>
      cases bs with
      | nil => simp at hlen
      | cons b bs =>
        set A := a :: as with hA
        set B := b :: bs with hB
        have hget : ∀ k, (hk : k < ((A.zip B).map fun p => (⟨p.1, p.2⟩ : Interval)).length) →
            ((A.zip B).map fun p => (⟨p.1, p.2⟩ : Interval))[k].lo = val A k ∧
            ((A.zip B).map fun p => (⟨p.1, p.2⟩ : Interval))[k].hi = val B k := by
          intro k hk
          rw [List.length_map, List.length_zip] at hk
          simp only [List.getElem_map, List.getElem_zip]
          rw [val_lt (by omega), val_lt (by omega)]
          exact ⟨rfl, rfl⟩
        have hl : ((A.zip B).map fun p => (⟨p.1, p.2⟩ : Interval)).length = A.length := by
          rw [List.length_map, List.length_zip]; omega
        have hmono : ∀ j i, i < j → j < A.length → val B i ≤ val A j := by
          intro j
          induction j with
          | zero => intro i hi; omega
          | succ j ih =>
            intro i hi hj
            rcases Nat.lt_or_ge i j with h | h
            · have e1 := ih i h (by omega)
              have e2 := h1 j (by omega)
              have e3 := h2 j hj
              linarith
            · have : i = j := by omega
              subst this; exact h2 i hj
        have hd : ((A.zip B).map fun p => (⟨p.1, p.2⟩ : Interval)).Pairwise (fun x y => x.hi ≤ y.lo) := by
          rw [List.pairwise_iff_getElem]
          intro i j hi hj hij
          rw [(hget i hi).2, (hget j hj).1]
          exact hmono j i hij (by omega)
        refine ⟨_, rfl, ⟨hl, hget⟩, by simp [hA, hB], ?_, hd, ordered_matches hd⟩
        intro x hx
        obtain ⟨k, hk, rfl⟩ := List.getElem_of_mem hx
        rw [(hget k hk).1, (hget k hk).2]
        exact h1 k (by omega)

/-- What stays true of a map. -/
structure Inv (nx ny : Nat) (m : Map) : Prop where
  ok : m.hist.Ok
  binners : ∃ eb, m.hist.binners = [pixelBinner nx, pixelBinner ny, eb] ∧ Matches eb m.bins

theorem falls_border {nx ny : Nat} {eb : Binner ℝ} {l : List Interval} (hm : Matches eb l) (border : Nat)
    {i j k : Nat} (hi : i < nx) (hj : j < ny) (hk : k < l.length) (x y e : ℝ) :
    FallsIn border [pixelBinner nx, pixelBinner ny, eb] [x, y, e] [i, j, k] ↔
      (InPixel i x ∧ border ≤ i ∧ i + border < nx) ∧ (InPixel j y ∧ border ≤ j ∧ j + border < ny) ∧
        (∃ b, l[k]? = some b ∧ InBin b e) ∧ border ≤ k ∧ k + border < l.length := by
  unfold FallsIn
  simp only [List.zip_cons_cons, List.forall₂_cons, List.zip_nil_right, List.forall₂_nil_right_iff,
    and_true]
  rw [pixel_iff hi, pixel_iff hj, hm.2 e k hk]
  have hp : ∀ n, (pixelBinner n).n = n := fun n => rfl
  rw [hp, hp, hm.1]

theorem falls_iff {nx ny : Nat} {eb : Binner ℝ} {l : List Interval} (hm : Matches eb l) {i j k : Nat}
    (hi : i < nx) (hj : j < ny) (hk : k < l.length) (x y e : ℝ) :
    FallsIn 0 [pixelBinner nx, pixelBinner ny, eb] [x, y, e] [i, j, k] ↔
      InPixel i x ∧ InPixel j y ∧ ∃ b, l[k]? = some b ∧ InBin b e := by
  rw [falls_border hm 0 hi hj hk]
  constructor
  · rintro ⟨⟨h1, _⟩, ⟨h2, _⟩, h3, _⟩; exact ⟨h1, h2, h3⟩
  · rintro ⟨h1, h2, h3⟩
    exact ⟨⟨h1, by omega, by omega⟩, ⟨h2, by omega, by omega⟩, h3, by omega, by omega⟩

theorem inRange3 {nx ny n : Nat} {eb : Binner ℝ} (hn : eb.n = n) {h : Hist ℝ ℝ}
    (hb : h.binners = [pixelBinner nx, pixelBinner ny, eb]) {i j k : Nat}
    (hi : i < nx) (hj : j < ny) (hk : k < n) : InRange h.dims [i, j, k] := by
  unfold InRange Hist.dims
  rw [hb]
  refine List.Forall₂.cons hi (List.Forall₂.cons hj (List.Forall₂.cons ?_ List.Forall₂.nil))
  rw [hn]; exact hk

theorem at3 {nx ny : Nat} {eb : Binner ℝ} {h : Hist ℝ ℝ}
    (hb : h.binners = [pixelBinner nx, pixelBinner ny, eb]) (i j k : Nat) :
    h.at [i, j, k] = val h.data (i + nx * (j + ny * k)) := by
  unfold Hist.at Hist.dims
  rw [hb]
  simp [cell, pixelBinner]

variable {project : Geom → ℝ × ℝ → ℝ × ℝ}

theorem binInput_ok {nx ny : Nat} : ∀ (es : List Event) (m : Map), Inv nx ny m →
    ∃ m', binInput project m es = .ok m' ∧ Inv nx ny m' ∧ m' = { m with hist := m'.hist } ∧
      m'.hist.binners = m.hist.binners ∧
      ∀ i < nx, ∀ j < ny, ∀ k < m.bins.length, val m'.hist.data (i + nx * (j + ny * k)) =
        val m.hist.data (i + nx * (j + ny * k)) +
        number (fun e => project m.geom (e m.raField, e m.decField)) m.bins i j k es
  | [], m, hI => ⟨m, rfl, hI, rfl, rfl, fun i _ j _ k _ => by simp [number]⟩
  | e :: es, m, hI => by
    obtain ⟨eb, hb, hm⟩ := hI.binners
    obtain ⟨h', g1, g2, g3, g4⟩ := C23_fill m.hist hI.ok (coords project m e) 1 (by
      rw [hb]; rfl)
    have hI' : Inv nx ny { m with hist := h' } := ⟨g2, eb, by rw [← hb]; exact g3, hm⟩
    obtain ⟨m', k1, k2, k3, k4, k5⟩ := binInput_ok es { m with hist := h' } hI'
    refine ⟨m', ?_, k2, k3, k4.trans g3, ?_⟩
    · rw [binInput, g1, Res.bind_ok]; exact k1
    · intro i hi j hj k hk
      rw [k5 i hi j hj k hk]
      simp only
      have hr := inRange3 hm.1 hb hi hj hk
      have g5 := g4 [i, j, k] hr
      rw [at3 (g3.trans hb), at3 hb] at g5
      have hf := falls_iff hm hi hj hk (project m.geom (e m.raField, e m.decField)).1
        (project m.geom (e m.raField, e m.decField)).2 (e "ENERGY")
      rw [hb] at g5
      unfold number
      rw [List.countP_cons]
      by_cases hc : InCell (fun e => project m.geom (e m.raField, e m.decField)) m.bins i j k e
      · rw [g5.1 (hf.2 hc), if_pos (by simpa using hc)]
        push_cast; ring
      · rw [g5.2 (fun h => hc (hf.1 h)), if_neg (by simpa using hc)]
        push_cast; ring

theorem number_append (at_ : Event → ℝ × ℝ) (l : List Interval) (i j k : Nat) (a b : List Event) :
    number at_ l i j k (a ++ b) = number at_ l i j k a + number at_ l i j k b := by
  unfold number; rw [List.countP_append]

theorem binAll_ok {nx ny : Nat} : ∀ (ts : List (List Event)) (m : Map), Inv nx ny m →
    ∃ m', binAll project m ts = .ok m' ∧ Inv nx ny m' ∧ m' = { m with hist := m'.hist } ∧
      m'.hist.binners = m.hist.binners ∧
      ∀ i < nx, ∀ j < ny, ∀ k < m.bins.length, val m'.hist.data (i + nx * (j + ny * k)) =
        val m.hist.data (i + nx * (j + ny * k)) +
        number (fun e => project m.geom (e m.raField, e m.decField)) m.bins i j k ts.flatten
  | [], m, hI => ⟨m, rfl, hI, rfl, rfl, fun i _ j _ k _ => by simp [number]⟩
  | t :: ts, m, hI => by
    obtain ⟨m1, k1, k2, k3, k4, k5⟩ := binInput_ok (project := project) t m hI
    obtain ⟨m2, l1, l2, l3, l4, l5⟩ := binAll_ok ts m1 k2
    have e1 : m1.bins = m.bins := by rw [k3]
    have e2 : m1.geom = m.geom := by rw [k3]
    have e3 : m1.raField = m.raField := by rw [k3]
    have e4 : m1.decField = m.decField := by rw [k3]
    refine ⟨m2, by rw [binAll, k1, Res.bind_ok, l1], l2, ?_, l4.trans k4, ?_⟩
    · rw [l3, k3]
    · intro i hi j hj k hk
      rw [l5 i hi j hj k (by rw [e1]; exact hk), k5 i hi j hj k hk, List.flatten_cons, number_append,
        e1, e2, e3, e4]
      push_cast; ring

/-- A new map. -/
theorem make_ok (g : Geom) (ra dec : String) {nx ny : Nat} (hx : 0 < nx) (hy : 0 < ny) {b : Bins}
    (hg : Good b) : ∃ m, make g ra dec nx ny b = .ok m ∧ Inv nx ny m ∧ Asked b m.bins ∧ m.bins ≠ [] ∧
      m.geom = g ∧ m.raField = ra ∧ m.decField = dec ∧ m.energies = energiesOf m.bins ∧
      (∀ x ∈ m.bins, x.lo < x.hi) ∧ m.bins.Pairwise (fun x y => x.hi ≤ y.lo) ∧ m.cdelt3 = step3 b ∧
      ∀ i < nx, ∀ j < ny, ∀ k < m.bins.length, val m.hist.data (i + nx * (j + ny * k)) = 0 := by
  obtain ⟨l, h1, h2, h3, h6, h4, h5⟩ := bins_ok hg
  obtain ⟨h, n1, n2, n3, n4⟩ := C23_new (K := ℝ) [pixelBinner nx, pixelBinner ny, energyBinner b l]
    (by simp) (by
      intro b' hb'
      simp only [List.mem_cons, List.not_mem_nil, or_false] at hb'
      rcases hb' with rfl | rfl | rfl
      · exact hx
      · exact hy
      · rw [h5.1]; exact List.length_pos_iff.2 h3)
  refine ⟨⟨g, ra, dec, l, energiesOf l, h, step3 b⟩, ?_, ⟨n2, _, n3, h5⟩, h2, h3, rfl, rfl, rfl, rfl,
    h6, h4, rfl, ?_⟩
  · unfold make
    rw [h1, Res.bind_ok, n1]; rfl
  · intro i hi j hj k hk
    have := n4 [i, j, k] (inRange3 h5.1 n3 hi hj hk)
    rwa [at3 n3] at this

theorem data_length {nx ny : Nat} {m : Map} (hI : Inv nx ny m) :
    m.hist.data.length = nx * ny * m.bins.length := by
  obtain ⟨eb, hb, hm⟩ := hI.binners
  rw [hI.ok.size]
  unfold Hist.dims
  rw [hb]
  simp [pixelBinner, hm.1, mul_assoc]

/-! ### Files -/

theorem energiesOf_cons2 (a b : Interval) (l : List Interval) :
    energiesOf (a :: b :: l) = a.lo :: energiesOf (b :: l) := by
  unfold energiesOf; simp

theorem energiesOf_head (b : Interval) (l : List Interval) :
    ∃ r, energiesOf (b :: l) = b.lo :: r := by
  unfold energiesOf; exact ⟨_, rfl⟩

theorem binsOf_cons2 (x y : ℝ) (r : List ℝ) : binsOf (x :: y :: r) = ⟨x, y⟩ :: binsOf (y :: r) := by
  unfold binsOf; simp

theorem binsOf_energies : ∀ (l : List Interval), l ≠ [] → Gapless l → binsOf (energiesOf l) = l
  | [], h, _ => absurd rfl h
  | [a], _, _ => by simp [energiesOf, binsOf]
  | a :: b :: l, _, hj => by
    unfold Gapless at hj
    rw [List.isChain_cons_cons] at hj
    have ih := binsOf_energies (b :: l) (by simp) hj.2
    rw [energiesOf_cons2]
    obtain ⟨r, hr⟩ := energiesOf_head b l
    rw [hr] at ih ⊢
    rw [binsOf_cons2, ih, ← hj.1]

theorem readEnergies_ok {l : List Interval} (hne : l ≠ []) :
    readEnergies (l.map fun b => (b.lo * 1000, b.hi * 1000)) = .ok (energiesOf l) := by
  cases l with
  | nil => exact absurd rfl hne
  | cons a l =>
    simp only [List.map_cons, readEnergies, energiesOf]
    congr 2
    · simp only [List.map_cons, List.map_map, List.cons.injEq]
      refine ⟨by field_simp, ?_⟩
      apply List.map_congr_left
      intro x _
      simp only [Function.comp]
      field_simp
    · have h : ∀ (a : Interval) (l : List Interval) (h),
          ((a :: l).map (fun b : Interval => (b.lo * 1000, b.hi * 1000))).getLast h =
          (((a :: l).getLast (by simp)).lo * 1000, ((a :: l).getLast (by simp)).hi * 1000) := by
        intro a l h; rw [List.getLast_map]
      have h' := h a l (by simp)
      simp only [List.map_cons] at h'
      rw [h', List.getLast?_eq_some_getLast (by simp)]
      simp only [List.cons.injEq, and_true]
      field_simp

theorem energies_mono : ∀ (l : List Interval), l ≠ [] → (∀ x ∈ l, x.lo < x.hi) →
    l.Pairwise (fun x y => x.hi ≤ y.lo) → (binsOf (energiesOf l)).Pairwise (fun x y => x.hi ≤ y.lo) ∧
      ∀ x ∈ binsOf (energiesOf l), l.head?.map Interval.lo ≤ some x.lo
  | [], h, _, _ => absurd rfl h
  | [a], _, _, _ => by simp [energiesOf, binsOf]
  | a :: b :: l, _, hx, hp => by
    have hp' := List.pairwise_cons.1 hp
    have ih := energies_mono (b :: l) (by simp) (fun x h => hx x (List.mem_cons_of_mem _ h)) hp'.2
    rw [energiesOf_cons2]
    obtain ⟨r, hr⟩ := energiesOf_head b l
    rw [hr] at ih ⊢
    rw [binsOf_cons2, List.pairwise_cons]
    have hab : a.lo ≤ b.lo := by
      have e1 := hx a (by simp)
      have e2 := hp'.1 b (by simp)
      linarith
    simp only [List.head?_cons, Option.map_some] at ih ⊢
    refine ⟨⟨fun y hy => ?_, ih.1⟩, fun y hy => ?_⟩
    · have := ih.2 y hy
      simpa using this
    · rw [List.mem_cons] at hy
      rcases hy with rfl | hy
      · simp
      · have := ih.2 y hy
        have h2 : b.lo ≤ y.lo := by simpa using this
        have : a.lo ≤ y.lo := le_trans hab h2
        simpa using this

theorem energiesOf_length {l : List Interval} (hne : l ≠ []) :
    (binsOf (energiesOf l)).length = l.length := by
  rw [binsOf_length]; unfold energiesOf; simp

theorem write_ok {nx ny : Nat} {m : Map} (hI : Inv nx ny m) :
    writeOutput m = .ok ⟨nx, ny, m.bins.length, m.hist.data,
      m.bins.map (fun b => (b.lo * 1000, b.hi * 1000)),
      if m.geom.gal then ("GLON", m.geom.proj) else (m.raField, m.geom.proj),
      m.geom.crpix, m.geom.crval, m.geom.cdelt, m.geom.rot, m.cdelt3⟩ := by
  obtain ⟨eb, hb, hm⟩ := hI.binners
  unfold writeOutput
  rw [hb]
  have e0 : vget [pixelBinner nx, pixelBinner ny, eb] 0 = .ok (pixelBinner nx) := rfl
  have e1 : vget [pixelBinner nx, pixelBinner ny, eb] 1 = .ok (pixelBinner ny) := rfl
  have e2 : vget [pixelBinner nx, pixelBinner ny, eb] 2 = .ok eb := rfl
  rw [e0, e1, e2]
  simp only [Res.bind_ok]
  rw [hm.1]
  rfl

/-- Reading a file that fits. -/
theorem read_ok {f : File} {l : List Interval} (hx : 0 < f.nx) (hy : 0 < f.ny)
    (he : f.ebounds = l.map fun b => (b.lo * 1000, b.hi * 1000)) (hne : l ≠ [])
    (hpos : ∀ x ∈ l, x.lo < x.hi) (hp : l.Pairwise (fun x y => x.hi ≤ y.lo)) :
    ∃ h : Hist ℝ ℝ, h.Ok ∧ h.binners = [pixelBinner f.nx, pixelBinner f.ny, orderedBinner (binsOf (energiesOf l))] ∧
      h.data.length = f.nx * f.ny * l.length ∧
      read f = .ok ⟨geomOfFile f, "RA", "DEC", binsOf (energiesOf l), energiesOf l,
        { h with data := f.image }, f.cdelt3⟩ ∧
      Matches (orderedBinner (binsOf (energiesOf l))) (binsOf (energiesOf l)) := by
  have hm := ordered_matches (energies_mono l hne hpos hp).1
  obtain ⟨h, n1, n2, n3, n4⟩ := C23_new (K := ℝ)
    [pixelBinner f.nx, pixelBinner f.ny, orderedBinner (binsOf (energiesOf l))] (by simp) (by
      intro b' hb'
      simp only [List.mem_cons, List.not_mem_nil, or_false] at hb'
      rcases hb' with rfl | rfl | rfl
      · exact hx
      · exact hy
      · rw [hm.1, energiesOf_length hne]; exact List.length_pos_iff.2 hne)
  refine ⟨h, n2, n3, ?_, ?_, hm⟩
  · rw [n2.size]
    unfold Hist.dims
    rw [n3]
    simp [pixelBinner, hm.1, mul_assoc, energiesOf_length hne]
  · unfold read
    rw [he, readEnergies_ok hne, Res.bind_ok, n1]; rfl

end Verif.CntMap
