import Verif.Nobs.Model
import Verif.Nobs.Spec
import Verif.Unbinned.Props
import Mathlib.Tactic.Linarith
import Mathlib.Tactic.NormNum
set_option linter.unusedSectionVars false
set_option linter.unusedSimpArgs false
set_option linter.unusedVariables false
namespace Verif.Nobs

open Spec Verif.Vec

variable {E : Type}

theorem inBin_val {eb : List ℝ} {k : Nat} {e : ℝ} : InBin eb k e ↔ k + 1 < eb.length ∧ val eb k ≤ e ∧
    (e < val eb (k + 1) ∨ (e = val eb (k + 1) ∧ k + 2 = eb.length)) := by
  constructor
  · rintro ⟨lo, hi, h1, h2, h3, h4⟩
    have hk : k + 1 < eb.length := (List.getElem?_eq_some_iff.mp h2).1
    rw [getElem?_val hk] at h2
    rw [getElem?_val (by omega)] at h1
    cases h1; cases h2
    exact ⟨hk, h3, h4⟩
  · rintro ⟨h1, h2, h3⟩
    exact ⟨_, _, getElem?_val (by omega), getElem?_val h1, h2, h3⟩

theorem head_val {eb : List ℝ} (h : 0 < eb.length) : eb.head? = some (val eb 0) := by
  rw [List.head?_eq_getElem?, getElem?_val h]

theorem last_val {eb : List ℝ} (h : 0 < eb.length) : eb.getLast? = some (val eb (eb.length - 1)) := by
  rw [List.getLast?_eq_getElem?, getElem?_val (by omega)]

theorem bin_unique {eb : List ℝ} (hs : eb.Pairwise (· < ·)) {k k' : Nat} {e : ℝ} (h : InBin eb k e)
    (h' : InBin eb k' e) : k = k' := by
  have key : ∀ a b, InBin eb a e → InBin eb b e → ¬ a < b := by
    intro a b ha hb hab
    obtain ⟨a1, a2, a3⟩ := inBin_val.mp ha
    obtain ⟨b1, b2, b3⟩ := inBin_val.mp hb
    have hm : val eb (a + 1) ≤ val eb b := by
      by_cases h : a + 1 = b
      · rw [h]
      · exact (pairwise_val.mp hs (a + 1) b (by omega) (by omega)).le
    rcases a3 with a3 | ⟨_, a3⟩
    · linarith
    · omega
  have h1 := key k k' h h'
  have h2 := key k' k h' h
  omega

theorem bin_spec {eb : List ℝ} (hs : eb.Pairwise (· < ·)) (hl : 2 ≤ eb.length) {e : ℝ} (h1 : val eb 0 ≤ e)
    (h2 : e ≤ val eb (eb.length - 1)) :
    ∃ k, bin eb (val eb 0) (val eb (eb.length - 1)) e = some k ∧ InBin eb k e := by
  unfold bin
  by_cases hb : e = val eb (eb.length - 1)
  · rw [if_pos hb, if_neg (by omega)]
    refine ⟨_, rfl, inBin_val.mpr ⟨by omega, ?_, .inr ⟨?_, by omega⟩⟩⟩
    · rw [hb]; exact (pairwise_val.mp hs _ _ (by omega) (by omega)).le
    · have : eb.length - 2 + 1 = eb.length - 1 := by omega
      rw [this]; exact hb
  · rw [if_neg hb]
    by_cases hf : e = val eb 0
    · rw [if_pos hf]
      refine ⟨0, rfl, inBin_val.mpr ⟨by omega, hf.ge, .inl ?_⟩⟩
      rw [hf]; exact pairwise_val.mp hs 0 1 (by omega) (by omega)
    · rw [if_neg hf]
      have hex : ∃ x ∈ eb, (fun x => decide (e < x)) x = true :=
        ⟨_, val_mem (show eb.length - 1 < eb.length by omega), by
          simpa using lt_of_le_of_ne h2 hb⟩
      have hlt : eb.findIdx (fun x => decide (e < x)) < eb.length := List.findIdx_lt_length_of_exists hex
      have hge := List.findIdx_getElem (w := hlt)
      cases hk : eb.findIdx (fun x => decide (e < x)) with
      | zero =>
        exfalso
        simp only [hk] at hge
        have : e < eb[0] := by simpa using hge
        rw [← val_lt (by omega)] at this
        linarith
      | succ k =>
        refine ⟨k, rfl, ?_⟩
        rw [hk] at hlt
        have hnot := List.not_of_lt_findIdx (p := fun x => decide (e < x)) (xs := eb) (i := k) (by omega)
        simp only [decide_eq_false_iff_not, not_lt] at hnot
        have hnot' : val eb k ≤ e := by rw [val_lt (by omega)]; simpa using hnot
        refine inBin_val.mpr ⟨hlt, hnot', .inl ?_⟩
        simp only [hk] at hge
        rw [val_lt hlt]; simpa using hge

theorem total_cons (energy f : E → ℝ) (P : ℝ → Prop) (ev : E) (evs : List E) :
    total energy f P (ev :: evs) = (open Classical in if P (energy ev) then f ev else 0) + total energy f P evs := by
  unfold total
  by_cases h : P (energy ev)
  · simp [List.filter_cons, h]
  · simp [List.filter_cons, h]

theorem fold_spec (energy f : E → ℝ) {eb : List ℝ} (hs : eb.Pairwise (· < ·)) (hl : 2 ≤ eb.length) (evs : List E) :
    ∀ my : List ℝ, my.length = eb.length - 1 →
    ∃ l, evs.foldlM (step energy f eb (val eb 0) (val eb (eb.length - 1))) my = .ok l ∧ l.length = eb.length - 1 ∧
      ∀ k < eb.length - 1, val l k = val my k + total energy f (InBin eb k) evs := by
  induction evs with
  | nil => intro my h; exact ⟨my, rfl, h, fun k _ => by simp [total]⟩
  | cons ev evs ih =>
    intro my h
    rw [List.foldlM_cons]
    by_cases hout : energy ev < val eb 0 ∨ val eb (eb.length - 1) < energy ev
    · obtain ⟨l, h1, h2, h3⟩ := ih my h
      refine ⟨l, ?_, h2, fun k hk => ?_⟩
      · simp only [step, if_pos hout, Res.bind_ok]; exact h1
      · rw [h3 k hk, total_cons, if_neg, zero_add]
        intro hb
        obtain ⟨b1, b2, b3⟩ := inBin_val.mp hb
        have h0 : val eb 0 ≤ val eb k := by
          by_cases hk0 : k = 0
          · rw [hk0]
          · exact (pairwise_val.mp hs 0 k (by omega) (by omega)).le
        have hn : val eb (k + 1) ≤ val eb (eb.length - 1) := by
          by_cases hk0 : k + 1 = eb.length - 1
          · rw [hk0]
          · exact (pairwise_val.mp hs (k + 1) (eb.length - 1) (by omega) (by omega)).le
        rcases hout with ho | ho
        · linarith
        · rcases b3 with b3 | ⟨b3, -⟩ <;> linarith
    · push Not at hout
      obtain ⟨k0, hb, hin⟩ := bin_spec hs hl hout.1 hout.2
      have hk0 : k0 < my.length := by
        obtain ⟨b1, -⟩ := inBin_val.mp hin; omega
      obtain ⟨l, h1, h2, h3⟩ := ih (my.set k0 (val my k0 + f ev)) (by simpa using h)
      refine ⟨l, ?_, h2, fun k hk => ?_⟩
      · have hn : ¬ (energy ev < val eb 0 ∨ val eb (eb.length - 1) < energy ev) := by push Not; exact hout
        simp only [step, if_neg hn, hb, if_pos hk0, Res.bind_ok]; exact h1
      · rw [h3 k hk, total_cons, val_set hk0]
        by_cases hkk : k = k0
        · rw [if_pos hkk, if_pos (hkk ▸ hin), hkk]; ring
        · rw [if_neg hkk, if_neg (fun hh => hkk (bin_unique hs hh hin)), zero_add]

/-! ### C49 -/

/-- With increasing bounds the result has one entry per bin, which is the sum over the
events in the bin: without a source their number. -/
theorem C49_bins (energy f : E → ℝ) {eb : List ℝ} (hs : eb.Pairwise (· < ·)) (hl : 2 ≤ eb.length) (evs : List E) :
    ∃ l, nobs energy f eb evs = .ok l ∧ l.length = eb.length - 1 ∧
      ∀ k < eb.length - 1, l[k]? = some (total energy f (InBin eb k) evs) := by
  obtain ⟨l, h1, h2, h3⟩ := fold_spec energy f hs hl evs (List.replicate (eb.length - 1) 0) (by simp)
  refine ⟨l, ?_, h2, fun k hk => ?_⟩
  · unfold nobs
    rw [head_val (by omega), last_val (by omega)]
    exact h1
  · rw [getElem?_val (by omega), h3 k hk, val_replicate_zero, zero_add]

/-- Every energy within the bounds is in exactly one bin, and no other energy is in any. -/
theorem C49_partition {eb : List ℝ} (hs : eb.Pairwise (· < ·)) (hl : 2 ≤ eb.length) (e : ℝ) :
    (Within eb e → ∃! k, InBin eb k e) ∧ (¬ Within eb e → ∀ k, ¬ InBin eb k e) := by
  constructor
  · rintro ⟨lo, hi, h1, h2, h3, h4⟩
    rw [head_val (by omega)] at h1; rw [last_val (by omega)] at h2
    cases h1; cases h2
    obtain ⟨k, -, hk⟩ := bin_spec hs hl h3 h4
    exact ⟨k, hk, fun k' hk' => bin_unique hs hk' hk⟩
  · intro hn k hk
    apply hn
    obtain ⟨b1, b2, b3⟩ := inBin_val.mp hk
    refine ⟨_, _, head_val (by omega), last_val (by omega), ?_, ?_⟩
    · refine le_trans ?_ b2
      by_cases hk0 : k = 0
      · rw [hk0]
      · exact (pairwise_val.mp hs 0 k (by omega) (by omega)).le
    · have hn : val eb (k + 1) ≤ val eb (eb.length - 1) := by
        by_cases hk0 : k + 1 = eb.length - 1
        · rw [hk0]
        · exact (pairwise_val.mp hs (k + 1) (eb.length - 1) (by omega) (by omega)).le
      rcases b3 with b3 | ⟨b3, -⟩ <;> linarith

/-- The entries add up to the sum over all events within the bounds. -/
theorem C49_total (energy f : E → ℝ) {eb : List ℝ} (hs : eb.Pairwise (· < ·)) (hl : 2 ≤ eb.length) (evs : List E) :
    ∃ l, nobs energy f eb evs = .ok l ∧ l.sum = total energy f (Within eb) evs := by
  obtain ⟨l, h1, h2, h3⟩ := C49_bins energy f hs hl evs
  refine ⟨l, h1, ?_⟩
  rw [sum_val, h2]
  have : ∀ k ∈ Finset.range (eb.length - 1), val l k = total energy f (InBin eb k) evs := by
    intro k hk
    rw [Finset.mem_range] at hk
    have := h3 k hk
    rw [getElem?_val (by omega)] at this
    exact Option.some.inj this
  rw [Finset.sum_congr rfl this]
  clear h1 h2 h3 this
  induction evs with
  | nil => simp [total]
  | cons ev evs ih =>
    simp only [total_cons, Finset.sum_add_distrib, ih]
    congr 1
    obtain ⟨p1, p2⟩ := C49_partition hs hl (energy ev)
    by_cases hw : Within eb (energy ev)
    · obtain ⟨k, hk, hu⟩ := p1 hw
      rw [if_pos hw, Finset.sum_eq_single k]
      · rw [if_pos hk]
      · intro k' _ hne; rw [if_neg (fun hh => hne (hu k' hh))]
      · intro hh
        obtain ⟨b1, -⟩ := inBin_val.mp hk
        exact absurd (Finset.mem_range.mpr (by omega)) hh
    · rw [if_neg hw]
      exact Finset.sum_eq_zero fun k _ => by rw [if_neg (p2 hw k)]

/-- If the contributions of several sources to every event add up to one, then in every bin
their numbers add up to the number of events. -/
theorem C49_sources {S : Type} (energy : E → ℝ) (contribution : S → E → ℝ) (srcs : List S) {eb : List ℝ}
    (hs : eb.Pairwise (· < ·)) (hl : 2 ≤ eb.length) {evs : List E}
    (h : ∀ ev ∈ evs, Within eb (energy ev) → (srcs.map (fun x => contribution x ev)).sum = 1) :
    ∃ n, nobs energy (fun _ => 1) eb evs = .ok n ∧ ∃ per : S → List ℝ,
      (∀ x, nobs energy (contribution x) eb evs = .ok (per x)) ∧
      ∀ k < eb.length - 1, (srcs.map (fun x => val (per x) k)).sum = val n k := by
  obtain ⟨n, n1, n2, n3⟩ := C49_bins energy (fun _ => (1 : ℝ)) hs hl evs
  choose per p1 p2 p3 using fun x => C49_bins energy (contribution x) hs hl evs
  refine ⟨n, n1, per, p1, fun k hk => ?_⟩
  have hv : ∀ x, val (per x) k = total energy (contribution x) (InBin eb k) evs := by
    intro x
    have := p3 x k hk
    rw [getElem?_val (by rw [p2]; exact hk)] at this
    exact Option.some.inj this
  have hn : val n k = total energy (fun _ => (1 : ℝ)) (InBin eb k) evs := by
    have := n3 k hk
    rw [getElem?_val (by rw [n2]; exact hk)] at this
    exact Option.some.inj this
  simp only [hv, hn]
  clear n1 n2 n3 p1 p2 p3 hv hn
  induction evs with
  | nil => simp [total]
  | cons ev evs ih =>
    simp only [total_cons]
    have hsum : ∀ a b : S → ℝ, (srcs.map (fun x => a x + b x)).sum = (srcs.map a).sum + (srcs.map b).sum := by
      intro a b; exact List.sum_map_add
    rw [hsum, ih fun ev' hev' => h ev' (List.mem_cons_of_mem _ hev')]
    congr 1
    by_cases hb : InBin eb k (energy ev)
    · have hw : Within eb (energy ev) := by
        by_contra hw
        exact (C49_partition hs hl _).2 hw k hb
      simp only [if_pos hb]
      exact h ev List.mem_cons_self hw
    · simp [if_neg hb]

/-- In a fit in which no events are read after the construction, after a synchronisation and
an evaluation: in every energy bin whose events are all selected and have a positive model density
the numbers of events attributed to the sources add up to the number of events. -/
theorem C49_attributed {κ E G X : Type} [LinearOrder κ] {w : Unbinned.World κ E G X} (hc : w.catchNeg = false)
    {es : List E} {objs : κ → Unbinned.Obj G X} {ops : List (Unbinned.Op κ E G X)}
    (hop : ∀ op ∈ ops, Unbinned.Spec.Fitting op ∧ ∀ es, op ≠ .read es) {s : Unbinned.L κ E G X}
    (hr : Unbinned.run w (Unbinned.L.init es objs) (ops ++ [.par .sync]) = some s)
    (hx : ¬ Unbinned.Spec.Excluded w s) (prior : Bool) (energy : E → ℝ) {eb : List ℝ} (hs : eb.Pairwise (· < ·))
    (hl : 2 ≤ eb.length) :
    ∃ s' v, Unbinned.value w prior s = .ok s' v ∧
      ((∀ ev ∈ s'.events, Within eb (energy ev.e) → Unbinned.Spec.InRange w s' ev.e ∧
        0 < Unbinned.Spec.density w s' ev.e) →
      ∃ n, nobs (fun ev => energy ev.e) (fun _ => 1) eb s'.events = .ok n ∧ ∃ per : κ × SrcModel.Src κ ℝ → List ℝ,
        (∀ x, nobs (fun ev => energy ev.e) (fun ev => Unbinned.share w x.2 (s'.objs x.1) ev) eb s'.events =
          .ok (per x)) ∧
        ∀ k < eb.length - 1, (s'.m.sources.map (fun x => val (per x) k)).sum = val n k) := by
  obtain ⟨s', v, hv, -, h⟩ := Unbinned.C48_shares_partial hc hop hr hx prior
  refine ⟨s', v, hv, fun hd => ?_⟩
  exact C49_sources (fun ev : Unbinned.Ev κ E => energy ev.e)
    (fun (x : κ × SrcModel.Src κ ℝ) ev => Unbinned.share w x.2 (s'.objs x.1) ev) s'.m.sources hs hl
    fun ev hev hw => (h ev hev (hd ev hev hw).1).2 (hd ev hev hw).2.ne'

/-- Three bins; events on both ends, on an inner boundary, inside and outside. -/
example : ([1, 2, 4, 8] : List ℝ).Pairwise (· < ·) ∧ InBin [1, 2, 4, 8] 0 1 ∧ InBin [1, 2, 4, 8] 1 2 ∧
    InBin [1, 2, 4, 8] 2 8 ∧ ¬ Within [1, 2, 4, 8] 9 := by
  refine ⟨by norm_num, ?_, ?_, ?_, ?_⟩
  · exact ⟨1, 2, rfl, rfl, by norm_num, .inl (by norm_num)⟩
  · exact ⟨2, 4, rfl, rfl, by norm_num, .inl (by norm_num)⟩
  · exact ⟨4, 8, rfl, rfl, by norm_num, .inr ⟨rfl, rfl⟩⟩
  · rintro ⟨lo, hi, h1, h2, h3, h4⟩
    simp at h2
    rw [← h2] at h4; norm_num at h4

/-- Without an event on a bin the bin is empty; with an event on an inner boundary the upper
bin gets it. -/
example : total (fun e : ℝ => e) (fun _ => 1) (InBin [1, 2, 4]  1) [2] = 1 := by
  have : InBin [1, 2, 4] 1 2 := ⟨2, 4, rfl, rfl, by norm_num, .inl (by norm_num)⟩
  simp [total, this]

end Verif.Nobs
