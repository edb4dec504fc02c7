import Verif.ExpCube.Model
import Verif.ExpCube.Spec
import Verif.Energy.Props
import Mathlib.Tactic.Linarith
import Mathlib.Tactic.Ring
import Mathlib.Tactic.FieldSimp
import Mathlib.Tactic.NormNum
/-
Lemmas on gtexpcube2.
-/
set_option linter.unusedSectionVars false
set_option linter.unusedSimpArgs false
set_option linter.unusedVariables false

namespace Verif.ExpCube
open Verif.Vec Spec

theorem edges_cons2 (r r' : Row) (rs : List Row) (es : List ℝ) (h : edges (r' :: rs) = .ok es) :
    edges (r :: r' :: rs) = .ok (r.emin / 1000 :: es) := by
  simp only [edges, Res.ok.injEq] at h ⊢
  rw [← h]
  simp

theorem edges_ok : ∀ (rows : List Row), rows ≠ [] → rows.IsChain (fun a b => a.emax = b.emin) →
    ∃ es, edges rows = .ok es ∧ Bounds rows es ∧ ∃ e rest, es = e :: rest ∧
      ∀ r rs, rows = r :: rs → e = r.emin / 1000
  | [], h, _ => absurd rfl h
  | [r], _, _ => by
    refine ⟨[r.emin / 1000, r.emax / 1000], by simp [edges], ⟨rfl, rfl⟩, _, _, rfl, ?_⟩
    intro r' rs h; cases h; rfl
  | r :: r' :: rs, _, hc => by
    rw [List.isChain_cons_cons] at hc
    obtain ⟨es, h1, ⟨h2, h3⟩, e, rest, h4, h5⟩ := edges_ok (r' :: rs) (by simp) hc.2
    refine ⟨r.emin / 1000 :: es, edges_cons2 r r' rs es h1, ⟨?_, ?_⟩, _, _, rfl, ?_⟩
    · simp only [List.length_cons] at h2 ⊢; omega
    · have he := h5 r' rs rfl
      subst h4
      rw [List.tail_cons, List.map_cons, List.zip_cons_cons, he, ← hc.1]
      rw [List.tail_cons] at h3
      rw [he, ← hc.1] at h3
      rw [h3]
    · intro a b h; cases h; rfl

/-- Energies with good bins are a good grid. -/
theorem grid_of_bounds {rows : List Row} {es : List ℝ} (hg : Good rows) (hb : Bounds rows es) :
    Grid es := by
  have hl : 0 < rows.length := List.length_pos_iff.2 hg.some
  have hlen := hb.1
  have hz : ∀ k (h : k < rows.length), es[k]'(by omega) = rows[k].emin / 1000 ∧
      es[k + 1]'(by omega) = rows[k].emax / 1000 := by
    intro k h
    have h1 : (es.zip es.tail)[k]? = (rows.map (fun r => (r.emin / 1000, r.emax / 1000)))[k]? := by
      rw [hb.2]
    rw [List.getElem?_eq_getElem (by simp; omega), List.getElem?_eq_getElem (by simpa using h)] at h1
    simp only [List.getElem_zip, List.getElem_map, Option.some.injEq, Prod.mk.injEq,
      List.getElem_tail] at h1
    exact h1
  have hp : ∀ k (h : k < rows.length), 0 < rows[k].emin ∧ rows[k].emin < rows[k].emax :=
    fun k h => hg.positive _ (List.getElem_mem h)
  refine ⟨by omega, ?_, ?_⟩
  · intro e he
    obtain ⟨k, hk, rfl⟩ := List.mem_iff_getElem.1 he
    rcases Nat.lt_or_ge k rows.length with h | h
    · rw [(hz k h).1]; exact div_pos (hp k h).1 (by norm_num)
    · obtain ⟨j, hj⟩ : ∃ j, k = j + 1 := ⟨k - 1, by omega⟩
      subst hj
      rw [(hz j (by omega)).2]
      exact div_pos (lt_trans (hp j (by omega)).1 (hp j (by omega)).2) (by norm_num)
  · rw [← List.isChain_iff_pairwise]
    rw [List.isChain_iff_getElem]
    intro k hk
    rw [(hz k (by omega)).1, (hz k (by omega)).2]
    have := (hp k (by omega)).2
    exact div_lt_div_of_pos_right this (by norm_num)

theorem log_ok {a b : ℝ} {n : Nat} (ha : 0 < a) (hab : a < b) (hn : 0 < n) :
    ∃ es, logEdges a b n = .ok es ∧ LogGrid a b n es ∧ Grid es := by
  have hne : (n : ℝ) ≠ 0 := by exact_mod_cast hn.ne'
  have hnp : (0 : ℝ) < n := by exact_mod_cast hn
  have hr : 0 < Real.log (b / a) := Real.log_pos (by rw [lt_div_iff₀ ha]; linarith)
  set c := Real.log (b / a) / n with hc
  have hcp : 0 < c := div_pos hr hnp
  set es := (List.range (n + 1)).map fun k : Nat => a * Real.exp (c * k) with hes
  have hlen : es.length = n + 1 := by simp [hes]
  have hv : ∀ k ≤ n, val es k = a * Real.exp (c * k) := by
    intro k hk
    rw [val_lt (by omega)]
    simp [hes]
  refine ⟨es, ?_, ⟨hlen, ?_, ?_, ?_⟩, ⟨by omega, ?_, ?_⟩⟩
  · unfold logEdges; rw [if_neg hn.ne']
  · rw [hv 0 (by omega)]; simp
  · rw [hv n le_rfl, hc, div_mul_cancel₀ _ hne, Real.exp_log (div_pos (lt_trans ha hab) ha)]
    field_simp
  · intro k hk
    have hstep : ∀ k < n, val es (k + 1) / val es k = Real.exp c := by
      intro k hk
      rw [hv (k + 1) (by omega), hv k (by omega)]
      push_cast
      rw [mul_add, mul_one, Real.exp_add]
      have := (Real.exp_pos (c * k)).ne'
      field_simp
    rw [hstep k hk, ← hstep 0 hn]
  · intro e he
    rw [hes, List.mem_map] at he
    obtain ⟨k, _, rfl⟩ := he
    exact mul_pos ha (Real.exp_pos _)
  · rw [hes, List.pairwise_map]
    refine List.Pairwise.imp ?_ List.pairwise_lt_range
    intro x y hxy
    have : (x : ℝ) < y := by exact_mod_cast hxy
    exact mul_lt_mul_of_pos_left (Real.exp_lt_exp.2 (mul_lt_mul_of_pos_left this hcp)) ha

theorem centers_ok : ∀ (w : List ℝ), w ≠ [] → ∃ ms, centers w = .ok ms ∧ Means w ms
  | [], h => absurd rfl h
  | [a], _ => ⟨[], rfl, rfl, by simp⟩
  | a :: b :: l, _ => by
    obtain ⟨ms, h1, h2, h3⟩ := centers_ok (b :: l) (by simp)
    refine ⟨Real.sqrt (a * b) :: ms, ?_, ?_, ?_⟩
    · rw [centers, h1]; rfl
    · simp only [List.length_cons] at h2 ⊢; omega
    · intro k hk
      cases k with
      | zero => simp [val]
      | succ k =>
        have := h3 k (by simp only [List.length_cons] at hk; omega)
        simpa [val] using this

theorem energies_ok {es : List ℝ} (hg : Grid es) (b : Int) (hb : 0 ≤ b) (c : Bool) :
    ∃ w out, expandInt es b = .ok w ∧ finish c w = .ok out ∧ Energies es b.toNat c out := by
  obtain ⟨w, h1, h2, h3, _, _, h6, h7⟩ :=
    Energy.C12_expand_energies es b.toNat hg.two hg.positive hg.increasing
  have he : expandInt es b = .ok w := by
    unfold expandInt
    have := hg.two
    rw [if_neg (by omega), if_neg (by omega), h1]
  have hne : w ≠ [] := by
    intro h; rw [h, List.length_nil] at h2; have := hg.two; omega
  obtain ⟨ms, m1, m2⟩ := centers_ok w hne
  cases c with
  | true => exact ⟨w, ms, he, by simpa [finish] using m1, w, ⟨h2, h3, h6, h7⟩, by simpa using m2⟩
  | false => exact ⟨w, w, he, by simp [finish], w, ⟨h2, h3, h6, h7⟩, by simp⟩

theorem own_iff (p : Pars) : haveEnergies p = true ↔ Own p := by
  unfold haveEnergies Own
  cases p.ebin with
  | file f => cases f <;> simp
  | log a b n => cases a <;> cases b <;> cases n <;> simp

theorem userEdges_ok {d : Disk} {p : Pars} (h : OwnGood d p) :
    ∃ es, userEdges d p = .ok es ∧ OwnEnergies d p es ∧ Grid es := by
  unfold OwnGood at h
  unfold userEdges OwnEnergies
  cases hp : p.ebin with
  | file f =>
    rw [hp] at h
    cases f with
    | none => exact h.elim
    | some f =>
      obtain ⟨rows, h1, h2⟩ := h
      obtain ⟨es, e1, e2, _⟩ := edges_ok rows h2.some h2.joined
      refine ⟨es, ?_, ⟨rows, h1, e2⟩, grid_of_bounds h2 e2⟩
      simp only
      rw [h1]
      exact e1
  | log a b n =>
    rw [hp] at h
    cases a with
    | none => exact h.elim
    | some a =>
      cases b with
      | none => exact h.elim
      | some b =>
        cases n with
        | none => exact h.elim
        | some n =>
          obtain ⟨es, h1, h2, h3⟩ := log_ok h.1 h.2.1 h.2.2
          exact ⟨es, h1, h2, h3⟩

theorem sky_iff (p : Pars) : haveSky p = true ↔ ¬ NoSky p := by
  unfold haveSky NoSky
  cases p.nxpix <;> cases p.nypix <;> cases p.binsz <;> cases p.xref <;> cases p.yref <;> simp

theorem skyFor_own {p : Pars} (h : ¬ NoSky p) (c : Option Sky) :
    ∃ s, skyFor p c = .ok s ∧ OwnSky p s := by
  unfold NoSky at h
  push Not at h
  obtain ⟨h1, h2, h3, h4, h5⟩ := h
  obtain ⟨nx, hx⟩ := Option.ne_none_iff_exists'.1 h1
  obtain ⟨ny, hy⟩ := Option.ne_none_iff_exists'.1 h2
  obtain ⟨bs, hb⟩ := Option.ne_none_iff_exists'.1 h3
  obtain ⟨x, hxr⟩ := Option.ne_none_iff_exists'.1 h4
  obtain ⟨y, hyr⟩ := Option.ne_none_iff_exists'.1 h5
  refine ⟨skyOf nx ny bs x y p.axisrot p.proj p.gal, ?_, ?_⟩
  · unfold skyFor; rw [hx, hy, hb, hxr, hyr]
  · refine ⟨hx, hy, hxr, hyr, hb, rfl, ?_, rfl, rfl, rfl⟩
    unfold skyOf
    simp only [Prod.mk.injEq]
    constructor <;> ring

theorem skyFor_none {p : Pars} (h : NoSky p) (s : Sky) :
    skyFor p (some s) = .ok (skyOf s.n0 s.n1 |s.cdelt.1| s.crval.1 s.crval.2 s.rot s.proj s.gal) := by
  unfold skyFor
  rcases h with h | h | h | h | h <;> rw [h]
  · cases p.nxpix <;> rfl
  · cases p.nxpix <;> cases p.nypix <;> rfl
  · cases p.nxpix <;> cases p.nypix <;> cases p.binsz <;> rfl
  · cases p.nxpix <;> cases p.nypix <;> cases p.binsz <;> cases p.xref <;> rfl

theorem skyFor_missing {p : Pars} (h : NoSky p) : skyFor p none = .throws := by
  unfold skyFor
  rcases h with h | h | h | h | h <;> rw [h]
  · cases p.nxpix <;> rfl
  · cases p.nxpix <;> cases p.nypix <;> rfl
  · cases p.nxpix <;> cases p.nypix <;> cases p.binsz <;> rfl
  · cases p.nxpix <;> cases p.nypix <;> cases p.binsz <;> cases p.xref <;> rfl

/-- The geometry taken from a counts map is that of the map exactly if this is regular. -/
theorem skyOf_iff (s : Sky) :
    skyOf s.n0 s.n1 |s.cdelt.1| s.crval.1 s.crval.2 s.rot s.proj s.gal = s ↔ Regular s := by
  obtain ⟨proj, crpix, crval, cdelt, rot, gal, n0, n1⟩ := s
  obtain ⟨c1, c2⟩ := cdelt
  obtain ⟨p1, p2⟩ := crpix
  unfold skyOf Regular
  simp only [Sky.mk.injEq, true_and, and_true, Prod.mk.injEq]
  constructor
  · rintro ⟨⟨a1, a2⟩, b1, b2⟩
    refine ⟨b2 ▸ abs_nonneg _, by rw [← b2]; linarith, ?_, ?_⟩ <;> linarith
  · rintro ⟨a, b, c, d⟩
    have : |c1| = c2 := by rw [b, abs_neg, abs_of_nonneg a]
    refine ⟨⟨by linarith, by linarith⟩, by rw [this, b], this⟩

end Verif.ExpCube
