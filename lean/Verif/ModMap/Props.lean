import Verif.ModMap.Model
import Verif.ModMap.Spec
import Verif.HistND.Props
import Verif.MapInt.Lemmas
import Verif.Energy.Lemmas
import Mathlib.Tactic.Linarith
import Mathlib.Tactic.Ring
/-
C120: maps of model counts.
-/
set_option linter.unusedSectionVars false
set_option linter.unusedSimpArgs false
set_option linter.unusedVariables false

namespace Verif.ModMap
open Verif.Vec Verif.HistND Spec

theorem upper_of_reads {t word : String} (hw : ∀ b ∈ word.toList, b.toUpper = b ∧ b.toLower.toUpper = b)
    (h : Reads t word) : toUpper t = word := by
  unfold toUpper
  have : t.toList.map Char.toUpper = word.toList := by
    unfold Reads at h
    generalize word.toList = w at h hw
    generalize t.toList = l at h
    induction h with
    | nil => rfl
    | @cons a b l w hab _ ih =>
      rw [List.map_cons, ih (fun b hb => hw b (List.mem_cons_of_mem _ hb))]
      congr 1
      have := hw b (by simp)
      rcases hab with rfl | rfl
      · exact this.1
      · exact this.2
  rw [this, String.ofList_toList]

theorem upper_map {t : String} (h : Reads t "CMAP") : toUpper t = "CMAP" :=
  upper_of_reads (by decide) h

theorem upper_cube {t : String} (h : Reads t "CCUBE") : toUpper t = "CCUBE" :=
  upper_of_reads (by decide) h

theorem sumPlanes_ok {size ne : Nat} (hne : 0 < ne) {out : List ℝ} (hl : out.length = size * ne) :
    ∃ w, sumPlanes size ne out = .ok w ∧ w.length = out.length ∧
      (∀ j < size, val w j = val out j + ∑ k ∈ Finset.range (ne - 1), val out ((k + 1) * size + j)) ∧
      ∀ i, size ≤ i → val w i = val out i := by
  unfold sumPlanes
  obtain ⟨w, h1, h2, h3, h4⟩ := loop_inv (body := fun k w => loop (fun j w => do
      let x ← vget w j
      let y ← vget w (k * size + j)
      vset w j (x + y)) 0 size w) (lo := 1) (n := ne - 1) (s := out)
    (fun k w => w.length = out.length ∧
      (∀ j < size, val w j = val out j + ∑ i ∈ Finset.range (k - 1), val out ((i + 1) * size + j)) ∧
      ∀ i, size ≤ i → val w i = val out i)
    ⟨rfl, fun j _ => by simp, fun _ _ => rfl⟩ (by
      rintro k w hk hk' ⟨w1, w2, w3⟩
      have hks : (k + 1) * size ≤ out.length := by
        rw [hl, Nat.mul_comm size]
        exact Nat.mul_le_mul_right _ (by omega)
      have hks' : size ≤ k * size := Nat.le_mul_of_pos_left _ (by omega)
      have hsp : (k + 1) * size = k * size + size := by ring
      obtain ⟨w', q1, q2, q3⟩ := loop_inv (body := fun j w => do
          let x ← vget w j
          let y ← vget w (k * size + j)
          vset w j (x + y)) (lo := 0) (n := size) (s := w)
        (fun j w' => w'.length = w.length ∧
          ∀ i, val w' i = if i < j then val w i + val w (k * size + i) else val w i)
        ⟨rfl, fun i => by rw [if_neg (Nat.not_lt_zero _)]⟩ (by
          rintro j w' _ hj ⟨v1, v2⟩
          have e1 : vget w' j = .ok (val w' j) := vget_val (by omega)
          have e2 : vget w' (k * size + j) = .ok (val w' (k * size + j)) := vget_val (by omega)
          refine ⟨w'.set j (val w' j + val w' (k * size + j)), ?_, by simp [v1], ?_⟩
          · rw [e1, Res.bind_ok, e2, Res.bind_ok]
            unfold vset
            rw [if_pos (by omega)]
          · intro i
            by_cases hij : i = j
            · subst hij
              rw [val_set (by omega), if_pos rfl, if_pos (by omega), v2 i, if_neg (by omega),
                v2 (k * size + i), if_neg (by omega)]
            · rw [val_set (by omega), if_neg hij, v2 i]
              by_cases h : i < j
              · rw [if_pos h, if_pos (by omega)]
              · rw [if_neg h, if_neg (by omega)])
      refine ⟨w', q1, by omega, ?_, ?_⟩
      · intro j hj
        rw [q3, if_pos (by omega), w2 j hj, w3 (k * size + j) (by omega)]
        obtain ⟨k', rfl⟩ : ∃ k', k = k' + 1 := ⟨k - 1, by omega⟩
        rw [show k' + 1 + 1 - 1 = k' + 1 by omega, show k' + 1 - 1 = k' by omega, Finset.sum_range_succ,
          add_assoc]
      · intro i hi
        rw [q3, if_neg (by omega), w3 i hi])
  refine ⟨w, h1, h2, ?_, h4⟩
  intro j hj
  rw [h3 j hj, show 1 + (ne - 1) - 1 = ne - 1 by omega]

/-- The state of an object after `s` sums over the energies. -/
def State (c : Cmap) (m : List ℝ) (s : Nat) (out : List ℝ) : Prop :=
  out.length = m.length ∧ (∀ j < npix c, val out j = Spec.counts c m j 0 + s * rest c m j) ∧
    ∀ i, npix c ≤ i → val out i = val m i

theorem state_zero (c : Cmap) (m : List ℝ) : State c m 0 m :=
  ⟨rfl, fun j _ => by unfold Spec.counts; simp, fun _ _ => rfl⟩

theorem rest_state {c : Cmap} {m out : List ℝ} {s : Nat} (h : State c m s out) (j : Nat) :
    rest c out j = rest c m j := by
  unfold rest Spec.counts
  apply Finset.sum_congr rfl
  intro k _
  rw [h.2.2]
  have : npix c ≤ (k + 1) * npix c := Nat.le_mul_of_pos_left _ (by omega)
  omega

/-- A sum over the energies. -/
theorem write_sum {nx ny ne : Nat} {m out : List ℝ} {s : Nat} (hs : Sized (.wcs nx ny ne) m)
    (h : State (.wcs nx ny ne) m s out) {t : String} (ht : Reads t "CMAP") :
    ∃ f out', write (.wcs nx ny ne) out t = .ok (f, out') ∧ State (.wcs nx ny ne) m (s + 1) out' ∧
      IsMap (.wcs nx ny ne) (fun j => Spec.counts (.wcs nx ny ne) m j 0 + (s + 1) * rest (.wcs nx ny ne) m j) f := by
  obtain ⟨s1, s2, s3⟩ := hs
  obtain ⟨w, w1, w2, w3, w4⟩ := sumPlanes_ok (size := nx * ny) (ne := ne) s2 (out := out) (by
    rw [h.1, s3]; rfl)
  have hval : ∀ j < nx * ny, val w j = Spec.counts (.wcs nx ny ne) m j 0 + (s + 1) * rest (.wcs nx ny ne) m j := by
    intro j hj
    rw [w3 j hj, h.2.1 j hj, ← rest_state h j]
    unfold rest Spec.counts
    change _ + (∑ k ∈ Finset.range (ne - 1), val out ((k + 1) * (nx * ny) + j)) =
      _ + _ * (∑ k ∈ Finset.range (ne - 1), val out ((k + 1) * (nx * ny) + j))
    change _ + _ * (∑ k ∈ Finset.range (ne - 1), val out ((k + 1) * (nx * ny) + j)) + _ = _
    ring
  have hge : nx * ny ≤ w.length := by
    rw [w2, h.1, s3]
    exact Nat.le_mul_of_pos_right _ s2
  refine ⟨.image [nx, ny] (w.take (nx * ny)), w, ?_, ⟨w2.trans h.1, ?_, ?_⟩, ?_⟩
  · unfold write writeWcs
    simp only
    rw [upper_map ht, if_neg (by simp), if_pos rfl, w1, Res.bind_ok]
    unfold setImage
    have : [nx, ny].prod = nx * ny := by simp
    rw [this, if_neg (by omega), Res.bind_ok]
  · intro j hj
    rw [hval j hj]
    push_cast
    rfl
  · intro i hi
    rw [w4 i hi, h.2.2 i hi]
  · refine ⟨⟨nx, ny, ne, rfl, rfl⟩, by rw [List.length_take]; exact Nat.min_eq_left hge, ?_⟩
    intro j hj
    have hj' : j < nx * ny := hj
    simp only
    rw [← hval j hj', val_lt (by rw [List.length_take]; omega), val_lt (by omega), List.getElem_take]

/-- All energy bins. -/
theorem write_cube {nx ny ne : Nat} {m out : List ℝ} {s : Nat} (hs : Sized (.wcs nx ny ne) m)
    (h : State (.wcs nx ny ne) m s out) {t : String} (ht : Reads t "CCUBE") :
    write (.wcs nx ny ne) out t = .ok (.image [nx, ny, ne] out, out) := by
  obtain ⟨s1, s2, s3⟩ := hs
  have hp : [nx, ny, ne].prod = nx * ny * ne := by simp [Nat.mul_assoc]
  have hl : out.length = nx * ny * ne := by rw [h.1, s3]; rfl
  unfold write writeWcs
  simp only
  rw [upper_cube ht, if_neg (by simp), if_neg (by decide)]
  unfold setImage
  rw [hp, if_neg (by omega), Res.bind_ok, List.take_of_length_le (by omega)]

theorem not_both {t : String} (h : Reads t "CMAP") : ¬ Reads t "CCUBE" := by
  intro h'
  have a := upper_map h
  rw [upper_cube h'] at a
  exact absurd a (by decide)

theorem sums_cons_map {t : String} {ts : List String} (h : Reads t "CMAP") : sums (t :: ts) = sums ts + 1 := by
  unfold sums
  rw [List.countP_cons, if_pos (@decide_eq_true _ (Classical.propDecidable _) h)]

theorem sums_cons_cube {t : String} {ts : List String} (h : Reads t "CCUBE") : sums (t :: ts) = sums ts := by
  unfold sums
  rw [List.countP_cons, if_neg, Nat.add_zero]
  intro hd
  exact not_both (@of_decide_eq_true _ (Classical.propDecidable _) hd) h

theorem writeAll_ok {nx ny ne : Nat} {m : List ℝ} (hs : Sized (.wcs nx ny ne) m) :
    ∀ (ts : List String) (s : Nat) (out : List ℝ), (∀ t ∈ ts, Reads t "CMAP" ∨ Reads t "CCUBE") →
      State (.wcs nx ny ne) m s out →
      ∃ fs out', writeAll (.wcs nx ny ne) out ts = .ok (fs, out') ∧ State (.wcs nx ny ne) m (s + sums ts) out'
  | [], s, out, _, h => ⟨[], out, rfl, by simpa [sums] using h⟩
  | t :: ts, s, out, ht, h => by
    rcases ht t (by simp) with h1 | h1
    · obtain ⟨f, out', a1, a2, _⟩ := write_sum hs h h1
      obtain ⟨fs, o, b1, b2⟩ := writeAll_ok hs ts (s + 1) out' (fun x hx => ht x (by simp [hx])) a2
      refine ⟨f :: fs, o, ?_, ?_⟩
      · rw [writeAll, a1, Res.bind_ok, b1]; rfl
      · rw [sums_cons_map h1, show s + (sums ts + 1) = s + 1 + sums ts by omega]; exact b2
    · have a1 := write_cube hs h h1
      obtain ⟨fs, o, b1, b2⟩ := writeAll_ok hs ts s out (fun x hx => ht x (by simp [hx])) h
      refine ⟨.image [nx, ny, ne] out :: fs, o, ?_, ?_⟩
      · rw [writeAll, a1, Res.bind_ok, b1]; rfl
      · rw [sums_cons_cube h1]; exact b2

theorem total_eq {c : Cmap} {m : List ℝ} (h : 0 < nener c) (j : Nat) :
    total c m j = Spec.counts c m j 0 + rest c m j := by
  unfold total rest
  obtain ⟨n, hn⟩ : ∃ n, nener c = n + 1 := ⟨nener c - 1, by omega⟩
  rw [hn, Finset.sum_range_succ', add_comm]
  rfl

/-- C120 (partial).  The map of model counts is what the likelihood object computes or what is given,
and as long as no sums were written before, the file has the counts of all energy bins, or their sum.
Missing: later calls, see `C120_again_violates` and `C120_cube_violates`, and HEALPix maps, see
`C120_hpx_violates`. -/
theorem C120_files_partial {nx ny ne : Nat} {model : List ℝ} {given : Option (List ℝ)}
    (hs : Sized (.wcs nx ny ne) (given.getD model)) (ts : List String) (hts : ∀ t ∈ ts, Reads t "CCUBE") :
    ∃ fs out, writeAll (.wcs nx ny ne) (new model given) ts = .ok (fs, out) ∧
      (∀ t, Reads t "CCUBE" → ∃ f out', write (.wcs nx ny ne) out t = .ok (f, out') ∧
        IsCube (.wcs nx ny ne) (given.getD model) f) ∧
      ∀ t, Reads t "CMAP" → ∃ f out', write (.wcs nx ny ne) out t = .ok (f, out') ∧
        IsMap (.wcs nx ny ne) (total (.wcs nx ny ne) (given.getD model)) f := by
  have hnew : new model given = given.getD model := by cases given <;> rfl
  rw [hnew]
  generalize given.getD model = m at hs
  obtain ⟨fs, out, h1, h2⟩ := writeAll_ok hs ts 0 m (fun t ht => Or.inr (hts t ht)) (state_zero _ _)
  have hz : sums ts = 0 := by
    unfold sums
    rw [List.countP_eq_zero]
    intro t ht hd
    exact not_both (@of_decide_eq_true _ (Classical.propDecidable _) hd) (hts t ht)
  rw [hz] at h2
  have hout : out = m := by
    apply ext_val h2.1
    intro i hi
    rcases Nat.lt_or_ge i (npix (.wcs nx ny ne)) with h | h
    · rw [h2.2.1 i h]
      unfold Spec.counts
      simp
    · exact h2.2.2 i h
  refine ⟨fs, out, h1, ?_, ?_⟩
  · intro t ht
    exact ⟨_, _, write_cube hs h2 ht, ⟨nx, ny, ne, rfl, rfl⟩, hout⟩
  · intro t ht
    obtain ⟨f, out', a1, _, a3⟩ := write_sum hs h2 ht
    refine ⟨f, out', a1, ?_⟩
    have : total (.wcs nx ny ne) m = fun j => Spec.counts (.wcs nx ny ne) m j 0 +
        (((0 + 0 : Nat) : ℝ) + 1) * rest (.wcs nx ny ne) m j := by
      funext j
      rw [total_eq hs.2.1]
      simp
    rw [this]
    exact a3

/-- C120 (violation).  After sums over the energies were written, further sums count the energy bins
from the second on again, each time once more. -/
theorem C120_again_violates {nx ny ne : Nat} {m : List ℝ} (hs : Sized (.wcs nx ny ne) m) (ts : List String)
    (hts : ∀ t ∈ ts, Reads t "CMAP" ∨ Reads t "CCUBE") {t : String} (ht : Reads t "CMAP") :
    ∃ fs out f out', writeAll (.wcs nx ny ne) m ts = .ok (fs, out) ∧
      write (.wcs nx ny ne) out t = .ok (f, out') ∧
      IsMap (.wcs nx ny ne) (fun j => total (.wcs nx ny ne) m j + sums ts * rest (.wcs nx ny ne) m j) f ∧
      (∀ j < nx * ny, sums ts ≠ 0 → rest (.wcs nx ny ne) m j ≠ 0 →
        ¬ IsMap (.wcs nx ny ne) (total (.wcs nx ny ne) m) f) := by
  obtain ⟨fs, out, h1, h2⟩ := writeAll_ok hs ts 0 m hts (state_zero _ _)
  obtain ⟨f, out', a1, _, a3⟩ := write_sum hs h2 ht
  have hv : (fun j => Spec.counts (.wcs nx ny ne) m j 0 + (((0 + sums ts : Nat) : ℝ) + 1) * rest (.wcs nx ny ne) m j) =
      fun j => total (.wcs nx ny ne) m j + sums ts * rest (.wcs nx ny ne) m j := by
    funext j
    rw [total_eq hs.2.1, Nat.zero_add]
    ring
  rw [hv] at a3
  refine ⟨fs, out, f, out', h1, a1, a3, ?_⟩
  intro j hj h0 hr hm
  cases f with
  | image dims data =>
    have e1 := a3.2.2 j hj
    have e2 := hm.2.2 j hj
    rw [e1] at e2
    have : (sums ts : ℝ) * rest (.wcs nx ny ne) m j = 0 := by linarith
    rcases mul_eq_zero.1 this with h | h
    · exact h0 (by exact_mod_cast h)
    · exact hr h
  | columns cols =>
    obtain ⟨c1, e0, _, e1⟩ := a3
    obtain ⟨c2, e0', _, e2⟩ := hm
    rw [e0] at e0'
    simp only [List.cons.injEq, and_true] at e0'
    subst e0'
    have e1 := e1 j hj
    have e2 := e2 j hj
    rw [e1] at e2
    have : (sums ts : ℝ) * rest (.wcs nx ny ne) m j = 0 := by linarith
    rcases mul_eq_zero.1 this with h | h
    · exact h0 (by exact_mod_cast h)
    · exact hr h

/-- C120 (violation).  The counts of all energy bins, written after sums, have those sums in the first
bin. -/
theorem C120_cube_violates {nx ny ne : Nat} {m : List ℝ} (hs : Sized (.wcs nx ny ne) m) (ts : List String)
    (hts : ∀ t ∈ ts, Reads t "CMAP" ∨ Reads t "CCUBE") {t : String} (ht : Reads t "CCUBE") :
    ∃ fs out data, writeAll (.wcs nx ny ne) m ts = .ok (fs, out) ∧
      write (.wcs nx ny ne) out t = .ok (.image [nx, ny, ne] data, out) ∧
      (∀ j < nx * ny, val data j = val m j + sums ts * rest (.wcs nx ny ne) m j) ∧
      (∀ i, nx * ny ≤ i → val data i = val m i) := by
  obtain ⟨fs, out, h1, h2⟩ := writeAll_ok hs ts 0 m hts (state_zero _ _)
  refine ⟨fs, out, out, h1, write_cube hs h2 ht, ?_, h2.2.2⟩
  intro j hj
  rw [h2.2.1 j hj, Nat.zero_add]
  unfold Spec.counts
  simp

theorem char_upper {a b : Char} (h : a.toUpper = b) : a = b ∨ a = b.toLower := by
  unfold Char.toUpper at h
  split at h
  · rename_i hc
    right
    subst h
    have e1 : 'a'.val = 97 := rfl
    have e2 : 'z'.val = 122 := rfl
    have e3 : 'A'.val - 'a'.val = 4294967264 := rfl
    have e4 : 'A'.val = 65 := rfl
    have e5 : 'Z'.val = 90 := rfl
    rw [e1, e2] at hc
    obtain ⟨h1, h2⟩ := hc
    have h1' : 97 ≤ a.val.toNat := h1
    have h2' : a.val.toNat ≤ 122 := h2
    have e6 : (a.val + ('A'.val - 'a'.val)).toNat = a.val.toNat - 32 := by
      rw [e3, UInt32.toNat_add]
      have : (4294967264 : UInt32).toNat = 4294967264 := rfl
      rw [this]; omega
    unfold Char.toLower
    split
    · apply Char.ext
      apply UInt32.toNat_inj.1
      simp only
      rw [UInt32.toNat_add, e6]
      have : ('a'.val - 'A'.val).toNat = 32 := rfl
      rw [this]; omega
    · rename_i hn
      exfalso
      apply hn
      simp only
      constructor
      · show 'A'.val.toNat ≤ (a.val + ('A'.val - 'a'.val)).toNat
        rw [e6]
        have : 'A'.val.toNat = 65 := rfl
        omega
      · show (a.val + ('A'.val - 'a'.val)).toNat ≤ 'Z'.val.toNat
        rw [e6]
        have : 'Z'.val.toNat = 90 := rfl
        omega
  · left; exact h

theorem reads_of_upper {t word : String} (h : toUpper t = word) : Reads t word := by
  unfold toUpper at h
  have h' : t.toList.map Char.toUpper = word.toList := by rw [← h, String.toList_ofList]
  unfold Reads
  rw [← h', List.forall₂_map_right_iff]
  exact List.forall₂_same.2 fun a _ => char_upper rfl

/-- C120.  Other types of output are refused. -/
theorem C120_refused (c : Cmap) (out : List ℝ) (t : String) (h1 : ¬ Reads t "CMAP") (h2 : ¬ Reads t "CCUBE") :
    write c out t = .throws := by
  have h1' : toUpper t ≠ "CMAP" := fun h => h1 (reads_of_upper h)
  have h2' : toUpper t ≠ "CCUBE" := fun h => h2 (reads_of_upper h)
  unfold write
  cases c with
  | wcs nx ny ne => simp only; unfold writeWcs; rw [if_pos ⟨h1', h2'⟩]
  | hpx p e =>
    simp only
    unfold Hist.new
    rw [if_neg (by simp), Res.bind_ok]
    unfold writeHpx
    rw [if_pos ⟨h1', h2'⟩]

/-! ### HEALPix -/

theorem hpx_ok {p e : Binner ℝ} (hp : 0 < p.n) (he : 0 < e.n) :
    ∃ h : Hist ℝ ℝ, Hist.new [p, e] = .ok h ∧ h.Ok ∧ h.binners = [p, e] := by
  obtain ⟨h, h1, h2, h3, _⟩ := C23_new (K := ℝ) [p, e] (by simp) (by
    intro b hb
    simp at hb
    rcases hb with rfl | rfl <;> assumption)
  exact ⟨h, h1, h2, h3⟩

/-- The full file. -/
theorem hpx_cube {p e : Binner ℝ} {m : List ℝ} (hs : Sized (.hpx p e) m) {t : String} (ht : Reads t "CCUBE") :
    ∃ f, write (.hpx p e) m t = .ok (f, m) ∧ IsCube (.hpx p e) m f := by
  obtain ⟨s1, s2, s3⟩ := hs
  obtain ⟨h, n1, n2, n3⟩ := hpx_ok (p := p) (e := e) s1 s2
  have hk : Hist.Ok { h with data := m } := by
    refine ⟨n2.nonempty, n2.pos, ?_, n2.strides⟩
    unfold Hist.dims
    simp only
    rw [n3, s3]
    simp [npix, nener]
  have hdims : Hist.dims { h with data := m } = [p.n, e.n] := by
    unfold Hist.dims; simp only; rw [n3]; rfl
  have hcol : ∀ k < e.n, Hist.getSlice { h with data := m } 0 [0, k] =
      .ok ((List.range p.n).map fun j => val m (k * p.n + j)) := by
    intro k hk'
    rw [C23_get_slice _ hk 0 (by rw [hdims]; simp) [0, k] (by
      rw [hdims]
      exact List.Forall₂.cons s1 (List.Forall₂.cons hk' List.Forall₂.nil)) (by rw [hdims]; rfl)]
    rw [hdims]
    congr 1
    apply List.map_congr_left
    intro j _
    unfold Hist.at
    rw [hdims]
    simp [cell]
    congr 1
    ring
  have hrow : ∀ k < e.n, (do
      let s ← Hist.getSlice { h with data := m } 0 [0, k]
      (List.range p.n).mapM (vget s)) = Res.ok ((List.range p.n).map fun j => val m (k * p.n + j)) := by
    intro k hk'
    rw [hcol k hk', Res.bind_ok]
    apply mapM_ok
    intro j hj
    rw [List.mem_range] at hj
    rw [vget_val (by simpa using hj), val_map_range _ hj]
  refine ⟨.columns ((List.range e.n).map fun k => (List.range p.n).map fun j => val m (k * p.n + j)), ?_, ?_⟩
  · unfold write
    simp only
    rw [n1, Res.bind_ok]
    unfold writeHpx
    rw [upper_cube ht, if_neg (by simp), if_pos rfl]
    rw [n3] at hrow
    unfold columns
    simp only
    rw [n3]
    simp only
    rw [mapM_ok _ (fun k => (List.range p.n).map fun j => val m (k * p.n + j)) (List.range e.n) (by
      intro k hk'
      exact hrow k (List.mem_range.1 hk'))]
    rfl
  · refine ⟨by simp [nener], ?_⟩
    intro k hk'
    have hk2 : k < e.n := hk'
    refine ⟨(List.range p.n).map fun j => val m (k * p.n + j), ?_, by simp [npix], ?_⟩
    · rw [List.getElem?_map, List.getElem?_range hk2]; rfl
    · intro j hj
      have hj' : j < p.n := hj
      rw [val_map_range _ hj']
      rfl

/-- The sum over energies is that of the first bin only. -/
theorem hpx_sum {p e : Binner ℝ} {m : List ℝ} (hs : Sized (.hpx p e) m) {t : String} (ht : Reads t "CMAP") :
    ∃ f, write (.hpx p e) m t = .ok (f, m) ∧ IsMap (.hpx p e) (fun j => Spec.counts (.hpx p e) m j 0) f := by
  obtain ⟨s1, s2, s3⟩ := hs
  obtain ⟨h, n1, n2, n3⟩ := hpx_ok (p := p) (e := e) s1 s2
  have s2' : 0 < e.n := s2
  obtain ⟨r, r1, r2, r3, _⟩ := C24_sum_range_partial [p] e (by simp) h n2 n3 0 (max e.n 1) (by omega) (by omega)
  have hlen : p.n ≤ m.length := by rw [s3]; exact Nat.le_mul_of_pos_right _ s2
  refine ⟨.columns [(List.range p.n).map fun j => val m j], ?_, ⟨_, rfl, by simp [npix], ?_⟩⟩
  · unfold write
    simp only
    rw [n1, Res.bind_ok]
    unfold writeHpx
    rw [upper_map ht, if_neg (by simp), if_neg (by decide)]
    have r1' : h.sumRange 1 0 (max e.n 1) = .ok r := r1
    rw [r1', Res.bind_ok]
    unfold columns
    simp only
    rw [r3]
    simp only
    rw [mapM_ok _ (fun j => val m j) (List.range p.n) (by
      intro j hj
      rw [List.mem_range] at hj
      exact vget_val (by omega))]
    rfl
  · intro j hj
    have hj' : j < p.n := hj
    rw [val_map_range _ hj']
    unfold Spec.counts
    simp

theorem hpx_all {p e : Binner ℝ} {m : List ℝ} (hs : Sized (.hpx p e) m) : ∀ (ts : List String),
    (∀ t ∈ ts, Reads t "CMAP" ∨ Reads t "CCUBE") → ∃ fs, writeAll (.hpx p e) m ts = .ok (fs, m)
  | [], _ => ⟨[], rfl⟩
  | t :: ts, h => by
    obtain ⟨fs, h1⟩ := hpx_all hs ts (fun x hx => h x (by simp [hx]))
    have : ∃ f, write (.hpx p e) m t = .ok (f, m) := by
      rcases h t (by simp) with ht | ht
      · obtain ⟨f, a, _⟩ := hpx_sum hs ht; exact ⟨f, a⟩
      · obtain ⟨f, a, _⟩ := hpx_cube hs ht; exact ⟨f, a⟩
    obtain ⟨f, a⟩ := this
    exact ⟨f :: fs, by rw [writeAll, a, Res.bind_ok, h1]; rfl⟩

/-- C120 (partial).  HEALPix maps of all energy bins are right after any calls. -/
theorem C120_hpx_partial {p e : Binner ℝ} {m : List ℝ} (hs : Sized (.hpx p e) m) (ts : List String)
    (hts : ∀ t ∈ ts, Reads t "CMAP" ∨ Reads t "CCUBE") {t : String} (ht : Reads t "CCUBE") :
    ∃ fs out f out', writeAll (.hpx p e) m ts = .ok (fs, out) ∧ write (.hpx p e) out t = .ok (f, out') ∧
      IsCube (.hpx p e) m f := by
  obtain ⟨fs, h1⟩ := hpx_all hs ts hts
  obtain ⟨f, a, b⟩ := hpx_cube hs ht
  exact ⟨fs, m, f, m, h1, a, b⟩

/-- C120 (violation).  The sum over the energies of a HEALPix map has the counts of the first energy bin
only. -/
theorem C120_hpx_violates {p e : Binner ℝ} {m : List ℝ} (hs : Sized (.hpx p e) m) {t : String}
    (ht : Reads t "CMAP") :
    ∃ f, write (.hpx p e) m t = .ok (f, m) ∧ IsMap (.hpx p e) (fun j => Spec.counts (.hpx p e) m j 0) f ∧
      ∀ j < p.n, rest (.hpx p e) m j ≠ 0 → ¬ IsMap (.hpx p e) (total (.hpx p e) m) f := by
  obtain ⟨f, a, b⟩ := hpx_sum hs ht
  refine ⟨f, a, b, ?_⟩
  intro j hj hr hm
  cases f with
  | image dims data =>
    obtain ⟨⟨nx, ny, ne, h, _⟩, _⟩ := b
    cases h
  | columns cols =>
    obtain ⟨c1, e0, _, e1⟩ := b
    obtain ⟨c2, e0', _, e2⟩ := hm
    rw [e0] at e0'
    simp only [List.cons.injEq, and_true] at e0'
    subst e0'
    have e1 := e1 j hj
    have e2 := e2 j hj
    rw [e1, total_eq hs.2.1] at e2
    exact hr (by linarith)

/-- C120 (violation).  A map given that is too small leads to undefined behaviour. -/
theorem C120_short_violates {nx ny ne : Nat} (hx : 0 < nx * ny) (hn : 2 ≤ ne) {m : List ℝ}
    (hm : m.length ≤ nx * ny) {t : String} (ht : Reads t "CMAP") :
    write (.wcs nx ny ne) (new [] (some m)) t = .ub := by
  unfold write writeWcs new
  simp only
  rw [upper_map ht, if_neg (by simp), if_pos rfl]
  have : sumPlanes (nx * ny) ne m = .ub := by
    unfold sumPlanes
    obtain ⟨n, hn'⟩ : ∃ n, ne - 1 = n + 1 := ⟨ne - 2, by omega⟩
    obtain ⟨q, hq⟩ : ∃ q, nx * ny = q + 1 := ⟨nx * ny - 1, by omega⟩
    rw [hn', loop]
    have : loop (fun j (w : List ℝ) => do
        let x ← vget w j
        let y ← vget w (1 * (nx * ny) + j)
        vset w j (x + y)) 0 (nx * ny) m = .ub := by
      conv_lhs => rw [hq]
      rw [loop]
      cases h0 : vget m 0 with
      | ok x =>
        rw [Res.bind_ok, vget_ge m _ (by omega)]
        rfl
      | throws => unfold vget at h0; split at h0 <;> cases h0
      | ub => rfl
    rw [this]
    rfl
  rw [this]
  rfl

/-! ### The hypotheses can be met -/

/-- Both words can be written in either case. -/
example : Reads "cmap" "CMAP" ∧ Reads "CMAP" "CMAP" ∧ Reads "CCube" "CCUBE" := by
  unfold Reads
  refine ⟨?_, ?_, ?_⟩ <;> decide

/-- Two pixels and three energy bins: the second sum counts the second and third bin twice. -/
example : ∃ fs out f out', writeAll (.wcs 2 1 3) [1, 2, 3, 4, 5, 6] ["cmap"] = .ok (fs, out) ∧
    write (.wcs 2 1 3) out "CMAP" = .ok (f, out') ∧ ¬ IsMap (.wcs 2 1 3) (total (.wcs 2 1 3) [1, 2, 3, 4, 5, 6]) f := by
  obtain ⟨fs, out, f, out', h1, h2, _, h4⟩ := C120_again_violates (nx := 2) (ny := 1) (ne := 3)
    (m := [1, 2, 3, 4, 5, 6]) ⟨by simp [npix], by simp [nener], by simp [npix, nener]⟩ ["cmap"]
    (by intro t ht; simp at ht; subst ht; left; unfold Reads; decide) (t := "CMAP") (by unfold Reads; decide)
  refine ⟨fs, out, f, out', h1, h2, h4 0 (by norm_num) ?_ ?_⟩
  · rw [sums_cons_map (by unfold Reads; decide)]; simp
  · unfold rest Spec.counts
    simp [nener, npix, Finset.sum_range_succ, val]
    norm_num

/-- A HEALPix map with three pixels and two energy bins. -/
example : Sized (.hpx ⟨3, fun _ => 0⟩ ⟨2, fun _ => 0⟩) [1, 2, 3, 4, 5, 6] :=
  ⟨by simp [npix], by simp [nener], by simp [npix, nener]⟩

end Verif.ModMap
