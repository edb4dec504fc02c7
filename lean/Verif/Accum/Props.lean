import Verif.Accum.Lemmas
/- Property theorems C03 (accumulators). -/
namespace Verif.Accum

/-- C03.  Every sequence of calls on a fresh `Kahan_Accumulator`: each `total`
returns the plain sum of the values added since the previous one. -/
theorem C03_kahan_totals (cs : List Call) : Kahan.init.run cs = sums 0 cs :=
  kahan_run _ rfl cs

example : Kahan.init.run [.add 1, .add 2, .total, .add 5, .total, .total] = [3, 5, 0] := by
  rw [C03_kahan_totals]; norm_num [sums]

/-- C03 (partial).  Every sequence of calls on a fresh `Accumulator` whose first
added value is not zero: no exception, no undefined behaviour, and each `total`
returns the plain sum of the values added since the previous one.  Missing: a
first value of zero, see `C03_accumulator_first_zero_violates`. -/
theorem C03_accumulator_totals_partial (cs : List Call) (h : ¬ FirstAddZero cs) :
    Acc.init.run cs = .ok (sums 0 cs) :=
  run_inv init_inv cs (fun _ => h)

example : ¬ FirstAddZero [.total, .add 1, .add (-2), .add 0, .total, .add 7, .add 1000, .add 3,
    .total] := by simp [FirstAddZero]

/-- C03, negation: if the first value added to an `Accumulator` is zero the call
reads uninitialised bounds (Accumulator.cxx:30-35), so no total is guaranteed. -/
theorem C03_accumulator_first_zero_violates (cs : List Call) (h : FirstAddZero cs) :
    Acc.init.run cs = .ub :=
  run_firstAddZero init_inv rfl cs h

example : FirstAddZero [.add 0, .add 1, .total] := rfl

/-- C03, the chunked helper `SumByNumber` on its own does not reset: its `total`
keeps the first chunk (Accumulator.h:101), so a second `total` without any `add`
returns the first chunk again.  `Accumulator` hides this by rebuilding its
helpers. -/
theorem C03_chunks_not_reset_violates (p : SumByNumber) (h : p.chunks ≠ []) :
    p.total.1.total.2 = p.chunks.head h := by
  obtain ⟨num, counter, chunks⟩ := p
  cases chunks with
  | nil => exact absurd rfl h
  | cons x xs => simp [SumByNumber.total, vresize]

example : ∃ p, SumByNumber.init.add 3 = .ok p ∧ p.total.1.total.2 = 3 := by
  refine ⟨⟨100, 1, [3]⟩, by simp [SumByNumber.add, SumByNumber.init], ?_⟩
  simp [SumByNumber.total, vresize]

end Verif.Accum
