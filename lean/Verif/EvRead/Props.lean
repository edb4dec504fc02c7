import Verif.EvRead.Lemmas
/-
Properties of the choice of response functions and of the reading of events.
-/
set_option linter.unusedSectionVars false
set_option linter.unusedSimpArgs false
set_option linter.unusedVariables false

namespace Verif.EvRead
open Verif.Cuts (Name Cut)

/-! ### Loading response functions -/

/-- Loading the response functions of a name, restricted to some types (to none: all): for a
selected type one of the sets of the name for this type is used; types not selected, or not in the
library, keep what was loaded before.  It fails exactly if the name is not known or nothing is
loaded. -/
theorem C115_load (lib : Lib) (r : Resp) (hr : StdMap.Sorted r.ptrs) (name base : Name)
    (types : List Nat) :
    (∀ r', load lib r name base types = .ok r' →
      ∃ ns, lib.ids name = some ns ∧ StdMap.Sorted r'.ptrs ∧
        ∀ k, ((types = [] ∨ k ∈ types) ∧ (∃ n ∈ ns, (lib.create n).id = k) →
            ∃ n ∈ ns, (lib.create n).id = k ∧ respPtr r' k = some (lib.create n)) ∧
          (¬ ((types = [] ∨ k ∈ types) ∧ ∃ n ∈ ns, (lib.create n).id = k) →
            respPtr r' k = respPtr r k)) ∧
    (load lib r name base types = .throws ↔ lib.ids name = none ∨
      ∃ ns, lib.ids name = some ns ∧ r.ptrs = [] ∧
        ∀ n ∈ ns, types ≠ [] ∧ (lib.create n).id ∉ types) ∧
    load lib r name base types ≠ .ub := by
  unfold load
  cases hl : lib.ids name with
  | none => simp
  | some ns =>
    have hf := fun k => addIrf_find lib types ns r.ptrs hr k
    simp only
    by_cases h0 : (ns.foldl (addIrf lib types) r.ptrs).length = 0
    · rw [if_pos h0]
      refine ⟨(fun r' h => by cases h), ?_, by simp⟩
      simp only [true_iff]
      refine Or.inr ⟨ns, rfl, ?_⟩
      have he : ns.foldl (addIrf lib types) r.ptrs = [] := List.length_eq_zero_iff.1 h0
      have hnone : ∀ k, StdMap.find (ns.foldl (addIrf lib types) r.ptrs) k = none := by
        intro k; rw [he]; rfl
      have hno : ∀ n ∈ ns, types ≠ [] ∧ (lib.create n).id ∉ types := by
        intro n hn
        by_contra hc
        have : types = [] ∨ (lib.create n).id ∈ types := by
          by_contra hc'
          push Not at hc'
          exact hc ⟨hc'.1, hc'.2⟩
        obtain ⟨n', _, _, h⟩ := (hf (lib.create n).id).2.1 this ⟨n, hn, rfl⟩
        rw [hnone] at h; cases h
      refine ⟨?_, hno⟩
      cases hp : r.ptrs with
      | nil => rfl
      | cons x m =>
        exfalso
        have h3 := (hf x.1).2.2 (fun ⟨ht, n, hn, hk⟩ => by
          have := hno n hn
          rw [hk] at this
          rcases ht with ht | ht
          · exact this.1 ht
          · exact this.2 ht)
        rw [hnone, hp] at h3
        obtain ⟨a, b⟩ := x
        simp [StdMap.find] at h3
    · rw [if_neg h0]
      refine ⟨?_, ?_, by simp⟩
      · intro r' h
        cases h
        refine ⟨ns, rfl, (hf 0).1, fun k => ⟨fun ⟨a, b⟩ => ?_, fun h => ?_⟩⟩
        · obtain ⟨n, hn, hk, h⟩ := (hf k).2.1 a b
          exact ⟨n, hn, hk, by simp only [respPtr]; rw [h]; rfl⟩
        · simp only [respPtr]; rw [(hf k).2.2 h]
      · constructor
        · intro h; cases h
        · rintro (h | ⟨ns', h1, h2, h3⟩)
          · cases h
          · exfalso
            cases h1
            apply h0
            have : ∀ ms : List Name, (∀ n ∈ ms, types ≠ [] ∧ (lib.create n).id ∉ types) →
                ms.foldl (addIrf lib types) [] = [] := by
              intro ms
              induction ms with
              | nil => intro _; rfl
              | cons n ms ih =>
                intro h
                have hn := h n (by simp)
                simp only [List.foldl_cons]
                rw [show addIrf lib types [] n = [] by
                  unfold addIrf
                  rw [if_neg]
                  rintro (h' | h')
                  · exact hn.1 h'
                  · exact hn.2 (List.count_pos_iff.1 h')]
                exact ih fun m hm => h m (by simp [hm])
            rw [h2, this ns h3]; rfl

/-- A library with response functions for types 0, 1 ("FB") and 2 to 5 ("PSF"). -/
def lib0 : Lib where
  ids := fun n =>
    if n = "FB".toList then some ["f".toList, "b".toList]
    else if n = "PSF".toList then some ["2".toList, "3".toList, "4".toList, "5".toList] else none
  create := fun n =>
    if n = "f".toList then ⟨0, none⟩ else if n = "b".toList then ⟨1, none⟩
    else if n = "2".toList then ⟨2, none⟩ else if n = "3".toList then ⟨3, none⟩
    else if n = "4".toList then ⟨4, none⟩ else ⟨5, some fun _ x _ => x⟩

/-- With a selection of types 4 and 5 two sets are loaded. -/
example : ∃ r, load lib0 empty "PSF".toList [] [4, 5] = .ok r ∧ (respPtr r 4).isSome ∧
    (respPtr r 5).isSome ∧ respPtr r 2 = none := ⟨_, rfl, rfl, rfl, rfl⟩

/-! ### Reading events -/

/-- The type of an event is the highest bit common to the bits of the event and to the mask; there
must be such a bit. -/
theorem C115_type (mask : Nat) (r : Row) :
    (∀ t, rowType mask true r = .ok t ↔
      Spec.Common r.type mask t ∧ ∀ j, Spec.Common r.type mask j → j ≤ t) ∧
    (rowType mask true r = .ub ↔ ∀ k, ¬ Spec.Common r.type mask k) ∧
    rowType mask true r ≠ .throws := by
  have h1 : ∀ t, rowType mask true r = .ok t ↔
      Spec.Common r.type mask t ∧ ∀ j, Spec.Common r.type mask j → j ≤ t := by
    intro t; rw [rowType_iff]; unfold Spec.TypeOf; simp only [if_true]
  refine ⟨h1, ⟨fun h k hk => ?_, rowType_ub mask r⟩, ?_⟩
  · have hx : r.type &&& mask ≠ 0 := by
      intro h0
      rw [common_iff, h0] at hk
      simp at hk
    simp only [rowType, if_true] at h
    rw [topBit_ok hx] at h
    cases h
  · simp only [rowType, if_true]
    by_cases hx : r.type &&& mask = 0
    · rw [hx, topBit, if_pos rfl]; intro h; cases h
    · rw [topBit_ok hx]; intro h; cases h

/-- An event of types 0 and 5 read with the mask 60 (types 2 to 5) is of type 5. -/
example : rowType 60 true ⟨0, 0, 0, 0, 0, 0, 33, 0⟩ = .ok 5 := by
  rw [(C115_type 60 ⟨0, 0, 0, 0, 0, 0, 33, 0⟩).1 5]
  refine ⟨⟨by decide, by decide⟩, fun j hj => ?_⟩
  by_contra h
  have : (33 : Nat) < 2 ^ j := lt_of_lt_of_le (by norm_num : 33 < 2 ^ 6)
    (Nat.pow_le_pow_right (by norm_num) (by omega))
  have h2 := hj.1
  rw [Nat.testBit_lt_two_pow this] at h2
  cases h2

/-- Reading a file succeeds exactly if every row has a selected type with response functions
loaded and an efficiency that is not negative.  Then the events of the rows that pass the cuts, or
of all rows if no cuts are applied, follow the ones that were there, in the order of the file. -/
theorem C115_read (resp : Resp) (hd : resp.useEdisp = false) (lt : ℝ → ℝ) (accept : Ev → Bool)
    (applyRoi : Bool) (mask : Nat) (f : File) (old new : List Ev) :
    getEvents resp lt accept applyRoi mask f old = (new, .ok ()) ↔
      ∃ es, List.Forall₂
          (Spec.ReadAs (respPtr resp) lt f.hasTypes (Cuts.Spec.mask f.cuts mask)) f.rows es ∧
        new = old ++ es.filter (fun e => !applyRoi || accept e) := by
  unfold getEvents
  rw [Cuts.foldl_mask, readRows_iff hd]

/-- With energy dispersion no event can be read. -/
theorem C115_edisp (resp : Resp) (hd : resp.useEdisp = true) (lt : ℝ → ℝ) (accept : Ev → Bool)
    (applyRoi : Bool) (mask : Nat) (f : File) (old : List Ev) (hne : f.rows ≠ []) :
    (getEvents resp lt accept applyRoi mask f old).1 = old ∧
    (getEvents resp lt accept applyRoi mask f old).2 ≠ .ok () := by
  unfold getEvents
  generalize f.cuts.foldl Cuts.typeMask mask = m
  cases hrows : f.rows with
  | nil => exact absurd hrows hne
  | cons r rs =>
    simp only [readRows]
    have : ∀ e, readRow resp lt m f.hasTypes r ≠ .ok e := by
      intro e h
      unfold readRow at h
      obtain ⟨t, _, h⟩ := Res.bind_eq_ok.1 h
      obtain ⟨x, _, h⟩ := Res.bind_eq_ok.1 h
      rw [hd] at h
      simp only [if_true] at h
      cases h
    cases hr : readRow resp lt m f.hasTypes r with
    | ok e => exact absurd hr (this e)
    | throws => exact ⟨rfl, by simp⟩
    | ub => exact ⟨rfl, by simp⟩

/-- Files are read one after the other: the events of several files are those of the files in
order. -/
theorem C115_files (resp : Resp) (hd : resp.useEdisp = false) (lt : ℝ → ℝ) (accept : Ev → Bool)
    (applyRoi : Bool) (mask : Nat) (fs : List File) (old new : List Ev) :
    getFiles resp lt accept applyRoi mask fs old = (new, .ok ()) ↔
      ∃ ess, List.Forall₂ (fun (f : File) (es : List Ev) => List.Forall₂
          (Spec.ReadAs (respPtr resp) lt f.hasTypes (Cuts.Spec.mask f.cuts mask)) f.rows es) fs ess ∧
        new = old ++ (ess.flatten).filter (fun e => !applyRoi || accept e) := by
  induction fs generalizing old with
  | nil =>
    simp only [getFiles]
    constructor
    · intro h; cases h; exact ⟨[], List.Forall₂.nil, by simp⟩
    · rintro ⟨ess, h, rfl⟩; cases h; simp
  | cons f fs ih =>
    simp only [getFiles]
    constructor
    · intro h
      rcases hg : getEvents resp lt accept applyRoi mask f old with ⟨evs, res⟩
      rw [hg] at h
      cases res with
      | ok u =>
        simp only at h
        obtain ⟨ess, h1, h2⟩ := (ih evs).1 h
        obtain ⟨es, h3, h4⟩ := (C115_read resp hd lt accept applyRoi mask f old evs).1 hg
        refine ⟨es :: ess, List.Forall₂.cons h3 h1, ?_⟩
        rw [h2, h4, List.flatten_cons, List.filter_append, List.append_assoc]
      | throws => simp only at h; cases h
      | ub => simp only at h; cases h
    · rintro ⟨ess, h, rfl⟩
      cases h with
      | cons h1 h2 =>
        rename_i es ess'
        have hg := (C115_read resp hd lt accept applyRoi mask f old _).2 ⟨es, h1, rfl⟩
        rw [hg]
        simp only
        refine (ih _).2 ⟨ess', h2, ?_⟩
        rw [List.flatten_cons, List.filter_append, List.append_assoc]

/-! ### From the selections to the response functions of the events -/

theorem mask_any (c : List Cut) (d d' : Nat) (h : c.any (hasMask "EVENT_TYPE".toList) = true) :
    Cuts.Spec.mask c d = Cuts.Spec.mask c d' := by
  induction c generalizing d d' with
  | nil => cases h
  | cons x c ih =>
    rw [List.any_cons, Bool.or_eq_true] at h
    cases x with
    | bits n m =>
      simp only [Cuts.Spec.mask]
      by_cases hn : n = "EVENT_TYPE".toList
      · rw [if_pos hn, if_pos hn]
      · rw [if_neg hn, if_neg hn]
        apply ih
        rcases h with h | h
        · simp only [hasMask, decide_eq_true_eq] at h; exact absurd h hn
        · exact h
    | range a b c' =>
      simp only [Cuts.Spec.mask]
      exact ih _ _ (h.resolve_left (by simp [hasMask]))
    | gti a =>
      simp only [Cuts.Spec.mask]
      exact ih _ _ (h.resolve_left (by simp [hasMask]))
    | version a b =>
      simp only [Cuts.Spec.mask]
      exact ih _ _ (h.resolve_left (by simp [hasMask]))
    | other a =>
      simp only [Cuts.Spec.mask]
      exact ih _ _ (h.resolve_left (by simp [hasMask]))

/-- If the response functions are chosen by the selections in a file (event class and types) and
the library has them, then events of all files with the same selection of types are read, each
with the response functions of the highest of the selected types it is of.  Missing: event types
selected by a parameter, and selections that differ between the files. -/
theorem C115_own_partial (lib : Lib) (sub : Sub) (p : Pars) (mask : Nat)
    (hc : p.irfs = "CALDB".toList)
    (hcls : ∃ m, Cut.bits "EVENT_CLASS".toList m ∈ p.cuts)
    (htyp : ∃ m, Cut.bits "EVENT_TYPE".toList m ∈ p.cuts)
    (hm : Cuts.Spec.mask p.cuts 3 = mask) (h32 : mask < 2 ^ 32) (h0 : mask ≠ 0)
    (hk : sub.known p.cuts = true)
    (hlib : Spec.Complete lib (sub.implied p.cuts) mask) (heff : Spec.Efficient lib)
    (lt : ℝ → ℝ) (accept : Ev → Bool) (applyRoi : Bool) (default : Nat)
    (fs : List File) (old : List Ev)
    (hf : ∀ f ∈ fs, f.hasTypes = true ∧ Cuts.Spec.mask f.cuts default = mask ∧
      ∀ r ∈ f.rows, ∃ k, Spec.Common r.type mask k) :
    ∃ resp, createResponseFuncs lib sub p = .ok resp ∧
      (∀ k, mask.testBit k = true → ∃ irf, respPtr resp k = some irf ∧ irf.id = k) ∧
      (∀ k, mask.testBit k = false → respPtr resp k = none) ∧
      ∃ ess, List.Forall₂ (fun (f : File) (es : List Ev) => List.Forall₂
          (Spec.ReadAs (respPtr resp) lt true mask) f.rows es) fs ess ∧
        getFiles resp lt accept applyRoi default fs old =
          (old ++ (ess.flatten).filter (fun e => !applyRoi || accept e), .ok ()) := by
  have hbit : ∀ k, mask.testBit k = true → k < 32 := by
    intro k hk
    by_contra h
    rw [Nat.testBit_lt_two_pow (lt_of_lt_of_le h32 (Nat.pow_le_pow_right (by norm_num) (by omega)))]
      at hk
    cases hk
  have hany1 : p.cuts.any (hasMask "EVENT_CLASS".toList) = true := by
    obtain ⟨m, hm⟩ := hcls
    exact List.any_eq_true.2 ⟨_, hm, by simp [hasMask]⟩
  have hany2 : p.cuts.any (hasMask "EVENT_TYPE".toList) = true := by
    obtain ⟨m, hm⟩ := htyp
    exact List.any_eq_true.2 ⟨_, hm, by simp [hasMask]⟩
  have hrc : respCuts sub p = .ok p.cuts := by
    unfold respCuts
    rw [if_pos hc]
    simp only
    rw [if_pos hany1, if_pos hany2]
  obtain ⟨ns, hns, hall⟩ := hlib
  have hsel := (Cuts.C111_types p.cuts 3).2
  rw [hm] at hsel
  obtain ⟨hok, hth, hub⟩ := C115_load lib empty StdMap.sorted_nil (sub.implied p.cuts) []
    (Cuts.selectedTypes p.cuts 3)
  have htop := (log_highest h0).1
  cases hl : load lib empty (sub.implied p.cuts) [] (Cuts.selectedTypes p.cuts 3) with
  | ub => exact absurd hl hub
  | throws =>
    exfalso
    rcases hth.1 hl with h | ⟨ns', h1, _, h2⟩
    · rw [hns] at h; cases h
    · rw [hns] at h1; cases h1
      obtain ⟨n, hn, hid⟩ := hall _ (hbit _ htop) htop
      apply (h2 n hn).2
      rw [hid, hsel]
      exact ⟨hbit _ htop, htop⟩
  | ok resp =>
    obtain ⟨ns', h1, hs, hp⟩ := hok resp hl
    rw [hns] at h1; cases h1
    have hloaded : ∀ k, mask.testBit k = true →
        ∃ n ∈ ns, (lib.create n).id = k ∧ respPtr resp k = some (lib.create n) := by
      intro k hk
      exact (hp k).1 ⟨Or.inr ((hsel k).2 ⟨hbit k hk, hk⟩), hall k (hbit k hk) hk⟩
    have hed : resp.useEdisp = false := by
      unfold load at hl
      rw [hns] at hl
      simp only at hl
      split at hl
      · cases hl
      · cases hl; rfl
    refine ⟨resp, ?_, ?_, ?_, ?_⟩
    · unfold createResponseFuncs
      rw [hrc, Res.bind_ok, hk]
      simp only [if_true]
      exact hl
    · intro k hk
      obtain ⟨n, _, h2, h3⟩ := hloaded k hk
      exact ⟨_, h3, h2⟩
    · intro k hk
      rw [(hp k).2]
      · rfl
      · rintro ⟨h | h, _⟩
        · have := (hsel _).2 ⟨hbit _ htop, htop⟩
          rw [h] at this; cases this
        · have := ((hsel k).1 h).2
          rw [hk] at this; cases this
    · have hrow : ∀ r : Row, (∃ k, Spec.Common r.type mask k) →
          ∃ e, Spec.ReadAs (respPtr resp) lt true mask r e := by
        intro r ⟨k, hk⟩
        have hx : r.type &&& mask ≠ 0 := by
          intro h0
          rw [common_iff, h0] at hk
          simp at hk
        obtain ⟨a, b⟩ := log_highest hx
        have ha : Spec.Common r.type mask (Nat.log 2 (r.type &&& mask)) := (common_iff ..).2 a
        obtain ⟨n, _, _, h3⟩ := hloaded _ ha.2
        have ht : Spec.TypeOf true mask r (Nat.log 2 (r.type &&& mask)) := by
          unfold Spec.TypeOf
          simp only [if_true]
          exact ⟨ha, fun j hj => b j ((common_iff ..).1 hj)⟩
        cases he : (lib.create n).eff with
        | none =>
          exact ⟨⟨r.ra, r.dec, r.energy, r.time, Real.cos (r.zenith * Real.pi / 180), _, 1, r.cls⟩,
            rfl, rfl, rfl, rfl, rfl, rfl, ht, _, h3, Or.inl ⟨he, rfl⟩⟩
        | some f =>
          exact ⟨⟨r.ra, r.dec, r.energy, r.time, Real.cos (r.zenith * Real.pi / 180), _,
            f r.energy (lt r.time) r.time, r.cls⟩,
            rfl, rfl, rfl, rfl, rfl, rfl, ht, _, h3, Or.inr ⟨f, he, rfl, heff n f he _ _ _⟩⟩
      have hrows : ∀ rs : List Row, (∀ r ∈ rs, ∃ k, Spec.Common r.type mask k) →
          ∃ es, List.Forall₂ (Spec.ReadAs (respPtr resp) lt true mask) rs es := by
        intro rs
        induction rs with
        | nil => intro _; exact ⟨[], List.Forall₂.nil⟩
        | cons r rs ih =>
          intro h
          obtain ⟨e, he⟩ := hrow r (h r (by simp))
          obtain ⟨es, hes⟩ := ih fun x hx => h x (by simp [hx])
          exact ⟨e :: es, List.Forall₂.cons he hes⟩
      have hfiles : ∀ gs : List File, (∀ f ∈ gs, f ∈ fs) →
          ∃ ess, List.Forall₂ (fun (f : File) (es : List Ev) => List.Forall₂
            (Spec.ReadAs (respPtr resp) lt true mask) f.rows es) gs ess ∧
            List.Forall₂ (fun (f : File) (es : List Ev) => List.Forall₂
            (Spec.ReadAs (respPtr resp) lt f.hasTypes (Cuts.Spec.mask f.cuts default))
              f.rows es) gs ess := by
        intro gs
        induction gs with
        | nil => intro _; exact ⟨[], List.Forall₂.nil, List.Forall₂.nil⟩
        | cons g gs ih =>
          intro h
          obtain ⟨ht, hmk, hr⟩ := hf g (h g (by simp))
          obtain ⟨es, hes⟩ := hrows g.rows hr
          obtain ⟨ess, h1, h2⟩ := ih fun x hx => h x (by simp [hx])
          refine ⟨es :: ess, List.Forall₂.cons hes h1, List.Forall₂.cons ?_ h2⟩
          rw [ht, hmk]; exact hes
      obtain ⟨ess, h1, h2⟩ := hfiles fs (fun _ h => h)
      exact ⟨ess, h1, (C115_files resp hed lt accept applyRoi default fs old _).2 ⟨ess, h2, rfl⟩⟩

/-- Selections of an event class and of the types 4 and 5. -/
def cuts0 : List Cut := [.bits "EVENT_CLASS".toList 128, .bits "EVENT_TYPE".toList 48]

/-- The selections imply "PSF" for the types 2 to 5, "FB" otherwise. -/
def sub0 : Sub where
  setIrfs := fun _ => [.bits "EVENT_CLASS".toList 128]
  implied := fun c => if Cuts.Spec.mask c 3 = 48 then "PSF".toList else "FB".toList
  known := fun _ => true

/-- An event of types 0 (front) and 5. -/
noncomputable def row0 : Row := ⟨0, 0, 1000, 5, 0, 0, 33, 128⟩

/-- The hypotheses hold for the library above with a file of one event. -/
example : Spec.Complete lib0 (sub0.implied cuts0) 48 ∧ Cuts.Spec.mask cuts0 3 = 48 ∧
    Spec.Common row0.type 48 5 := by
  refine ⟨⟨_, rfl, ?_⟩, rfl, by decide, by decide⟩
  intro k hk hb
  have h45 : k = 4 ∨ k = 5 := by
    by_contra h
    push Not at h
    have : ∀ j < 32, j ≠ 4 → j ≠ 5 → Nat.testBit 48 j = false := by decide
    rw [this k hk h.1 h.2] at hb
    cases hb
  rcases h45 with rfl | rfl
  · exact ⟨"4".toList, by simp, rfl⟩
  · exact ⟨"5".toList, by simp, rfl⟩

/-- Response functions chosen by name and with the default types 0 and 1, and a file with a
selection of the types 4 and 5: the response functions are created without complaint, and the
first event of the file leads to the use of a null pointer, whether or not it passes the cuts. -/
theorem C115_mask_violates :
    ∃ resp, createResponseFuncs lib0 sub0 ⟨"P8R3".toList, some 3, [], []⟩ = .ok resp ∧
      ∀ (lt : ℝ → ℝ) (accept : Ev → Bool) (applyRoi : Bool) (mask : Nat) (rows : List Row)
        (old : List Ev),
        (getEvents resp lt accept applyRoi mask ⟨cuts0, true, row0 :: rows⟩ old).2 = .ub := by
  refine ⟨⟨[(0, some ⟨0, none⟩), (1, some ⟨1, none⟩)], false, "FB".toList⟩, rfl, ?_⟩
  intro lt accept applyRoi mask rows old
  have ht : rowType 48 true row0 = .ok 5 := by
    rw [(C115_type 48 row0).1 5]
    refine ⟨⟨by decide, by decide⟩, fun j hj => ?_⟩
    by_contra h
    have : (48 : Nat) < 2 ^ j := lt_of_lt_of_le (by norm_num : 48 < 2 ^ 6)
      (Nat.pow_le_pow_right (by norm_num) (by omega))
    have h2 := hj.2
    rw [Nat.testBit_lt_two_pow this] at h2
    cases h2
  have hm : cuts0.foldl Cuts.typeMask mask = 48 := rfl
  simp only [getEvents, hm, readRows]
  have hr : ∀ m : List (Nat × Option Irf), StdMap.find m 5 = none →
      readRow ⟨m, false, "FB".toList⟩ lt 48 true row0 = .ub := by
    intro m h5
    unfold readRow
    rw [ht, Res.bind_ok]
    simp only [respPtr]
    rw [h5]
    rfl
  rw [hr _ rfl]

/-- An event of none of the selected types: the conversion of an infinite number to an integer. -/
theorem C115_none_violates (resp : Resp) (lt : ℝ → ℝ) (accept : Ev → Bool) (applyRoi : Bool)
    (mask : Nat) (cuts : List Cut) (r : Row) (rows : List Row) (old : List Ev)
    (h : ∀ k, ¬ Spec.Common r.type (Cuts.Spec.mask cuts mask) k) :
    (getEvents resp lt accept applyRoi mask ⟨cuts, true, r :: rows⟩ old) = (old, .ub) := by
  unfold getEvents
  rw [Cuts.foldl_mask]
  simp only [readRows]
  have : readRow resp lt (Cuts.Spec.mask cuts mask) true r = .ub := by
    unfold readRow
    rw [rowType_ub _ _ h]
    rfl
  rw [this]

/-- An event of type 1 where only type 0 is selected. -/
example : ∀ k, ¬ Spec.Common 2 (Cuts.Spec.mask [.bits "EVENT_TYPE".toList 1] 3) k := by
  rintro k ⟨h1, h2⟩
  have hm : Cuts.Spec.mask [.bits "EVENT_TYPE".toList 1] 3 = 1 := rfl
  rw [hm] at h2
  cases k with
  | zero => cases h1
  | succ k =>
    have : (1 : Nat) < 2 ^ (k + 1) := Nat.one_lt_two_pow (by omega)
    rw [Nat.testBit_lt_two_pow this] at h2
    cases h2

/-- A negative efficiency in the second row: reading fails, but the first event stays; reading a
corrected file afterwards gives it twice. -/
theorem C115_failed_violates :
    ∃ (resp : Resp) (lt : ℝ → ℝ) (bad good : File) (e : Ev),
      good.rows.length = 1 ∧
      getEvents resp lt (fun _ => true) true 3 bad [] = ([e], .throws) ∧
      getEvents resp lt (fun _ => true) true 3 good [e] = ([e, e], .ok ()) ∧
      getEvents resp lt (fun _ => true) true 3 good [] = ([e], .ok ()) := by
  let irf : Irf := ⟨0, some fun _ x _ => x⟩
  let r1 : Row := ⟨0, 0, 1000, 1, 0, 0, 0, 0⟩
  let r2 : Row := ⟨0, 0, 1000, -1, 0, 0, 0, 0⟩
  let e : Ev := ⟨0, 0, 1000, 1, Real.cos (0 * Real.pi / 180), 0, 1, 0⟩
  have h1 : readRow ⟨[(0, some irf)], false, []⟩ (fun t => t) 3 false r1 = .ok e := by
    simp only [readRow, rowType, Bool.false_eq_true, if_false, Res.bind_ok, respPtr, StdMap.find,
      r1, if_true, Option.join_some, irf, efficiency]
    rw [if_neg (by norm_num)]
    rfl
  have h2 : readRow ⟨[(0, some irf)], false, []⟩ (fun t => t) 3 false r2 = .throws := by
    simp only [readRow, rowType, Bool.false_eq_true, if_false, Res.bind_ok, respPtr, StdMap.find,
      r2, if_true, Option.join_some, irf, efficiency]
    rw [if_pos (by norm_num)]
    rfl
  refine ⟨⟨[(0, some irf)], false, []⟩, fun t => t, ⟨[], false, [r1, r2]⟩, ⟨[], false, [r1]⟩, e,
    rfl, ?_, ?_, ?_⟩
  · simp only [getEvents, List.foldl_nil, readRows, h1, h2]
    rfl
  · simp only [getEvents, List.foldl_nil, readRows, h1]
    rfl
  · simp only [getEvents, List.foldl_nil, readRows, h1]
    rfl

end Verif.EvRead
