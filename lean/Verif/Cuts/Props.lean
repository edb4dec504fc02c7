import Verif.Cuts.Lemmas
import Mathlib.Tactic.NormNum
/-
C111: the checks of the input files of an analysis.
-/
set_option linter.unusedSectionVars false
set_option linter.unusedSimpArgs false
set_option linter.unusedVariables false
namespace Verif.Cuts

/-! ### Exposure map -/

/-- An exposure map that is accepted fits the events; if both files select in energy and some
energy passes the selection of the events, a map that fits is accepted; any other is refused
with an exception. -/
theorem C111_map (env : Env) (evFiles : List Name) (expMap evExt mapExt : Name) :
    let ev := env.read evFiles evExt false
    let em := env.read [expMap] mapExt false
    (checkExpMapCuts env evFiles expMap evExt mapExt = .ok () → Spec.MapFits env ev em) ∧
    (Spec.HasEnergy ev → Spec.HasEnergy em → (∃ e, Spec.Passes ev e) → Spec.MapFits env ev em →
      checkExpMapCuts env evFiles expMap evExt mapExt = .ok ()) ∧
    (checkExpMapCuts env evFiles expMap evExt mapExt ≠ .ok () →
      checkExpMapCuts env evFiles expMap evExt mapExt = .throws) := by
  intro ev em
  have key : checkExpMapCuts env evFiles expMap evExt mapExt = expMapCuts env ev em := rfl
  rw [key]
  unfold expMapCuts Spec.MapFits
  rw [filter_kept, filter_kept]
  cases hs : env.same (Spec.others ev) (Spec.others em) with
  | false => exact ⟨(fun h => by cases h), (fun _ _ _ h => by cases h.1), (fun _ => rfl)⟩
  | true =>
    rw [if_neg (by simp)]
    cases hev : rangeBounds (ev.filterMap energyRange) with
    | throws =>
      refine ⟨(fun h => by cases h), fun h _ _ _ => ?_, (fun _ => rfl)⟩
      obtain ⟨b, hb⟩ := rangeBounds_ok (hasEnergy_iff.1 h)
      rw [hb] at hev; cases hev
    | ub =>
      exfalso
      cases hl : ev.filterMap energyRange with
      | nil => rw [hl] at hev; cases hev
      | cons c cs => rw [hl] at hev; cases hev
    | ok b =>
      cases hem : rangeBounds (em.filterMap energyRange) with
      | throws =>
        refine ⟨(fun h => by cases h), fun _ h _ _ => ?_, (fun _ => rfl)⟩
        obtain ⟨b, hb⟩ := rangeBounds_ok (hasEnergy_iff.1 h)
        rw [hb] at hem; cases hem
      | ub =>
        exfalso
        cases hl : em.filterMap energyRange with
        | nil => rw [hl] at hem; cases hem
        | cons c cs => rw [hl] at hem; cases hem
      | ok b' =>
        simp only [Res.bind_ok]
        cases hb : beyond b b' with
        | false =>
          have hb' : ¬ (b'.1 > b.1 ∨ b'.2 < b.2) := fun h => by
            rw [(beyond_iff b b').2 h] at hb; cases hb
          push Not at hb'
          rw [if_neg (by simp)]
          refine ⟨fun _ => ⟨trivial, fun e he => ?_⟩, (fun _ _ _ _ => rfl), fun h => absurd rfl h⟩
          rw [passes_iff hev] at he
          rw [passes_iff hem]
          exact ⟨le_trans hb'.1 he.1, le_trans he.2 hb'.2⟩
        | true =>
          rw [if_pos rfl]
          refine ⟨(fun h => by cases h), fun _ _ hx hf => ?_, (fun _ => rfl)⟩
          obtain ⟨e, he⟩ := hx
          have he' := (passes_iff hev e).1 he
          have hle : b.1 ≤ b.2 := le_trans he'.1 he'.2
          have h1 := (passes_iff hem b.1).1 (hf.2 _ ((passes_iff hev _).2 ⟨le_refl _, hle⟩))
          have h2 := (passes_iff hem b.2).1 (hf.2 _ ((passes_iff hev _).2 ⟨hle, le_refl _⟩))
          rcases (beyond_iff b b').1 hb with h | h
          · exact absurd h1.1 (not_le.2 h)
          · exact absurd h2.2 (not_le.2 h)

/-- Files with one selection in energy each. -/
def energyEnv (lo hi lo' hi' : ℝ) : Env where
  read := fun fs _ _ => if fs = [['m']] then [.range "ENERGY".toList lo' hi']
    else [.range "ENERGY".toList lo hi]
  same := fun a b => decide (a.length = b.length)
  sameBut := fun a b => decide (a.length = b.length)
  sameGti := fun a b => decide (a.length = b.length)

/-- An exposure map from 50 to 2000 fits events from 100 to 1000. -/
example : Spec.HasEnergy ((energyEnv 100 1000 50 2000).read [['e']] [] false) ∧
    Spec.HasEnergy ((energyEnv 100 1000 50 2000).read [['m']] [] false) ∧
    (∃ e, Spec.Passes ((energyEnv 100 1000 50 2000).read [['e']] [] false) e) ∧
    Spec.MapFits (energyEnv 100 1000 50 2000) ((energyEnv 100 1000 50 2000).read [['e']] [] false)
      ((energyEnv 100 1000 50 2000).read [['m']] [] false) := by
  have h1 : (energyEnv 100 1000 50 2000).read [['e']] [] false =
      [.range "ENERGY".toList 100 1000] := rfl
  have h2 : (energyEnv 100 1000 50 2000).read [['m']] [] false =
      [.range "ENERGY".toList 50 2000] := rfl
  rw [h1, h2]
  have hp : ∀ (lo hi e : ℝ), Spec.Passes [.range "ENERGY".toList lo hi] e ↔ lo ≤ e ∧ e ≤ hi := by
    intro lo hi e
    constructor
    · intro h; exact h lo hi List.mem_cons_self
    · intro h a b hm
      rw [List.mem_singleton] at hm
      cases hm
      exact h
  refine ⟨⟨_, _, List.mem_cons_self⟩, ⟨_, _, List.mem_cons_self⟩, ⟨500, ?_⟩, ?_, ?_⟩
  · rw [hp]; norm_num
  · rw [← filter_kept, ← filter_kept]
    have h3 : ∀ lo hi : ℝ, List.filter kept [.range "ENERGY".toList lo hi] = [] := fun _ _ => rfl
    rw [h3, h3]; rfl
  · intro e
    rw [hp, hp]
    rintro ⟨a, b⟩
    constructor <;> linarith

/-- Events and an exposure map without any selection in energy are refused, although the
selections are the same and all energies pass both. -/
theorem C111_map_violates (env : Env) (evFiles : List Name) (expMap evExt mapExt : Name)
    (h : ¬ Spec.HasEnergy (env.read evFiles evExt false)) :
    checkExpMapCuts env evFiles expMap evExt mapExt = .throws ∧
    ∀ e, Spec.Passes (env.read evFiles evExt false) e := by
  have hn : (env.read evFiles evExt false).filterMap energyRange = [] := by
    by_contra hc
    exact h (hasEnergy_iff.2 hc)
  refine ⟨?_, fun e lo hi hm => absurd ⟨lo, hi, hm⟩ h⟩
  unfold checkExpMapCuts expMapCuts
  rw [hn]
  by_cases hb : (!env.same ((env.read evFiles evExt false).filter kept)
      ((env.read [expMap] mapExt false).filter kept)) = true
  · rw [if_pos hb]
  · rw [if_neg hb]; rfl

example : ¬ Spec.HasEnergy [Cut.gti [(0, 1)], Cut.bits "EVENT_CLASS".toList 128] := by
  rintro ⟨lo, hi, h⟩
  simp at h

/-! ### Event types -/

/-- The event types selected are the bits set in the mask, in order; the mask is that of the
last selection of event types, or the default if there is none. -/
theorem C111_types (cuts : List Cut) (default : Nat) :
    (selectedTypes cuts default).Pairwise (· < ·) ∧
    ∀ j, j ∈ selectedTypes cuts default ↔ j < 32 ∧ (Spec.mask cuts default).testBit j = true := by
  unfold selectedTypes
  rw [foldl_mask]
  constructor
  · exact List.Pairwise.filter _ List.pairwise_lt_range
  · intro j
    rw [List.mem_filter, List.mem_range]
    have : (Spec.mask cuts default &&& 1 <<< j ≠ 0) ↔ (Spec.mask cuts default).testBit j = true := by
      rw [Nat.one_shiftLeft, Nat.and_two_pow]
      cases (Spec.mask cuts default).testBit j
      · simp
      · simp
    simp only [decide_eq_true_eq, this]

/-- With selections of events of types 2 and 5 the default is not used. -/
example : selectedTypes [.range "ENERGY".toList 100 1000, .bits "EVENT_TYPE".toList 36] 3 = [2, 5] :=
  rfl

/-! ### Times -/

/-- If both files have the same number of lists of good time intervals, the check is silent
exactly if the lists agree; otherwise it is a warning with the sums of the distances of
corresponding starts and stops, or an exception if warnings are not wanted. -/
theorem C111_time_partial (env : Env) (files : List Name) (ext file ext' : Name)
    (warnOnly : Bool)
    (h : (Spec.gtis (env.read files ext true)).length =
      (Spec.gtis (env.read [file] ext' true)).length) :
    let a := env.read files ext true
    let b := env.read [file] ext' true
    (Spec.TimesAgree env a b → checkTimeCuts env files ext file ext' warnOnly = .ok []) ∧
    (¬ Spec.TimesAgree env a b → warnOnly = true →
      checkTimeCuts env files ext file ext' warnOnly =
        .ok [.times (Spec.allApart env Prod.fst a b) (Spec.allApart env Prod.snd a b)]) ∧
    (¬ Spec.TimesAgree env a b → warnOnly = false →
      checkTimeCuts env files ext file ext' warnOnly = .throws) := by
  intro a b
  have key : checkTimeCuts env files ext file ext' warnOnly = timeCutsReport env a b warnOnly := rfl
  rw [key]
  unfold timeCutsReport timeCuts
  rw [gtis_eq, gtis_eq, if_pos h]
  obtain ⟨h1, h2⟩ := compareGti_eq env (Spec.gtis a) (Spec.gtis b) (true, 0, 0) h
  have h1' : (compareGti env (Spec.gtis a) (Spec.gtis b) (true, 0, 0)).1 = true ↔
      Spec.TimesAgree env a b := by rw [h1]; unfold Spec.TimesAgree; simp
  simp only [zero_add] at h2
  have h3 : (compareGti env (Spec.gtis a) (Spec.gtis b) (true, 0, 0)).2 =
      (Spec.allApart env Prod.fst a b, Spec.allApart env Prod.snd a b) := h2
  simp only [h3]
  cases hc : (compareGti env (Spec.gtis a) (Spec.gtis b) (true, 0, 0)).1 with
  | true =>
    have ht := h1'.1 hc
    exact ⟨fun _ => rfl, fun hn => absurd ht hn, fun hn => absurd ht hn⟩
  | false =>
    have ht : ¬ Spec.TimesAgree env a b := fun hh => by rw [h1'.2 hh] at hc; cases hc
    refine ⟨fun hh => absurd hh ht, fun _ hw => ?_, fun _ hw => ?_⟩
    · subst hw; rfl
    · subst hw; rfl

/-- Files whose good time intervals are `a` and, for the file `m`, `b`. -/
noncomputable def timeEnv (a b : List Cut) : Env where
  read := fun fs _ _ => if fs = [['m']] then b else a
  same := fun x y => open Classical in decide (x = y)
  sameBut := fun _ _ => true
  sameGti := fun x y => open Classical in decide (x = y)

/-- One list each. -/
example : (Spec.gtis ((timeEnv [.gti [(0, 1)]] [.gti [(0, 2)]]).read [['e']] [] true)).length =
    (Spec.gtis ((timeEnv [.gti [(0, 1)]] [.gti [(0, 2)]]).read [['m']] [] true)).length := rfl

/-- If the numbers of lists differ, variables that were never set are printed. -/
theorem C111_time_number_violates (env : Env) (files : List Name) (ext file ext' : Name)
    (warnOnly : Bool)
    (h : (Spec.gtis (env.read files ext true)).length ≠
      (Spec.gtis (env.read [file] ext' true)).length) :
    checkTimeCuts env files ext file ext' warnOnly = .ub := by
  unfold checkTimeCuts timeCutsReport timeCuts
  rw [gtis_eq, gtis_eq, if_neg h]

/-- A file without good time intervals against one with them. -/
example : (Spec.gtis ((timeEnv [.gti [(0, 1)]] []).read [['e']] [] true)).length ≠
    (Spec.gtis ((timeEnv [.gti [(0, 1)]] []).read [['m']] [] true)).length := by
  show (1 : Nat) ≠ 0
  omega

/-- Events from two intervals against a livetime cube of the first only: the user is told that
the times do not agree, with sums of differences zero. -/
theorem C111_time_sums_violates :
    ∃ env : Env, ¬ Spec.TimesAgree env (env.read [['e']] [] true) (env.read [['m']] [] true) ∧
      checkTimeCuts env [['e']] [] ['m'] [] true = .ok [.times 0 0] := by
  refine ⟨timeEnv [.gti [(0, 1), (2, 3)]] [.gti [(0, 1)]], ?_⟩
  have hs : (timeEnv [.gti [(0, 1), (2, 3)]] [.gti [(0, 1)]]).sameGti [(0, 1), (2, 3)] [(0, 1)] =
      false := by
    show (open Classical in decide (([(0, 1), (2, 3)] : List (ℝ × ℝ)) = [(0, 1)])) = false
    simp
  have hn : ¬ Spec.TimesAgree (timeEnv [.gti [(0, 1), (2, 3)]] [.gti [(0, 1)]])
      ((timeEnv [.gti [(0, 1), (2, 3)]] [.gti [(0, 1)]]).read [['e']] [] true)
      ((timeEnv [.gti [(0, 1), (2, 3)]] [.gti [(0, 1)]]).read [['m']] [] true) := by
    intro h
    have h' : List.Forall₂ (fun x y => (timeEnv [.gti [(0, 1), (2, 3)]] [.gti [(0, 1)]]).sameGti x y
        = true) [[(0, 1), (2, 3)]] [[(0, 1)]] := h
    rw [List.forall₂_cons, hs] at h'
    exact Bool.false_ne_true h'.1
  refine ⟨hn, ?_⟩
  rw [(C111_time_partial _ [['e']] [] ['m'] [] true rfl).2.1 hn rfl]
  have ha : ∀ f : ℝ × ℝ → ℝ, Spec.allApart (timeEnv [.gti [(0, 1), (2, 3)]] [.gti [(0, 1)]]) f
      ((timeEnv [.gti [(0, 1), (2, 3)]] [.gti [(0, 1)]]).read [['e']] [] true)
      ((timeEnv [.gti [(0, 1), (2, 3)]] [.gti [(0, 1)]]).read [['m']] [] true) = 0 := by
    intro f
    show ((([[(0, 1), (2, 3)]] : List (List (ℝ × ℝ))).zip [[(0, 1)]]).map (fun p =>
      if (timeEnv [.gti [(0, 1), (2, 3)]] [.gti [(0, 1)]]).sameGti p.1 p.2 then 0
      else Spec.apart f p.1 p.2)).sum = 0
    simp [hs, Spec.apart]
  rw [ha, ha]

/-! ### Coverage -/

/-- If the exposure map has no gaps in any row of the counts map, the check succeeds exactly if
all pixels of the counts map are covered; otherwise it ends in an exception. -/
theorem C111_cover_partial (energies : List ℝ) (look : ℝ → Nat → Nat → Look) (nx ny : Nat)
    (e : ℝ) (he : energies.head? = some e) (hx : 0 < nx) (hy : 0 < ny)
    (hg : Spec.NoGaps nx ny (look e)) :
    (checkWcs energies look nx ny = .ok () ↔
      ∀ i j, Spec.IsPixel nx ny i j → Spec.Covered (look e i j)) ∧
    (checkWcs energies look nx ny ≠ .ok () → checkWcs energies look nx ny = .throws) := by
  obtain ⟨es, rfl⟩ : ∃ es, energies = e :: es := by
    cases energies with
    | nil => cases he
    | cons x es => cases he; exact ⟨es, rfl⟩
  have key : checkWcs (e :: es) look nx ny = visit (look e) (border nx ny) := rfl
  rw [key]
  refine ⟨?_, fun h => (visit_cases (look e) _).resolve_left h⟩
  rw [visit_ok]
  constructor
  · intro h i j hp
    have hp' := hp
    obtain ⟨h1, h2, h3, h4⟩ := hp'
    have hl : Spec.IsPixel nx ny 1 j := ⟨by omega, by omega, h3, h4⟩
    have hr : Spec.IsPixel nx ny nx j := ⟨by omega, by omega, h3, h4⟩
    exact hg 1 i nx j hl hr h1 h2
      (h (1, j) ((mem_border hx hy 1 j).2 ⟨hl, Or.inl rfl⟩))
      (h (nx, j) ((mem_border hx hy nx j).2 ⟨hr, Or.inr (Or.inl rfl)⟩))
  · intro h p hp
    exact h p.1 p.2 ((mem_border hx hy p.1 p.2).1 hp).1

/-- An exposure map that ends within a row has no gaps. -/
example : Spec.NoGaps 10 10 (fun i _ => if i < 7 then .value 1 else .outside) := by
  rintro i k m j _ _ h1 h2 ⟨x, hx⟩ ⟨y, hy⟩
  by_cases hm : m < 7
  · exact ⟨1, if_pos (by omega)⟩
  · simp only at hy; rw [if_neg hm] at hy; cases hy

/-- In general only the border is checked, at the lowest energy: a map is accepted exactly if
the exposure map has a value at all pixels of the border. -/
theorem C111_border (energies : List ℝ) (look : ℝ → Nat → Nat → Look) (nx ny : Nat)
    (e : ℝ) (he : energies.head? = some e) (hx : 0 < nx) (hy : 0 < ny) :
    checkWcs energies look nx ny = .ok () ↔
      ∀ i j, Spec.IsPixel nx ny i j → (i = 1 ∨ i = nx ∨ j = 1 ∨ j = ny) →
        Spec.Covered (look e i j) := by
  obtain ⟨es, rfl⟩ : ∃ es, energies = e :: es := by
    cases energies with
    | nil => cases he
    | cons x es => cases he; exact ⟨es, rfl⟩
  have key : checkWcs (e :: es) look nx ny = visit (look e) (border nx ny) := rfl
  rw [key, visit_ok]
  constructor
  · intro h i j hp hb
    exact h (i, j) ((mem_border hx hy i j).2 ⟨hp, hb⟩)
  · intro h p hp
    have := (mem_border hx hy p.1 p.2).1 hp
    exact h p.1 p.2 this.1 this.2

/-- A counts map around a hole of the exposure map is accepted, although a pixel of it has no
exposure. -/
theorem C111_cover_violates :
    ∃ look : ℝ → Nat → Nat → Look, checkWcs [100] look 3 3 = .ok () ∧
      Spec.IsPixel 3 3 2 2 ∧ ¬ Spec.Covered (look 100 2 2) := by
  refine ⟨fun _ i j => if i = 2 ∧ j = 2 then .outside else .value 1, ?_, by unfold Spec.IsPixel; omega, ?_⟩
  · rw [C111_border [100] _ 3 3 100 rfl (by omega) (by omega)]
    intro i j _ h
    exact ⟨1, by rw [if_neg (by omega)]⟩
  · rintro ⟨x, hx⟩
    simp at hx

/-! ### All checks -/

theorem checkFiles_ok (env : Env) (f t : Name) (skip : Bool) (fs : List Name) :
    (checkFiles env f t skip fs = .ok [] ∧
      ∀ g ∈ fs, env.sameBut (env.read [f] t skip) (env.read [g] t skip) = true) ∨
    (checkFiles env f t skip fs = .throws ∧
      ∃ g ∈ fs, env.sameBut (env.read [f] t skip) (env.read [g] t skip) = false) := by
  induction fs with
  | nil => exact Or.inl ⟨rfl, fun g hg => by cases hg⟩
  | cons g fs ih =>
    rw [checkFiles]
    cases hs : env.sameBut (env.read [f] t skip) (env.read [g] t skip) with
    | false =>
      right
      refine ⟨?_, g, List.mem_cons_self, hs⟩
      unfold checkCuts cutsAgree
      simp [hs]
    | true =>
      have hc : checkCuts env [f] t g t false skip true = .ok [] := by
        unfold checkCuts cutsAgree
        simp [hs]
      rw [hc]
      rcases ih with ⟨h1, h2⟩ | ⟨h1, x, h2, h3⟩
      · left
        rw [h1]
        refine ⟨rfl, ?_⟩
        intro y hy
        rcases List.mem_cons.1 hy with rfl | hy
        · exact hs
        · exact h2 y hy
      · right
        rw [h1]
        exact ⟨rfl, x, List.mem_cons_of_mem _ h2, h3⟩

/-- What gtlike accepts: if the event files and the livetime cube have the same number of lists
of good time intervals, the analysis goes on without a warning only if all event files have the
selections of the first, the exposure map fits the events, and the good time intervals are those
of the livetime cube. -/
theorem C111_inputs_partial (env : Env) (i : Inputs) (first : Name) (rest : List Name)
    (hf : i.events = first :: rest)
    (hn : ∀ c, i.expCube = some c → (Spec.gtis (env.read i.events i.table true)).length =
      (Spec.gtis (env.read [c] "Exposure".toList true)).length) :
    checkInputs env i ≠ .ub ∧
    ∀ ws, checkInputs env i = .ok ws →
      (∀ g ∈ rest, env.sameBut (env.read [first] i.table i.skipClass)
        (env.read [g] i.table i.skipClass) = true) ∧
      (∀ m, i.expMap = some m → Spec.MapFits env (env.read i.events i.table false)
        (env.read [m] [] false)) ∧
      (ws = [] ↔ ∀ c, i.expCube = some c → Spec.TimesAgree env (env.read i.events i.table true)
        (env.read [c] "Exposure".toList true)) := by
  unfold checkInputs checkEvents
  rw [hf]
  simp only
  rcases checkFiles_ok env first i.table i.skipClass rest with ⟨h1, h2⟩ | ⟨h1, h2⟩
  · rw [h1]
    simp only [Res.bind_ok, List.nil_append]
    have hm : (checkMap env i = .ok () ∧ ∀ m, i.expMap = some m → Spec.MapFits env
        (env.read i.events i.table false) (env.read [m] [] false)) ∨ checkMap env i = .throws := by
      unfold checkMap
      cases he : i.expMap with
      | none => exact Or.inl ⟨rfl, fun m h => by cases h⟩
      | some m =>
        obtain ⟨a, _, c⟩ := C111_map env i.events m i.table []
        by_cases hk : checkExpMapCuts env i.events m i.table [] = .ok ()
        · refine Or.inl ⟨hk, ?_⟩
          intro m' h'
          cases h'
          exact a hk
        · exact Or.inr (c hk)
    have hc : ∃ ws, checkCube env i = .ok ws ∧ (ws = [] ↔ ∀ c, i.expCube = some c →
        Spec.TimesAgree env (env.read i.events i.table true)
          (env.read [c] "Exposure".toList true)) := by
      unfold checkCube
      cases he : i.expCube with
      | none => exact ⟨[], rfl, fun _ c h => (by cases h), fun _ => rfl⟩
      | some c =>
        obtain ⟨a, b, _⟩ := C111_time_partial env i.events i.table c "Exposure".toList true (hn c he)
        by_cases ht : Spec.TimesAgree env (env.read i.events i.table true)
          (env.read [c] "Exposure".toList true)
        · exact ⟨[], a ht, fun _ c' h' => (by cases h'; exact ht), fun _ => rfl⟩
        · refine ⟨_, b ht rfl, fun h => (by cases h), fun h => absurd (h c rfl) ht⟩
    rcases hm with ⟨hm, hm'⟩ | hm
    · obtain ⟨ws, hw, hw'⟩ := hc
      rw [hm, hw]
      rw [hf] at hm' hw'
      refine ⟨(fun h => by cases h), ?_⟩
      intro ws' h'
      have hh : ws' = ws := by cases h'; rfl
      rw [hh]
      exact ⟨h2, hm', hw'⟩
    · rw [hm]
      exact ⟨(fun h => by cases h), (fun ws h => by cases h)⟩
  · rw [h1]
    exact ⟨(fun h => by cases h), (fun ws h => by cases h)⟩

/-- Two event files and a livetime cube with one list of good time intervals each. -/
example : ∀ c, (⟨[['e'], ['f']], [], none, some ['m'], true⟩ : Inputs).expCube = some c →
    (Spec.gtis ((timeEnv [.gti [(0, 1)]] [.gti [(0, 2)]]).read [['e'], ['f']] [] true)).length =
    (Spec.gtis ((timeEnv [.gti [(0, 1)]] [.gti [(0, 2)]]).read [c] "Exposure".toList true)).length := by
  rintro c ⟨⟩
  rfl

/-- Events and a livetime cube of times without overlap: gtlike only warns and goes on. -/
theorem C111_inputs_violates :
    ∃ (env : Env) (i : Inputs) (a b : List (ℝ × ℝ)), i.expCube = some ['m'] ∧
      Spec.gtis (env.read i.events i.table true) = [a] ∧
      Spec.gtis (env.read [['m']] "Exposure".toList true) = [b] ∧
      (∀ x ∈ a, ∀ y ∈ b, x.2 < y.1) ∧ a ≠ [] ∧ b ≠ [] ∧
      ∃ ws, checkInputs env i = .ok ws := by
  refine ⟨timeEnv [.gti [(0, 1)]] [.gti [(5, 6)]], ⟨[['e']], [], none, some ['m'], true⟩,
    [(0, 1)], [(5, 6)], rfl, rfl, rfl, ?_, by simp, by simp, ?_⟩
  · intro x hx y hy
    rw [List.mem_singleton] at hx hy
    subst hx; subst hy
    norm_num
  · have h := C111_time_partial (timeEnv [.gti [(0, 1)]] [.gti [(5, 6)]]) [['e']] [] ['m']
      "Exposure".toList true rfl
    by_cases ht : Spec.TimesAgree (timeEnv [.gti [(0, 1)]] [.gti [(5, 6)]])
        ((timeEnv [.gti [(0, 1)]] [.gti [(5, 6)]]).read [['e']] [] true)
        ((timeEnv [.gti [(0, 1)]] [.gti [(5, 6)]]).read [['m']] "Exposure".toList true)
    · refine ⟨[], ?_⟩
      show (checkCube _ _ >>= _) = _
      rw [show checkCube (timeEnv [.gti [(0, 1)]] [.gti [(5, 6)]])
        ⟨[['e']], [], none, some ['m'], true⟩ = .ok [] from h.1 ht]
      rfl
    · refine ⟨[.times (Spec.allApart (timeEnv [.gti [(0, 1)]] [.gti [(5, 6)]]) Prod.fst
        ((timeEnv [.gti [(0, 1)]] [.gti [(5, 6)]]).read [['e']] [] true)
        ((timeEnv [.gti [(0, 1)]] [.gti [(5, 6)]]).read [['m']] "Exposure".toList true))
        (Spec.allApart (timeEnv [.gti [(0, 1)]] [.gti [(5, 6)]]) Prod.snd
        ((timeEnv [.gti [(0, 1)]] [.gti [(5, 6)]]).read [['e']] [] true)
        ((timeEnv [.gti [(0, 1)]] [.gti [(5, 6)]]).read [['m']] "Exposure".toList true))], ?_⟩
      show (checkCube _ _ >>= _) = _
      rw [show checkCube (timeEnv [.gti [(0, 1)]] [.gti [(5, 6)]])
        ⟨[['e']], [], none, some ['m'], true⟩ = _ from h.2.1 ht rfl]
      rfl

/-- gtlike goes on if all event files have the selections of the first and the exposure map
fits, both with a selection in energy that some energy passes. -/
theorem C111_accepted (env : Env) (i : Inputs) (first : Name) (rest : List Name)
    (hf : i.events = first :: rest)
    (hn : ∀ c, i.expCube = some c → (Spec.gtis (env.read i.events i.table true)).length =
      (Spec.gtis (env.read [c] "Exposure".toList true)).length)
    (hs : ∀ g ∈ rest, env.sameBut (env.read [first] i.table i.skipClass)
        (env.read [g] i.table i.skipClass) = true)
    (hm : ∀ m, i.expMap = some m → Spec.HasEnergy (env.read i.events i.table false) ∧
      Spec.HasEnergy (env.read [m] [] false) ∧
      (∃ e, Spec.Passes (env.read i.events i.table false) e) ∧
      Spec.MapFits env (env.read i.events i.table false) (env.read [m] [] false)) :
    ∃ ws, checkInputs env i = .ok ws := by
  have h1 : checkEvents env i = .ok [] := by
    unfold checkEvents
    rw [hf]
    rcases checkFiles_ok env first i.table i.skipClass rest with ⟨h1, h2⟩ | ⟨h1, g, h2, h3⟩
    · exact h1
    · rw [hs g h2] at h3; cases h3
  have h2 : checkMap env i = .ok () := by
    unfold checkMap
    cases he : i.expMap with
    | none => rfl
    | some m =>
      obtain ⟨a, b, c, d⟩ := hm m he
      exact (C111_map env i.events m i.table []).2.1 a b c d
  have h3 : ∃ ws, checkCube env i = .ok ws := by
    unfold checkCube
    cases he : i.expCube with
    | none => exact ⟨[], rfl⟩
    | some c =>
      obtain ⟨a, b, _⟩ := C111_time_partial env i.events i.table c "Exposure".toList true (hn c he)
      by_cases ht : Spec.TimesAgree env (env.read i.events i.table true)
        (env.read [c] "Exposure".toList true)
      · exact ⟨[], a ht⟩
      · exact ⟨_, b ht rfl⟩
  obtain ⟨ws, h3⟩ := h3
  exact ⟨ws, by unfold checkInputs; rw [h1, h2, h3]; rfl⟩

end Verif.Cuts
