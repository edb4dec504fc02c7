import Verif.Unbinned.Spec
import Verif.SrcModel.Lemmas
import Mathlib.Tactic.Ring
import Mathlib.Tactic.Linarith
set_option linter.unusedSectionVars false
set_option linter.unusedSimpArgs false
set_option linter.unusedVariables false
/-
Invariants of the unbinned log-likelihood.
-/
namespace Verif.Unbinned

open Verif.SrcModel Verif.Accum Spec

variable {κ E G X : Type} [LinearOrder κ]

/-! ### Sums over maps -/

/-- Sum of the values of a map. -/
def vsum (m : List (κ × ℝ)) : ℝ := (m.map (·.2)).sum

theorem vsum_put {m : List (κ × ℝ)} (h : StdMap.Sorted m) (k : κ) (a : ℝ) :
    vsum (StdMap.put m k a) = vsum m - (StdMap.find m k).getD 0 + a := by
  induction m with
  | nil => simp [StdMap.put, vsum, StdMap.find]
  | cons x m ih =>
    obtain ⟨k', a'⟩ := x
    have hs := (StdMap.sorted_cons.mp h)
    by_cases h1 : k = k'
    · subst h1; simp [StdMap.put, vsum, StdMap.find]; ring
    · have hfind : StdMap.find ((k', a') :: m) k = StdMap.find m k := by
        simp [StdMap.find, h1, Ne.symm h1]
      rw [hfind]
      by_cases h2 : k < k'
      · have : StdMap.find m k = none := by
          rw [StdMap.find_none]
          intro hk
          exact absurd (hs.1 k hk) (not_lt.mpr h2.le)
        rw [this]
        simp [StdMap.put, vsum, h1, h2, Ne.symm h1]; ring
      · have : StdMap.put ((k', a') :: m) k a = (k', a') :: StdMap.put m k a := by
          simp [StdMap.put, h1, h2, Ne.symm h1]
        rw [this]
        have := ih hs.2
        simp only [vsum, List.map_cons, List.sum_cons] at this ⊢
        rw [this]; ring

theorem vsum_erase {m : List (κ × ℝ)} (h : StdMap.Sorted m) (k : κ) :
    vsum (StdMap.erase m k) = vsum m - (StdMap.find m k).getD 0 := by
  induction m with
  | nil => simp [StdMap.erase, vsum, StdMap.find]
  | cons x m ih =>
    obtain ⟨k', a'⟩ := x
    have hs := (StdMap.sorted_cons.mp h)
    by_cases h1 : k = k'
    · subst h1; simp [StdMap.erase, vsum, StdMap.find]
    · have hfind : StdMap.find ((k', a') :: m) k = StdMap.find m k := by
        simp [StdMap.find, h1, Ne.symm h1]
      have : StdMap.erase ((k', a') :: m) k = (k', a') :: StdMap.erase m k := by
        simp [StdMap.erase, h1, Ne.symm h1]
      rw [hfind, this]
      have := ih hs.2
      simp only [vsum, List.map_cons, List.sum_cons] at this ⊢
      rw [this]; ring

/-! ### Events -/

/-- The event's sum is the sum of its entries, which belong to the given names. -/
structure EvOk (names : List κ) (ev : Ev κ E) : Prop where
  sorted : StdMap.Sorted ev.flux
  keys : ∀ k ∈ StdMap.keys ev.flux, k ∈ names
  sum : ev.modelSum = vsum ev.flux

theorem EvOk.update {names : List κ} {ev : Ev κ E} (h : EvOk names ev) {n : κ} (hn : n ∈ names) (c : ℝ) :
    EvOk names (ev.update n c) := by
  refine ⟨StdMap.sorted_put h.sorted _ _, ?_, ?_⟩
  · intro k hk
    rcases StdMap.keys_put.mp hk with rfl | hk
    · exact hn
    · exact h.keys k hk
  · simp only [Ev.update]
    rw [vsum_put h.sorted, h.sum]
    cases StdMap.find ev.flux n <;> simp

theorem EvOk.delete {names names' : List κ} {ev : Ev κ E} (h : EvOk names ev) {n : κ}
    (hn : ∀ k, k ≠ n → k ∈ names → k ∈ names') : EvOk names' (ev.delete n) := by
  refine ⟨StdMap.sorted_erase h.sorted _, ?_, ?_⟩
  · intro k hk
    have := (StdMap.mem_keys_erase h.sorted).mp hk
    exact hn k this.1 (h.keys k this.2)
  · simp only [Ev.delete]
    rw [vsum_erase h.sorted, h.sum]

theorem EvOk.mono {names names' : List κ} {ev : Ev κ E} (h : EvOk names ev)
    (hn : ∀ k ∈ names, k ∈ names') : EvOk names' ev :=
  ⟨h.sorted, fun k hk => hn k (h.keys k hk), h.sum⟩

@[simp] theorem update_e (ev : Ev κ E) (n : κ) (c : ℝ) : (ev.update n c).e = ev.e := rfl
@[simp] theorem delete_e (ev : Ev κ E) (n : κ) : (ev.delete n).e = ev.e := rfl

/-! ### Evaluation -/

theorem fluxDensity_coh (w : World κ E G X) (src : Src κ ℝ) (o : Obj G X) (e : E) (cell : Option ℝ)
    (h : ∀ r, cell = some r → r = w.resp o.geo e) :
    fluxDensity w src o e (some cell) =
      (w.dens src (w.resp o.geo e) e, some (some (w.resp o.geo e))) := by
  cases cell with
  | none => rfl
  | some r => simp only [fluxDensity, h r rfl]

/-- The sums of an event after the free sources among `l` were brought up to date. -/
def evUpd (w : World κ E G X) (free : List κ) (objs : κ → Obj G X) (e : E) (l : List (κ × Src κ ℝ))
    (ev : Ev κ E) : Ev κ E :=
  l.foldl (fun ev x => if x.1 ∈ free then
    ev.update x.1 (w.dens x.2 (w.resp (objs x.1).geo e) e * w.eff e) else ev) ev

theorem evUpd_e (w : World κ E G X) (free : List κ) (objs : κ → Obj G X) (e : E) (l : List (κ × Src κ ℝ))
    (ev : Ev κ E) : (evUpd w free objs e l ev).e = ev.e := by
  unfold evUpd
  induction l generalizing ev with
  | nil => rfl
  | cons x l ih =>
    rw [List.foldl_cons, ih]
    split <;> rfl

theorem evUpd_ok (w : World κ E G X) (free : List κ) (objs : κ → Obj G X) (e : E) (l : List (κ × Src κ ℝ))
    {names : List κ} (hl : ∀ x ∈ l, x.1 ∈ names) {ev : Ev κ E} (h : EvOk names ev) :
    EvOk names (evUpd w free objs e l ev) := by
  unfold evUpd
  induction l generalizing ev with
  | nil => exact h
  | cons x l ih =>
    rw [List.foldl_cons]
    refine ih (fun y hy => hl y (List.mem_cons_of_mem _ hy)) ?_
    split
    · exact h.update (hl x List.mem_cons_self) _
    · exact h

theorem evUpd_find (w : World κ E G X) (free : List κ) (objs : κ → Obj G X) (e : E)
    (l : List (κ × Src κ ℝ)) (hl : StdMap.Sorted l) {ev : Ev κ E} (h : StdMap.Sorted ev.flux) (k : κ) :
    StdMap.Sorted (evUpd w free objs e l ev).flux ∧
    StdMap.find (evUpd w free objs e l ev).flux k =
      match StdMap.find l k with
      | some src => if k ∈ free then some (w.dens src (w.resp (objs k).geo e) e * w.eff e)
          else StdMap.find ev.flux k
      | none => StdMap.find ev.flux k := by
  unfold evUpd
  induction l generalizing ev with
  | nil => exact ⟨h, rfl⟩
  | cons x l ih =>
    obtain ⟨k', src⟩ := x
    have hs := StdMap.sorted_cons.mp hl
    rw [List.foldl_cons]
    have h' : StdMap.Sorted (if k' ∈ free then
        ev.update k' (w.dens src (w.resp (objs k').geo e) e * w.eff e) else ev).flux := by
      split
      · exact StdMap.sorted_put h _ _
      · exact h
    obtain ⟨h1, h2⟩ := ih hs.2 h'
    refine ⟨h1, ?_⟩
    rw [h2]
    by_cases hk : k' = k
    · subst hk
      have hn : StdMap.find l k' = none := by
        rw [StdMap.find_none]; intro hm; exact absurd (hs.1 k' hm) (lt_irrefl _)
      rw [hn]
      simp only [StdMap.find, ↓reduceIte]
      by_cases hf : k' ∈ free
      · simp only [hf, ↓reduceIte, Ev.update, StdMap.find_put h]
      · simp only [hf, ↓reduceIte]
    · have e1 : StdMap.find ((k', src) :: l) k = StdMap.find l k := by
        simp [StdMap.find, hk]
      rw [e1]
      have e2 : StdMap.find (if k' ∈ free then
          ev.update k' (w.dens src (w.resp (objs k').geo e) e * w.eff e) else ev).flux k =
          StdMap.find ev.flux k := by
        split
        · simp only [Ev.update, StdMap.find_put h, if_neg (fun hh : k = k' => hk hh.symm)]
        · rfl
      rw [e2]

theorem srcLoop_eq (w : World κ E G X) (free : List κ) (objs : κ → Obj G X) (j : Nat)
    (l : List (κ × Src κ ℝ)) : ∀ (ev : Ev κ E) (c : κ → Nat → Option ℝ) (v : ℝ),
    (∀ x ∈ l, ∀ r, c x.1 j = some r → r = w.resp (objs x.1).geo ev.e) →
    (srcLoop w free objs j l ev c v).1 = evUpd w free objs ev.e l ev ∧
    (srcLoop w free objs j l ev c v).2.2 =
      v + (l.map (fun x => w.dens x.2 (w.resp (objs x.1).geo ev.e) ev.e * w.eff ev.e)).sum ∧
    ∀ k j', (srcLoop w free objs j l ev c v).2.1 k j' =
      if j' = j ∧ k ∈ l.map (·.1) then some (w.resp (objs k).geo ev.e) else c k j' := by
  induction l with
  | nil => intro ev c v _; simp [srcLoop, evUpd]
  | cons x l ih =>
    intro ev c v h
    obtain ⟨k, src⟩ := x
    have hk := h (k, src) List.mem_cons_self
    have ht : touch w (objs k) src k j ev c =
        (ev.update k (w.dens src (w.resp (objs k).geo ev.e) ev.e * w.eff ev.e),
          setCell c k j (some (w.resp (objs k).geo ev.e))) := by
      simp only [touch, fluxDensity_coh w src (objs k) ev.e (c k j) hk, Option.getD_some]
    have hstep : ∃ p : Ev κ E × (κ → Nat → Option ℝ),
        p = (if k ∈ free then touch w (objs k) src k j ev c else (ev, c)) ∧
        p.1 = (if k ∈ free then
          ev.update k (w.dens src (w.resp (objs k).geo ev.e) ev.e * w.eff ev.e) else ev) ∧
        p.1.e = ev.e ∧
        (∀ k' j', ¬ (k' = k ∧ j' = j) → p.2 k' j' = c k' j') ∧
        (∀ r, p.2 k j = some r → r = w.resp (objs k).geo ev.e) := by
      refine ⟨_, rfl, ?_, ?_, ?_, ?_⟩
      · rw [ht]; split <;> rfl
      · rw [ht]; split <;> rfl
      · intro k' j' hne
        rw [ht]
        split
        · simp only [setCell, if_neg hne]
        · rfl
      · rw [ht]
        split
        · intro r hr; simp only [setCell, and_self, ↓reduceIte, Option.some.injEq] at hr; exact hr.symm
        · exact hk
    obtain ⟨p, hp, hp1, hpe, hpc, hpk⟩ := hstep
    have hr := fluxDensity_coh w src (objs k) ev.e (p.2 k j) hpk
    have hunf : srcLoop w free objs j ((k, src) :: l) ev c v =
        srcLoop w free objs j l p.1 (setCell p.2 k j (some (w.resp (objs k).geo ev.e)))
          (v + w.dens src (w.resp (objs k).geo ev.e) ev.e * w.eff ev.e) := by
      simp only [srcLoop, ← hp, hr, Option.getD_some]
    rw [hunf]
    have hc' : ∀ x ∈ l, ∀ r, setCell p.2 k j (some (w.resp (objs k).geo ev.e)) x.1 j = some r →
        r = w.resp (objs x.1).geo p.1.e := by
      intro x hx r hr'
      rw [hpe]
      by_cases hxk : x.1 = k
      · simp only [setCell, hxk, and_self, ↓reduceIte, Option.some.injEq] at hr'
        rw [hxk]; exact hr'.symm
      · simp only [setCell, hxk, false_and, ↓reduceIte] at hr'
        rw [hpc x.1 j (fun hh => hxk hh.1)] at hr'
        exact h x (List.mem_cons_of_mem _ hx) r hr'
    obtain ⟨i1, i2, i3⟩ := ih p.1 _ (v + w.dens src (w.resp (objs k).geo ev.e) ev.e * w.eff ev.e) hc'
    refine ⟨?_, ?_, ?_⟩
    · rw [i1, hpe, hp1]; rfl
    · rw [i2, hpe]; simp only [List.map_cons, List.sum_cons]; ring
    · intro k' j'
      rw [i3, hpe]
      by_cases hj : j' = j
      · subst hj
        by_cases hl : k' ∈ l.map (·.1)
        · simp [hl]
        · by_cases hkk : k' = k
          · subst hkk; simp [setCell, hl]
          · have := hpc k' j' (fun hh => hkk hh.1)
            simp [setCell, hl, hkk, this]
      · have := hpc k' j' (fun hh => hj hh.2)
        simp [hj, setCell, this]

/-! ### Invariant -/

/-- Everything but the accumulator. -/
structure Base (w : World κ E G X) (s : L κ E G X) : Prop where
  wf : WF s.m
  npSorted : StdMap.Sorted s.npreds
  npKeys : ∀ k, k ∈ StdMap.keys s.npreds ↔ k ∈ StdMap.keys s.m.sources
  nresp : s.nresp = s.events.length
  coh : ∀ k ∈ StdMap.keys s.m.sources, ∀ (j : Nat) (ev : Ev κ E) (r : ℝ), s.events[j]? = some ev →
    s.cache k j = some r → r = w.resp (s.objs k).geo ev.e
  nocell : ∀ k, k ∉ StdMap.keys s.m.sources → ∀ j, s.cache k j = none
  evs : ∀ ev ∈ s.events, EvOk (StdMap.keys s.m.sources) ev

/-- The invariant between two calls. -/
structure Good (w : World κ E G X) (s : L κ E G X) : Prop extends Base w s where
  acc : s.acc = Kahan.init

theorem inRange_iff (w : World κ E G X) (s : L κ E G X) (e : E) : InRange w s e ↔ ¬ skipped w s e := by
  unfold InRange skipped
  cases s.useEb
  · simp
  · simp [not_lt]

/-- The event after an evaluation. -/
noncomputable def evEval (w : World κ E G X) (s : L κ E G X) (ev : Ev κ E) : Ev κ E :=
  open Classical in
  if skipped w s ev.e then ev else evUpd w s.m.freeSrcs s.objs ev.e s.m.sources ev

/-- Sum over the selected ones of a list of events. -/
noncomputable def terms (w : World κ E G X) (s : L κ E G X) (l : List (Ev κ E)) : ℝ :=
  open Classical in
  ((l.filter (fun ev => decide (InRange w s ev.e))).map (fun ev => logTerm w s ev.e)).sum

theorem terms_skip {w : World κ E G X} {s : L κ E G X} {ev : Ev κ E} {l : List (Ev κ E)}
    (h : skipped w s ev.e) : terms w s (ev :: l) = terms w s l := by
  have : ¬ InRange w s ev.e := by rw [inRange_iff]; exact not_not.mpr h
  simp [terms, List.filter_cons, this]

theorem terms_take {w : World κ E G X} {s : L κ E G X} {ev : Ev κ E} {l : List (Ev κ E)}
    (h : ¬ skipped w s ev.e) : terms w s (ev :: l) = logTerm w s ev.e + terms w s l := by
  have : InRange w s ev.e := by rw [inRange_iff]; exact h
  simp [terms, List.filter_cons, this]

theorem logSource_eq (w : World κ E G X) (hc : w.catchNeg = false) {s : L κ E G X} (h : Base w s)
    {j : Nat} {ev : Ev κ E} (hev : s.events[j]? = some ev) :
    ∃ c, logSource w s j ev = .ok { s with
        events := s.events.set j (evUpd w s.m.freeSrcs s.objs ev.e s.m.sources ev), cache := c }
        (logTerm w s ev.e) ∧
      ∀ k j', c k j' = if j' = j ∧ k ∈ StdMap.keys s.m.sources then some (w.resp (s.objs k).geo ev.e)
        else s.cache k j' := by
  have hj : j < s.events.length := (List.getElem?_eq_some_iff.mp hev).1
  obtain ⟨h1, h2, h3⟩ := srcLoop_eq w s.m.freeSrcs s.objs j s.m.sources ev s.cache 0
    (fun x hx r hr => h.coh x.1 (List.mem_map_of_mem hx) j ev r hev hr)
  refine ⟨_, ?_, h3⟩
  have hd : (srcLoop w s.m.freeSrcs s.objs j s.m.sources ev s.cache 0).2.2 = density w s ev.e := by
    rw [h2, zero_add]; rfl
  have hn : ¬ (s.m.sources ≠ [] ∧ s.nresp ≤ j) := fun hh => by have := h.nresp; omega
  simp only [logSource, if_neg hn, hd, h1, hc, Bool.false_eq_true, ↓reduceIte, logTerm]
  split
  · rfl
  · split <;> rfl

theorem base_event {w : World κ E G X} {s : L κ E G X} (h : Base w s) {j : Nat} {ev ev' : Ev κ E}
    (hev : s.events[j]? = some ev) (he : ev'.e = ev.e) (hok : EvOk (StdMap.keys s.m.sources) ev')
    {c : κ → Nat → Option ℝ}
    (hcc : ∀ k j', c k j' = if j' = j ∧ k ∈ StdMap.keys s.m.sources then some (w.resp (s.objs k).geo ev.e)
        else s.cache k j') (a : Kahan) :
    Base w { s with events := s.events.set j ev', cache := c, acc := a } := by
  have hj : j < s.events.length := (List.getElem?_eq_some_iff.mp hev).1
  refine ⟨h.wf, h.npSorted, h.npKeys, by simp [h.nresp], ?_, ?_, ?_⟩
  · intro k hk j' ev1 r hev1 hr
    simp only at hev1 hr hk ⊢
    rw [hcc] at hr
    by_cases hjj : j' = j
    · subst hjj
      rw [List.getElem?_set_self hj] at hev1
      cases hev1
      simp only [hk, and_self, ↓reduceIte, Option.some.injEq] at hr
      rw [he]; exact hr.symm
    · rw [List.getElem?_set_ne (fun hh => hjj hh.symm)] at hev1
      rw [if_neg (fun hh => hjj hh.1)] at hr
      exact h.coh k hk j' ev1 r hev1 hr
  · intro k hk j'
    simp only at hk ⊢
    rw [hcc, if_neg (fun hh => hk hh.2)]
    exact h.nocell k hk j'
  · intro ev1 hev1
    rcases List.mem_or_eq_of_mem_set hev1 with hm | rfl
    · exact h.evs ev1 hm
    · exact hok

theorem kahan_add (a : ℝ) (v : ℝ) : (⟨a, 0⟩ : Kahan).add v = ⟨a + v, 0⟩ := by
  simp [Kahan.add]

theorem dataLoop_eq (w : World κ E G X) (hc : w.catchNeg = false) : ∀ (n j : Nat) (s : L κ E G X) (a : ℝ),
    Base w s → j + n = s.events.length → s.acc = ⟨a, 0⟩ →
    ∃ c, dataLoop w n j s = .ok { s with
        events := s.events.take j ++ (s.events.drop j).map (evEval w s), cache := c,
        acc := ⟨a + terms w s (s.events.drop j), 0⟩ } () ∧
      Base w { s with
        events := s.events.take j ++ (s.events.drop j).map (evEval w s), cache := c,
        acc := ⟨a + terms w s (s.events.drop j), 0⟩ } := by
  intro n
  induction n with
  | zero =>
    intro j s a h hj ha
    have h1 : s.events.drop j = [] := List.drop_eq_nil_of_le (by omega)
    have h2 : s.events.take j = s.events := List.take_of_length_le (by omega)
    refine ⟨s.cache, ?_, ?_⟩
    · simp [dataLoop, h1, h2, terms, ← ha]
    · simp only [h1, h2, terms, List.map_nil, List.append_nil, List.filter_nil, List.sum_nil, add_zero, ← ha]
      exact h
  | succ n ih =>
    intro j s a h hj ha
    have hlt : j < s.events.length := by omega
    have hget : s.events[j]? = some s.events[j] := List.getElem?_eq_getElem hlt
    have hdrop : s.events.drop j = s.events[j] :: s.events.drop (j + 1) := List.drop_eq_getElem_cons hlt
    generalize s.events[j] = ev at hget hdrop
    have htake : s.events.take (j + 1) = s.events.take j ++ [ev] := by
      rw [List.take_add_one, hget]; rfl
    by_cases hsk : skipped w s ev.e
    · obtain ⟨c, h1, h2⟩ := ih (j + 1) s a h (by omega) ha
      have e1 : s.events.take (j + 1) ++ (s.events.drop (j + 1)).map (evEval w s) =
          s.events.take j ++ (s.events.drop j).map (evEval w s) := by
        rw [htake, hdrop, List.map_cons, List.append_assoc]
        simp only [evEval, hsk, ↓reduceIte, List.singleton_append]
      have e2 : terms w s (s.events.drop j) = terms w s (s.events.drop (j + 1)) := by
        rw [hdrop, terms_skip hsk]
      rw [e1, ← e2] at h1 h2
      refine ⟨c, ?_, h2⟩
      simp only [dataLoop, hget, hsk, ↓reduceIte]
      exact h1
    · obtain ⟨c0, hl, hcc⟩ := logSource_eq w hc h hget
      have hb := base_event h hget (evUpd_e w s.m.freeSrcs s.objs ev.e s.m.sources ev)
        (evUpd_ok w s.m.freeSrcs s.objs ev.e s.m.sources (fun x hx => List.mem_map_of_mem hx)
          (h.evs ev (List.mem_of_getElem? hget))) hcc (s.acc.add (logTerm w s ev.e))
      have ha' : s.acc.add (logTerm w s ev.e) = ⟨a + logTerm w s ev.e, 0⟩ := by rw [ha, kahan_add]
      obtain ⟨c, h1, h2⟩ := ih (j + 1) _ (a + logTerm w s ev.e) hb (by simp; omega) ha'
      have e1 : (s.events.set j (evUpd w s.m.freeSrcs s.objs ev.e s.m.sources ev)).take (j + 1) ++
          ((s.events.set j (evUpd w s.m.freeSrcs s.objs ev.e s.m.sources ev)).drop (j + 1)).map
            (evEval w s) =
          s.events.take j ++ (s.events.drop j).map (evEval w s) := by
        rw [List.drop_set, if_pos (by omega), List.take_add_one, List.getElem?_set_self hlt,
          List.take_set, List.set_eq_of_length_le (by simp), hdrop, List.map_cons, List.append_assoc]
        simp only [evEval, hsk, ↓reduceIte, Option.toList_some, List.singleton_append]
      have e2 : a + logTerm w s ev.e + terms w s ((s.events.set j
          (evUpd w s.m.freeSrcs s.objs ev.e s.m.sources ev)).drop (j + 1)) =
          a + terms w s (s.events.drop j) := by
        rw [List.drop_set, if_pos (by omega), hdrop, terms_take hsk]; ring
      refine ⟨c, ?_, ?_⟩
      · simp only [dataLoop, hget, hsk, ↓reduceIte, hl]
        rw [← e1, ← e2]
        exact h1
      · rw [← e1, ← e2]
        exact h2

theorem kahan_neg (l : List ℝ) : ∀ a : ℝ, l.foldl (fun (k : Kahan) x => k.add (-x)) ⟨a, 0⟩ = ⟨a - l.sum, 0⟩ := by
  induction l with
  | nil => intro a; simp
  | cons x l ih => intro a; rw [List.foldl_cons, kahan_add, ih, List.sum_cons]; congr 1; ring

theorem foldl_prior (f : Par κ ℝ → ℝ) (l : List (Par κ ℝ)) : ∀ a : ℝ,
    l.foldl (fun a p => a + f p) a = a + (l.map f).sum := by
  induction l with
  | nil => intro a; simp
  | cons x l ih => intro a; rw [List.foldl_cons, ih, List.map_cons, List.sum_cons]; ring

/-- The number computed by an evaluation. -/
noncomputable def evalNum (w : World κ E G X) (prior : Bool) (s : L κ E G X) : ℝ :=
  terms w s s.events - (npredTerms w s).sum + (if prior then (s.m.param.map w.logPrior).sum else 0)

/-- The state after an evaluation but for the memory of the best fit. -/
noncomputable def evald (w : World κ E G X) (s : L κ E G X) (c : κ → Nat → Option ℝ) : L κ E G X :=
  { s with events := s.events.map (evEval w s), cache := c, acc := Kahan.init }

theorem value_eq (w : World κ E G X) (hc : w.catchNeg = false) (prior : Bool) {s : L κ E G X}
    (h : Good w s) (hx : ¬ excluded w s) :
    ∃ c, value w prior s = .ok (saveBest (evald w s c) (evalNum w prior s)) (evalNum w prior s) ∧
      Good w (evald w s c) := by
  obtain ⟨c, h1, h2⟩ := dataLoop_eq w hc s.events.length 0 s 0 h.toBase (by simp) h.acc
  simp only [List.take_zero, List.drop_zero, List.nil_append, zero_add] at h1 h2
  refine ⟨c, ?_, ?_⟩
  · have hv : (if prior then s.m.param.foldl (fun a p => a + w.logPrior p)
        (terms w s s.events - (npredTerms w s).sum) else terms w s s.events - (npredTerms w s).sum) =
        evalNum w prior s := by
      unfold evalNum
      cases prior
      · simp
      · simp [foldl_prior]
    have hnp : npredTerms w ({ s with
        events := s.events.map (evEval w s), cache := c, acc := ⟨terms w s s.events, 0⟩ }) =
        npredTerms w s := rfl
    simp only [value, hx, ↓reduceIte, h1, hnp, kahan_neg, Kahan.total, hv]
    rfl
  · exact ⟨⟨h2.wf, h2.npSorted, h2.npKeys, h2.nresp, h2.coh, h2.nocell, h2.evs⟩, rfl⟩

theorem saveBest_good {w : World κ E G X} {s : L κ E G X} (h : Good w s) (v : ℝ) : Good w (saveBest s v) := by
  unfold saveBest
  split
  · exact ⟨⟨h.wf, h.npSorted, h.npKeys, h.nresp, h.coh, h.nocell, h.evs⟩, h.acc⟩
  · exact h

theorem saveBest_same (s : L κ E G X) (v : ℝ) : (saveBest s v).m = s.m ∧ (saveBest s v).objs = s.objs ∧
    (saveBest s v).npreds = s.npreds ∧ (saveBest s v).events = s.events ∧ (saveBest s v).useEb = s.useEb ∧
    (saveBest s v).emin = s.emin ∧ (saveBest s v).emax = s.emax := by
  unfold saveBest; split <;> simp

/-- What an evaluation leaves as it was. -/
theorem value_keeps (w : World κ E G X) (hc : w.catchNeg = false) (prior : Bool) {s : L κ E G X}
    (h : Good w s) : ∃ s' v, value w prior s = .ok s' v ∧ Good w s' ∧ s'.m = s.m ∧ s'.objs = s.objs ∧
      s'.npreds = s.npreds ∧ s'.useEb = s.useEb ∧ s'.emin = s.emin ∧ s'.emax = s.emax ∧
      s'.events.map (·.e) = s.events.map (·.e) := by
  by_cases hx : excluded w s
  · exact ⟨s, 0, by simp only [value, hx, ↓reduceIte], h, rfl, rfl, rfl, rfl, rfl, rfl, rfl⟩
  · obtain ⟨c, h1, h2⟩ := value_eq w hc prior h hx
    obtain ⟨e1, e2, e3, e4, e5, e6, e7⟩ := saveBest_same (evald w s c) (evalNum w prior s)
    refine ⟨_, _, h1, saveBest_good h2 _, e1, e2, e3, e5, e6, e7, ?_⟩
    rw [e4]
    simp only [evald, List.map_map]
    refine List.map_congr_left fun ev _ => ?_
    simp only [Function.comp, evEval]
    split
    · rfl
    · exact evUpd_e _ _ _ _ _ _

/-! ### Predicted counts -/

theorem refreshFree_spec (w : World κ E G X) (objs : κ → Obj G X) (l : List (κ × Src κ ℝ))
    (hl : StdMap.Sorted l) : ∀ np : List (κ × ℝ), StdMap.Sorted np →
    StdMap.Sorted (refreshFree w objs l np) ∧ ∀ k, StdMap.find (refreshFree w objs l np) k =
      match StdMap.find l k with
      | some src => if 0 < numFree src.pars then some (w.npred src (objs k).expo) else StdMap.find np k
      | none => StdMap.find np k := by
  induction l with
  | nil => intro np h; exact ⟨h, fun k => rfl⟩
  | cons x l ih =>
    obtain ⟨k', src⟩ := x
    have hs := StdMap.sorted_cons.mp hl
    intro np h
    have h' : StdMap.Sorted (if 0 < numFree src.pars then
        StdMap.put np k' (w.npred src (objs k').expo) else np) := by
      split
      · exact StdMap.sorted_put h _ _
      · exact h
    obtain ⟨h1, h2⟩ := ih hs.2 _ h'
    refine ⟨h1, fun k => ?_⟩
    simp only [refreshFree]
    rw [h2]
    by_cases hk : k' = k
    · subst hk
      have hn : StdMap.find l k' = none := by
        rw [StdMap.find_none]; intro hm; exact absurd (hs.1 k' hm) (lt_irrefl _)
      rw [hn]
      simp only [StdMap.find, ↓reduceIte]
      by_cases hf : 0 < numFree src.pars
      · simp only [hf, ↓reduceIte, StdMap.find_put h]
      · simp only [hf, ↓reduceIte]
    · have e1 : StdMap.find ((k', src) :: l) k = StdMap.find l k := by
        simp [StdMap.find, hk]
      have e2 : StdMap.find (if 0 < numFree src.pars then
          StdMap.put np k' (w.npred src (objs k').expo) else np) k = StdMap.find np k := by
        split
        · simp only [StdMap.find_put h, if_neg (fun hh : k = k' => hk hh.symm)]
        · rfl
      rw [e1, e2]

theorem updateNpreds_spec (w : World κ E G X) (objs : κ → Obj G X) (l : List (κ × Src κ ℝ))
    (hl : StdMap.Sorted l) : ∀ np : List (κ × ℝ), StdMap.Sorted np →
    StdMap.Sorted (updateNpreds w objs l np) ∧ ∀ k, StdMap.find (updateNpreds w objs l np) k =
      match StdMap.find l k with
      | some src => some (w.npred src (objs k).expo)
      | none => StdMap.find np k := by
  induction l with
  | nil => intro np h; exact ⟨h, fun k => rfl⟩
  | cons x l ih =>
    obtain ⟨k', src⟩ := x
    have hs := StdMap.sorted_cons.mp hl
    intro np h
    obtain ⟨h1, h2⟩ := ih hs.2 _ (StdMap.sorted_put h k' (w.npred src (objs k').expo))
    refine ⟨h1, fun k => ?_⟩
    simp only [updateNpreds]
    rw [h2]
    by_cases hk : k' = k
    · subst hk
      have hn : StdMap.find l k' = none := by
        rw [StdMap.find_none]; intro hm; exact absurd (hs.1 k' hm) (lt_irrefl _)
      rw [hn]
      simp only [StdMap.find, ↓reduceIte, StdMap.find_put h]
    · have e1 : StdMap.find ((k', src) :: l) k = StdMap.find l k := by
        simp [StdMap.find, hk]
      rw [e1, StdMap.find_put h, if_neg (fun hh : k = k' => hk hh.symm)]

theorem keys_find {α : Type} (m : List (κ × α)) (k : κ) : k ∈ StdMap.keys m ↔ StdMap.find m k ≠ none := by
  rw [Ne, StdMap.find_none, not_not]

/-- The source of that name is remembered with its current counts. -/
def Fresh (w : World κ E G X) (s : L κ E G X) (n : κ) : Prop :=
  ∀ src, StdMap.find s.m.sources n = some src → StdMap.find s.npreds n = some (w.npred src (s.objs n).expo)

theorem stale_iff {w : World κ E G X} {s : L κ E G X} (h : Base w s) (n : κ) : Stale w s n ↔ ¬ Fresh w s n := by
  unfold Stale Fresh counts
  constructor
  · rintro ⟨src, h1, h2⟩ hf
    exact h2 (StdMap.find_some_mem (hf src (StdMap.find_of_mem h.wf.sorted' h1)))
  · intro hf
    push Not at hf
    obtain ⟨src, h1, h2⟩ := hf
    exact ⟨src, StdMap.find_some_mem h1, fun hm => h2 (StdMap.find_of_mem h.npSorted hm)⟩

theorem fixed_iff (src : Src κ ℝ) : Fixed src ↔ ¬ 0 < numFree src.pars := by
  rw [numFree_pos]; simp [Fixed]

/-- What an operation may do to the remembered counts. -/
def Upd (w : World κ E G X) (s s' : L κ E G X) : Prop :=
  ∀ n, Fresh w s' n ∨ StdMap.find s'.npreds n = StdMap.find s.npreds n

theorem upd_stale {w : World κ E G X} {s s' : L κ E G X} (h : Base w s) (h' : Base w s') (hu : Upd w s s')
    {n : κ} (hst : Stale w s' n) : Stale w s n ∨ Changed w s s' n := by
  by_contra hcon
  push Not at hcon
  obtain ⟨h1, h2⟩ := hcon
  rw [stale_iff h, not_not] at h1
  rw [stale_iff h'] at hst
  have hf := (hu n).resolve_left hst
  apply hst
  intro src hs
  unfold Changed at h2
  push Not at h2
  obtain ⟨src0, hm, he⟩ := h2 src (StdMap.find_some_mem hs)
  have := h1 src0 (StdMap.find_of_mem h.wf.sorted' hm)
  rw [hf, this]
  exact congrArg some he

/-! ### Operations keep the invariant -/

theorem synced_good {w : World κ E G X} {s : L κ E G X} (h : Good w s) {m : M κ ℝ} (hm : WF m)
    (hk : ∀ k, k ∈ StdMap.keys m.sources ↔ k ∈ StdMap.keys s.m.sources) : Good w (synced w s m) := by
  have hnp : StdMap.Sorted (synced w s m).npreds ∧
      ∀ k, k ∈ StdMap.keys (synced w s m).npreds ↔ k ∈ StdMap.keys m.sources := by
    unfold synced
    cases w.newImp with
    | false => exact ⟨h.npSorted, fun k => by rw [hk]; exact h.npKeys k⟩
    | true =>
      obtain ⟨h1, h2⟩ := refreshFree_spec w s.objs m.sources hm.sorted' s.npreds h.npSorted
      refine ⟨h1, fun k => ?_⟩
      simp only [↓reduceIte]
      have := h.npKeys k
      rw [← hk, keys_find s.npreds, keys_find m.sources] at this
      rw [keys_find (refreshFree _ _ _ _), keys_find m.sources, h2]
      cases hf : StdMap.find m.sources k with
      | none => simpa [hf] using this
      | some src =>
        simp only [hf] at this ⊢
        split
        · simp
        · exact this
  refine ⟨⟨hm, hnp.1, hnp.2, h.nresp, ?_, ?_, ?_⟩, h.acc⟩
  · intro k hkk; exact h.coh k ((hk k).mp hkk)
  · intro k hkk; exact h.nocell k (fun hh => hkk ((hk k).mpr hh))
  · intro ev hev; exact (h.evs ev hev).mono fun k hkk => (hk k).mpr hkk

theorem synced_fresh {w : World κ E G X} (hw : w.newImp = true) {s : L κ E G X} (h : StdMap.Sorted s.npreds)
    {m : M κ ℝ} (hm : WF m) (n : κ) (src : Src κ ℝ) (hf : StdMap.find m.sources n = some src)
    (hfree : ¬ Fixed src) : Fresh w (synced w s m) n := by
  intro src' hs
  rw [show (synced w s m).m = m from rfl, hf] at hs
  cases hs
  obtain ⟨h1, h2⟩ := refreshFree_spec w s.objs m.sources hm.sorted' s.npreds h
  rw [fixed_iff, not_not] at hfree
  simp only [synced, hw, ↓reduceIte]
  rw [h2, hf]
  simp only [hfree, ↓reduceIte]

theorem synced_upd {w : World κ E G X} {s : L κ E G X} (h : StdMap.Sorted s.npreds)
    {m : M κ ℝ} (hm : WF m) : Upd w s (synced w s m) := by
  intro n
  cases hw : w.newImp with
  | false => right; simp [synced, hw]
  | true =>
    cases hf : StdMap.find m.sources n with
    | none => left; intro src hs; rw [show (synced w s m).m = m from rfl, hf] at hs; cases hs
    | some src =>
      by_cases hfree : Fixed src
      · right
        obtain ⟨h1, h2⟩ := refreshFree_spec w s.objs m.sources hm.sorted' s.npreds h
        rw [fixed_iff] at hfree
        simp only [synced, hw, ↓reduceIte]
        rw [h2, hf]
        simp only [hfree, ↓reduceIte]
      · left; exact synced_fresh hw h hm n src hf hfree

theorem good_m {w : World κ E G X} {s : L κ E G X} (h : Good w s) {m : M κ ℝ} (hm : WF m)
    (hk : ∀ k, k ∈ StdMap.keys m.sources ↔ k ∈ StdMap.keys s.m.sources) : Good w { s with m := m } := by
  refine ⟨⟨hm, h.npSorted, fun k => (h.npKeys k).trans (hk k).symm, h.nresp, ?_, ?_, ?_⟩, h.acc⟩
  · intro k hkk; exact h.coh k ((hk k).mp hkk)
  · intro k hkk; exact h.nocell k (fun hh => hkk ((hk k).mpr hh))
  · intro ev hev; exact (h.evs ev hev).mono fun k hkk => (hk k).mpr hkk

theorem keys_ids {m m' : List (κ × Src κ ℝ)} (h : ids m' = ids m) (k : κ) :
    k ∈ StdMap.keys m' ↔ k ∈ StdMap.keys m := by
  have : StdMap.keys m' = StdMap.keys m := by
    have := congrArg (List.map Prod.fst) h
    simpa [ids, StdMap.keys, Function.comp_def] using this
  rw [this]

theorem keys_setPars {m : List (κ × Src κ ℝ)} {n : κ} {src : Src κ ℝ} (h : StdMap.find m n = some src)
    (ps : List (Par κ ℝ)) (k : κ) : k ∈ StdMap.keys (setPars m n src ps) ↔ k ∈ StdMap.keys m := by
  unfold setPars
  rw [StdMap.keys_put]
  constructor
  · rintro (rfl | hk)
    · exact StdMap.mem_keys_of_find h
    · exact hk
  · exact .inr

/-- Operations on parameters keep the names. -/
theorem keys_step (s : M κ ℝ) (op : ParOp κ) :
    match SrcModel.step s op.toOp with
    | .ok s' _ => ∀ k, k ∈ StdMap.keys s'.sources ↔ k ∈ StdMap.keys s.sources
    | .throws s' => ∀ k, k ∈ StdMap.keys s'.sources ↔ k ∈ StdMap.keys s.sources
    | .ub => True := by
  have hset : ∀ (p : Par κ ℝ) (spec : Bool) (n : κ),
      match SrcModel.setParam s p spec n with
      | .ok s' _ => ∀ k, k ∈ StdMap.keys s'.sources ↔ k ∈ StdMap.keys s.sources
      | .throws s' => ∀ k, k ∈ StdMap.keys s'.sources ↔ k ∈ StdMap.keys s.sources
      | .ub => True := by
    intro p spec n
    unfold SrcModel.setParam
    cases hf : StdMap.find s.sources n with
    | none => exact fun k => Iff.rfl
    | some src =>
      cases spec
      · exact fun k => Iff.rfl
      · simp only [↓reduceIte]
        cases hp : funSetParam p src.pars with
        | none => exact fun k => Iff.rfl
        | some ps => exact keys_setPars hf ps
  cases op with
  | setParam p spec n => exact hset p spec n
  | setTrueValue pn spec n v =>
    simp only [ParOp.toOp, SrcModel.step, SrcModel.setParamTrueValue]
    cases getParam s pn spec n with
    | none => exact fun k => Iff.rfl
    | some p =>
      simp only
      cases p.setValue (v / p.scale) with
      | none => exact fun k => Iff.rfl
      | some p' =>
        have := hset p' spec n
        simp only
        cases hr : SrcModel.setParam s p' spec n with
        | ok s' a => rw [hr] at this; exact this
        | throws s' => rw [hr] at this; exact this
        | ub => trivial
  | setValues f vs =>
    simp only [ParOp.toOp, SrcModel.step, SrcModel.setParamValues]
    split
    · rename_i hh
      split at hh
      · cases hh
      · unfold setParamValues_ at hh
        have := funSetValues_ids f s.sources vs
        cases hr : setLoop f s.sources vs with
        | ok m r => rw [hr] at this hh; simp only at hh; cases hh; exact keys_ids this
        | throws m => rw [hr] at hh; simp only at hh; cases hh
        | ub => rw [hr] at hh; simp only at hh; cases hh
    · rename_i hh
      split at hh
      · cases hh; exact fun k => Iff.rfl
      · unfold setParamValues_ at hh
        have := funSetValues_ids f s.sources vs
        cases hr : setLoop f s.sources vs with
        | ok m r => rw [hr] at this hh; simp only at hh; cases hh
        | throws m => rw [hr] at this hh; simp only at hh; cases hh; exact keys_ids this
        | ub => rw [hr] at hh; simp only at hh; cases hh
    · trivial
  | setParams f ps =>
    simp only [ParOp.toOp, SrcModel.step, SrcModel.setParams_]
    split
    · rename_i hh
      split at hh
      · cases hh
      · have := setParamsLoop_ids f s.sources ps
        cases hr : setParamsLoop f s.sources ps with
        | ok m r => rw [hr] at this hh; simp only at hh; cases hh; exact keys_ids this
        | throws m => rw [hr] at hh; simp only at hh; cases hh
        | ub => rw [hr] at hh; simp only at hh; cases hh
    · rename_i hh
      split at hh
      · cases hh; exact fun k => Iff.rfl
      · have := setParamsLoop_ids f s.sources ps
        cases hr : setParamsLoop f s.sources ps with
        | ok m r => rw [hr] at this hh; simp only at hh; cases hh
        | throws m => rw [hr] at this hh; simp only at hh; cases hh; exact keys_ids this
        | ub => rw [hr] at hh; simp only at hh; cases hh
    · trivial
  | direct n ps =>
    simp only [ParOp.toOp, SrcModel.step]
    cases hf : StdMap.find s.sources n with
    | none => exact fun k => Iff.rfl
    | some src => exact keys_setPars hf ps
  | sync => exact fun k => Iff.rfl

theorem wf_par {s : M κ ℝ} (h : WF s) (op : ParOp κ) :
    match SrcModel.step s op.toOp with
    | .ok s' _ => WF s'
    | .throws s' => WF s'
    | .ub => True := by
  have := wf_step h op.toOp
  cases hr : SrcModel.step s op.toOp with
  | ok s' a => rw [hr] at this; exact this.1
  | throws s' => rw [hr] at this; exact this.1
  | ub => trivial

/-- What holds after a call, however it ended. -/
def Keeps (w : World κ E G X) (s : L κ E G X) {A : Type} (P : L κ E G X → Prop) : Out (L κ E G X) A → Prop
  | .ok s' _ => Good w s' ∧ Upd w s s' ∧ P s'
  | .throws s' => Good w s' ∧ Upd w s s'
  | .ub => True

theorem upd_refl (w : World κ E G X) {s s' : L κ E G X} (h : s'.npreds = s.npreds) : Upd w s s' :=
  fun n => .inr (by rw [h])

/-- The sources with a free parameter are remembered with their current counts. -/
def FreeFresh (w : World κ E G X) (s : L κ E G X) : Prop :=
  w.newImp = true → ∀ n src, StdMap.find s.m.sources n = some src → ¬ Fixed src → Fresh w s n

theorem paramOp_keeps {w : World κ E G X} {s : L κ E G X} (h : Good w s) (op : ParOp κ) :
    Keeps w s (fun s' => op.syncs = true → FreeFresh w s') (paramOp w s op) := by
  have hw := wf_par h.wf op
  have hk := keys_step s.m op
  unfold paramOp
  cases hr : SrcModel.step s.m op.toOp with
  | ub => trivial
  | throws m =>
    rw [hr] at hw hk
    exact ⟨good_m h hw hk, upd_refl w rfl⟩
  | ok m a =>
    rw [hr] at hw hk
    cases hs : op.syncs
    · exact ⟨good_m h hw hk, upd_refl w rfl, fun hh => by cases hh⟩
    · exact ⟨synced_good h hw hk, synced_upd h.npSorted hw,
        fun _ hi n src hf hfree => synced_fresh hi h.npSorted hw n src hf hfree⟩

theorem syncParams_good {w : World κ E G X} {s : L κ E G X} (h : Good w s) :
    Good w (syncParams w s) ∧ Upd w s (syncParams w s) ∧ FreeFresh w (syncParams w s) := by
  have hm : WF (sync s.m) := (mirror_sync h.wf).wf
  exact ⟨synced_good h hm fun k => Iff.rfl, synced_upd h.npSorted hm,
    fun hi n src hf hfree => synced_fresh hi h.npSorted hm n src hf hfree⟩

theorem touchAll_spec (w : World κ E G X) (o : Obj G X) (src : Src κ ℝ) (k : κ) (u : Bool)
    (evs : List (Ev κ E)) : ∀ (j : Nat) (c : κ → Nat → Option ℝ),
    (∀ (i : Nat) ev, evs[i]? = some ev → ∀ r, c k (j + i) = some r → r = w.resp o.geo ev.e) →
    (touchAll w o src k u j evs c).1 =
      evs.map (fun ev => ev.update k (w.dens src (w.resp o.geo ev.e) ev.e * w.eff ev.e)) ∧
    (∀ k' j', k' ≠ k → (touchAll w o src k u j evs c).2 k' j' = c k' j') ∧
    (∀ j', j' < j → (touchAll w o src k u j evs c).2 k j' = c k j') ∧
    (∀ (i : Nat) ev, evs[i]? = some ev → ∀ r, (touchAll w o src k u j evs c).2 k (j + i) = some r →
      r = w.resp o.geo ev.e) := by
  induction evs with
  | nil => intro j c h; exact ⟨rfl, fun _ _ _ => rfl, fun _ _ => rfl, fun i ev hh => by simp at hh⟩
  | cons ev evs ih =>
    intro j c h
    have hk : ∀ r, c k j = some r → r = w.resp o.geo ev.e := h 0 ev rfl
    have hstep : ∃ p : Ev κ E × (κ → Nat → Option ℝ),
        p = (if u then touch w o src k j ev c
          else (ev.update k ((fluxDensity w src o ev.e none).1 * w.eff ev.e), c)) ∧
        p.1 = ev.update k (w.dens src (w.resp o.geo ev.e) ev.e * w.eff ev.e) ∧
        (∀ k' j', ¬ (k' = k ∧ j' = j) → p.2 k' j' = c k' j') ∧
        (∀ r, p.2 k j = some r → r = w.resp o.geo ev.e) := by
      refine ⟨_, rfl, ?_⟩
      cases u
      · exact ⟨rfl, fun _ _ _ => rfl, hk⟩
      · have ht : touch w o src k j ev c =
            (ev.update k (w.dens src (w.resp o.geo ev.e) ev.e * w.eff ev.e),
              setCell c k j (some (w.resp o.geo ev.e))) := by
          simp only [touch, fluxDensity_coh w src o ev.e (c k j) hk, Option.getD_some]
        simp only [↓reduceIte, ht]
        refine ⟨trivial, fun k' j' hne => by simp only [setCell, if_neg hne], fun r hr => ?_⟩
        simp only [setCell, and_self, ↓reduceIte, Option.some.injEq] at hr; exact hr.symm
    obtain ⟨p, hp, hp1, hpc, hpk⟩ := hstep
    have hunf : touchAll w o src k u j (ev :: evs) c =
        (p.1 :: (touchAll w o src k u (j + 1) evs p.2).1, (touchAll w o src k u (j + 1) evs p.2).2) := by
      simp only [touchAll, ← hp]
    obtain ⟨i1, i2, i3, i4⟩ := ih (j + 1) p.2 (by
      intro i ev' hev r hr
      rw [hpc k (j + 1 + i) (by omega)] at hr
      exact h (i + 1) ev' hev r (by rw [show j + (i + 1) = j + 1 + i by omega]; exact hr))
    rw [hunf]
    refine ⟨by rw [i1, hp1]; rfl, ?_, ?_, ?_⟩
    · intro k' j' hne; simp only; rw [i2 k' j' hne, hpc k' j' (fun hh => hne hh.1)]
    · intro j' hj; simp only; rw [i3 j' (by omega), hpc k j' (by omega)]
    · intro i ev' hev r hr
      cases i with
      | zero =>
        simp only [List.getElem?_cons_zero, Option.some.injEq] at hev
        subst hev
        simp only [Nat.add_zero] at hr
        rw [i3 j (by omega)] at hr
        exact hpk r hr
      | succ i =>
        rw [show j + (i + 1) = j + 1 + i by omega] at hr
        exact i4 i ev' hev r hr

theorem addSource_keeps {w : World κ E G X} {s : L κ E G X} (h : Good w s) (src : Src κ ℝ) (o : Obj G X) :
    Keeps w s (fun s' => FreeFresh w s' ∧ Fresh w s' src.name) (addSource w s src o) ∧
    (StdMap.find s.m.sources src.name = none → ∃ s', addSource w s src o = .ok s' ()) := by
  unfold addSource SrcModel.addSource
  cases hf : StdMap.find s.m.sources src.name with
  | some x => exact ⟨⟨good_m h h.wf fun k => Iff.rfl, upd_refl w rfl⟩, fun hh => by cases hh⟩
  | none =>
    have hnk : src.name ∉ StdMap.keys s.m.sources := StdMap.find_none.mp hf
    have hw : WF (sync { s.m with sources := StdMap.put s.m.sources src.name src }) :=
      (mirror_sync (wf_put h.wf rfl)).wf
    have hkeys : ∀ k, k ∈ StdMap.keys (StdMap.put s.m.sources src.name src) ↔
        k = src.name ∨ k ∈ StdMap.keys s.m.sources := fun k => StdMap.keys_put
    simp only
    have hlen : ¬ ((!w.newImp || decide (0 < numFree src.pars)) = true ∧
        (synced w { s with objs := Function.update s.objs src.name o }
          (sync { s.m with sources := StdMap.put s.m.sources src.name src })).nresp <
        (synced w { s with objs := Function.update s.objs src.name o }
          (sync { s.m with sources := StdMap.put s.m.sources src.name src })).events.length) :=
      fun hh => absurd hh.2 (not_lt.mpr h.nresp.ge)
    rw [if_neg hlen]
    refine ⟨?_, fun _ => ⟨_, rfl⟩⟩
    have hspec := touchAll_spec w o src src.name (!w.newImp || decide (0 < numFree src.pars)) s.events 0 s.cache
      (fun i ev hev r hr => by rw [h.nocell _ hnk] at hr; cases hr)
    have hsn : StdMap.Sorted (synced w { s with objs := Function.update s.objs src.name o }
        (sync { s.m with sources := StdMap.put s.m.sources src.name src })).npreds := by
      unfold synced
      cases w.newImp
      · exact h.npSorted
      · exact (refreshFree_spec w _ _ hw.sorted' s.npreds h.npSorted).1
    have hkn : ∀ k, k ≠ src.name → (StdMap.find (synced w { s with objs := Function.update s.objs src.name o }
        (sync { s.m with sources := StdMap.put s.m.sources src.name src })).npreds k ≠ none ↔
        k ∈ StdMap.keys s.m.sources) := by
      intro k hne
      have hb := h.npKeys k
      rw [keys_find] at hb
      unfold synced
      cases w.newImp
      · exact hb
      · simp only [↓reduceIte]
        rw [(refreshFree_spec w _ _ hw.sorted' s.npreds h.npSorted).2 k]
        have e1 : StdMap.find (sync { s.m with sources := StdMap.put s.m.sources src.name src }).sources k =
            StdMap.find s.m.sources k := by
          simp only [sync]; rw [StdMap.find_put h.wf.sorted', if_neg hne]
        rw [e1]
        have hb' := hb
        rw [keys_find s.m.sources] at hb' ⊢
        cases hx : StdMap.find s.m.sources k with
        | none => rw [hx] at hb'; exact hb'
        | some x =>
          rw [hx] at hb'
          simp only
          split
          · simp
          · exact hb'
    have hgood : Good w { synced w { s with objs := Function.update s.objs src.name o }
        (sync { s.m with sources := StdMap.put s.m.sources src.name src }) with
        events := (touchAll w o src src.name (!w.newImp || decide (0 < numFree src.pars)) 0 s.events s.cache).1
        cache := (touchAll w o src src.name (!w.newImp || decide (0 < numFree src.pars)) 0 s.events s.cache).2
        npreds := StdMap.put (synced w { s with objs := Function.update s.objs src.name o }
          (sync { s.m with sources := StdMap.put s.m.sources src.name src })).npreds src.name
          (w.npred src o.expo)
        best := noBest } := by
      refine ⟨⟨hw, StdMap.sorted_put hsn _ _, ?_, ?_, ?_, ?_, ?_⟩, h.acc⟩
      · intro k
        rw [StdMap.keys_put]
        change _ ↔ k ∈ StdMap.keys (StdMap.put s.m.sources src.name src)
        rw [hkeys]
        by_cases hk : k = src.name
        · simp [hk]
        · simp only [hk, false_or]
          rw [keys_find]; exact hkn k hk
      · simp only [hspec.1, List.length_map]; exact h.nresp
      · intro k hk j ev r hev hr
        simp only [hspec.1, List.getElem?_map, Option.map_eq_some_iff] at hev
        obtain ⟨ev0, hev0, rfl⟩ := hev
        simp only [synced, update_e]
        by_cases hkn : k = src.name
        · subst hkn
          rw [Function.update_self]
          exact hspec.2.2.2 j ev0 hev0 r (by rw [Nat.zero_add]; exact hr)
        · rw [Function.update_of_ne hkn]
          simp only at hr
          rw [hspec.2.1 k j hkn] at hr
          exact h.coh k (((hkeys k).mp hk).resolve_left hkn) j ev0 r hev0 hr
      · intro k hk j
        have hk' : k ∉ StdMap.keys (StdMap.put s.m.sources src.name src) := hk
        rw [hkeys] at hk'
        push Not at hk'
        simp only
        rw [hspec.2.1 k j hk'.1]
        exact h.nocell k hk'.2 j
      · intro ev hev
        simp only [hspec.1, List.mem_map] at hev
        obtain ⟨ev0, hev0, rfl⟩ := hev
        exact ((h.evs ev0 hev0).mono fun k hk => (hkeys k).mpr (.inr hk)).update ((hkeys _).mpr (.inl rfl)) _
    have hfresh : ∀ n (P : Prop), (n ≠ src.name → P ∨ Fresh w (synced w
        { s with objs := Function.update s.objs src.name o }
        (sync { s.m with sources := StdMap.put s.m.sources src.name src })) n) →
        P ∨ Fresh w { synced w { s with objs := Function.update s.objs src.name o }
        (sync { s.m with sources := StdMap.put s.m.sources src.name src }) with
        events := (touchAll w o src src.name (!w.newImp || decide (0 < numFree src.pars)) 0 s.events s.cache).1
        cache := (touchAll w o src src.name (!w.newImp || decide (0 < numFree src.pars)) 0 s.events s.cache).2
        npreds := StdMap.put (synced w { s with objs := Function.update s.objs src.name o }
          (sync { s.m with sources := StdMap.put s.m.sources src.name src })).npreds src.name
          (w.npred src o.expo)
        best := noBest } n := by
      intro n P hP
      by_cases hn : n = src.name
      · right
        intro src' hs
        subst hn
        have : StdMap.find (StdMap.put s.m.sources src.name src) src.name = some src' := hs
        rw [StdMap.find_put h.wf.sorted', if_pos rfl] at this
        cases this
        refine (StdMap.find_put hsn).trans ?_
        rw [if_pos rfl]
        change _ = some (w.npred src (Function.update s.objs src.name o src.name).expo)
        rw [Function.update_self]
      · rcases hP hn with hp | hp
        · exact .inl hp
        · right
          intro src' hs
          have := hp src' hs
          simp only
          rw [StdMap.find_put hsn, if_neg hn]
          exact this
    have hs1 := synced_upd (w := w) (s := { s with objs := Function.update s.objs src.name o })
      h.npSorted hw
    refine ⟨hgood, ?_, ?_, ?_⟩
    · intro n
      have := hfresh n (n ≠ src.name ∧ StdMap.find (synced w { s with objs := Function.update s.objs src.name o }
          (sync { s.m with sources := StdMap.put s.m.sources src.name src })).npreds n =
          StdMap.find s.npreds n) (fun hn => (hs1 n).symm.imp_left fun hh => ⟨hn, hh⟩)
      rcases this with hp | hp
      · right
        simp only
        rw [StdMap.find_put hsn, if_neg hp.1]
        exact hp.2
      · exact .inl hp
    · intro hi n src' hfind hfree
      exact (hfresh n False fun hn => .inr (synced_fresh (s := { s with objs := Function.update s.objs src.name o })
        hi h.npSorted hw n src' hfind hfree)).resolve_left id
    · exact (hfresh src.name False fun hn => absurd rfl hn).resolve_left id

theorem deleteSource_keeps {w : World κ E G X} {s : L κ E G X} (h : Good w s) (n : κ) :
    Keeps w s (fun s' => FreeFresh w s') (deleteSource w s n) := by
  have hs1 : ∀ m : M κ ℝ, WF m → (∀ k, k ∈ StdMap.keys m.sources ↔ k ≠ n ∧ k ∈ StdMap.keys s.m.sources) →
      Good w { s with
        events := s.events.map (fun ev => ev.delete n), cache := dropCell s.cache n,
        npreds := StdMap.erase s.npreds n, best := noBest, m := m } := by
    intro m hm hk
    refine ⟨⟨hm, StdMap.sorted_erase h.npSorted _, ?_, by simp [h.nresp], ?_, ?_, ?_⟩, h.acc⟩
    · intro k
      simp only
      rw [StdMap.mem_keys_erase h.npSorted, hk, h.npKeys]
    · intro k hkk j ev r hev hr
      have hkk' := (hk k).mp hkk
      simp only [List.getElem?_map, Option.map_eq_some_iff] at hev
      obtain ⟨ev0, hev0, rfl⟩ := hev
      simp only [dropCell, if_neg hkk'.1] at hr
      exact h.coh k hkk'.2 j ev0 r hev0 hr
    · intro k hkk j
      simp only [dropCell]
      split
      · rfl
      · rename_i hne
        exact h.nocell k (fun hh => hkk ((hk k).mpr ⟨hne, hh⟩)) j
    · intro ev hev
      simp only [List.mem_map] at hev
      obtain ⟨ev0, hev0, rfl⟩ := hev
      exact (h.evs ev0 hev0).delete fun k h1 h2 => (hk k).mpr ⟨h1, h2⟩
  cases hf : StdMap.find s.m.sources n with
  | none =>
    have hd : SrcModel.deleteSource s.m n = .throws s.m := by simp only [SrcModel.deleteSource, hf]
    simp only [deleteSource, hd]
    have hnk := StdMap.find_none.mp hf
    refine ⟨hs1 s.m h.wf fun k => ⟨fun hk => ⟨fun e => hnk (e ▸ hk), hk⟩, fun hk => hk.2⟩, ?_⟩
    intro k
    by_cases hk : k = n
    · left; intro src hs; simp only at hs; rw [hk, hf] at hs; cases hs
    · right; simp only; rw [StdMap.find_erase h.npSorted, if_neg hk]
  | some x =>
    have hd : SrcModel.deleteSource s.m n =
        .ok (sync { s.m with sources := StdMap.erase s.m.sources n }) x := by
      simp only [SrcModel.deleteSource, hf]
    simp only [deleteSource, hd]
    have hm0 : WF { s.m with sources := StdMap.erase s.m.sources n } := wf_erase h.wf n
    have hm : WF (sync { s.m with sources := StdMap.erase s.m.sources n }) := (mirror_sync hm0).wf
    have hk : ∀ k, k ∈ StdMap.keys (StdMap.erase s.m.sources n) ↔ k ≠ n ∧ k ∈ StdMap.keys s.m.sources :=
      fun k => StdMap.mem_keys_erase h.wf.sorted'
    have hg := hs1 _ hm hk
    have hg' := synced_good hg hm fun k => Iff.rfl
    have hsy : ∀ t : L κ E G X, synced w { t with m := sync { s.m with sources := StdMap.erase s.m.sources n } }
        (sync { s.m with sources := StdMap.erase s.m.sources n }) =
        synced w t (sync { s.m with sources := StdMap.erase s.m.sources n }) := fun t => rfl
    refine ⟨hg', ?_, fun hi k src hfind hfree => ?_⟩
    · intro k
      rcases synced_upd (w := w) hg.npSorted hm k with hh | hh
      · exact .inl hh
      · by_cases hkn : k = n
        · left
          intro src hsrc
          have : StdMap.find (StdMap.erase s.m.sources n) k = some src := hsrc
          rw [StdMap.find_erase h.wf.sorted', if_pos hkn] at this
          cases this
        · right
          refine hh.trans ?_
          simp only
          rw [StdMap.find_erase h.npSorted, if_neg hkn]
    · exact synced_fresh (s := { s with
        events := s.events.map (fun ev => ev.delete n), cache := dropCell s.cache n,
        npreds := StdMap.erase s.npreds n, best := noBest }) hi hg.npSorted hm k src hfind hfree

theorem deleteSource_m (w : World κ E G X) (s : L κ E G X) (n : κ) :
    match deleteSource w s n, SrcModel.deleteSource s.m n with
    | .ok s' _, .ok m _ => s'.m = m
    | .throws s', .throws m => s'.m = m
    | _, _ => False := by
  unfold deleteSource
  simp only
  cases h : SrcModel.deleteSource s.m n with
  | ok m x => rfl
  | throws m => rfl
  | ub => unfold SrcModel.deleteSource at h; split at h <;> cases h

theorem deleteLoop_m (w : World κ E G X) (ns : List κ) : ∀ s : L κ E G X,
    match deleteLoop w ns s, SrcModel.deleteLoop ns s.m with
    | .ok s' _, .ok m _ => s'.m = m
    | .throws s', .throws m => s'.m = m
    | _, _ => False := by
  induction ns with
  | nil => intro s; rfl
  | cons n ns ih =>
    intro s
    have := deleteSource_m w s n
    unfold deleteLoop SrcModel.deleteLoop
    cases h1 : deleteSource w s n with
    | ub => rw [h1] at this; simp at this
    | throws s' =>
      cases h2 : SrcModel.deleteSource s.m n with
      | throws m => rw [h1, h2] at this; exact this
      | ok m a => rw [h1, h2] at this; simp at this
      | ub => rw [h1, h2] at this; simp at this
    | ok s' a =>
      cases h2 : SrcModel.deleteSource s.m n with
      | throws m => rw [h1, h2] at this; simp at this
      | ub => rw [h1, h2] at this; simp at this
      | ok m b =>
        rw [h1, h2] at this
        simp only at this ⊢
        rw [← this]
        exact ih s'

theorem upd_trans {w : World κ E G X} {s t u : L κ E G X} (h1 : Upd w s t) (h2 : Upd w t u)
    (hs : ∀ n, Fresh w t n → Fresh w u n ∨ StdMap.find u.npreds n = StdMap.find s.npreds n) : Upd w s u := by
  intro n
  rcases h2 n with hh | hh
  · exact .inl hh
  · rcases h1 n with hg | hg
    · exact hs n hg
    · right; rw [hh, hg]

theorem deleteLoop_good (w : World κ E G X) (ns : List κ) : ∀ {s : L κ E G X}, Good w s →
    match deleteLoop w ns s with
    | .ok s' _ => Good w s'
    | .throws s' => Good w s'
    | .ub => True := by
  induction ns with
  | nil => intro s h; exact h
  | cons n ns ih =>
    intro s h
    have := deleteSource_keeps h n
    unfold deleteLoop
    cases h1 : deleteSource w s n with
    | ub => trivial
    | throws s' => rw [h1] at this; exact this.1
    | ok s' a => rw [h1] at this; exact ih this.1

/-- Deleting all sources cannot fail and leaves none. -/
theorem deleteAll_good {w : World κ E G X} {s : L κ E G X} (h : Good w s) :
    ∃ s', deleteAllSources w s = .ok s' () ∧ Good w s' ∧ s'.m.sources = [] := by
  obtain ⟨m', h1, h2, h3, h4⟩ := deleteLoop_all s.m.sources s.m rfl
  have hm := deleteLoop_m w (StdMap.keys s.m.sources) s
  have hg := deleteLoop_good w (StdMap.keys s.m.sources) h
  unfold deleteAllSources getSrcNames
  rw [h1] at hm
  cases hd : deleteLoop w (StdMap.keys s.m.sources) s with
  | ub => rw [hd] at hm; simp at hm
  | throws s' => rw [hd] at hm; simp at hm
  | ok s' a =>
    rw [hd] at hm hg
    simp only at hm hg
    have hw : WF { s'.m with param := [] } := ⟨hg.wf.sorted, hg.wf.names⟩
    refine ⟨_, rfl, good_m hg hw fun k => Iff.rfl, ?_⟩
    simp only; rw [hm]; exact h2

theorem syncSrc_keeps {w : World κ E G X} {s : L κ E G X} (h : Good w s) (n : κ) :
    ∃ s', syncSrcParams w s n = .ok s' () ∧ Good w s' ∧ Upd w s s' ∧ Fresh w s' n ∧ s'.m = sync s.m ∧
      s'.objs = s.objs := by
  have hm : WF (sync s.m) := (mirror_sync h.wf).wf
  have hg := good_m h hm fun k => Iff.rfl
  unfold syncSrcParams
  cases hf : StdMap.find s.m.sources n with
  | none =>
    have hf' : StdMap.find (sync s.m).sources n = none := hf
    simp only [hf']
    exact ⟨_, rfl, hg, upd_refl w rfl, (fun src hs => by simp only at hs; rw [hf'] at hs; cases hs), rfl, rfl⟩
  | some src =>
    have hf' : StdMap.find (sync s.m).sources n = some src := hf
    have hnk : n ∈ StdMap.keys s.m.sources := StdMap.mem_keys_of_find hf
    have hspec := touchAll_spec w (s.objs n) src n true s.events 0 s.cache
      (fun i ev hev r hr => h.coh n hnk i ev r hev (by rw [Nat.zero_add] at hr; exact hr))
    simp only [hf']
    rw [if_neg (not_lt.mpr h.nresp.ge)]
    refine ⟨_, rfl, ⟨⟨hm, StdMap.sorted_put h.npSorted _ _, ?_, ?_, ?_, ?_, ?_⟩, h.acc⟩, ?_, ?_, rfl, rfl⟩
    · intro k
      rw [StdMap.keys_put]
      change _ ↔ k ∈ StdMap.keys s.m.sources
      rw [h.npKeys]
      exact ⟨fun hh => hh.elim (fun e => e ▸ hnk) id, .inr⟩
    · simp only [hspec.1, List.length_map]; exact h.nresp
    · intro k hk j ev r hev hr
      simp only [hspec.1, List.getElem?_map, Option.map_eq_some_iff] at hev
      obtain ⟨ev0, hev0, rfl⟩ := hev
      simp only [update_e]
      by_cases hkn : k = n
      · subst hkn
        exact hspec.2.2.2 j ev0 hev0 r (by rw [Nat.zero_add]; exact hr)
      · simp only at hr
        rw [hspec.2.1 k j hkn] at hr
        exact h.coh k hk j ev0 r hev0 hr
    · intro k hk j
      have hk' : k ∉ StdMap.keys s.m.sources := hk
      have hkn : k ≠ n := fun e => hk' (e ▸ hnk)
      simp only
      rw [hspec.2.1 k j hkn]
      exact h.nocell k hk' j
    · intro ev hev
      simp only [hspec.1, List.mem_map] at hev
      obtain ⟨ev0, hev0, rfl⟩ := hev
      exact (h.evs ev0 hev0).update hnk _
    · intro k
      by_cases hk : k = n
      · left
        intro src' hs
        subst hk
        have : StdMap.find s.m.sources k = some src' := hs
        rw [hf] at this; cases this
        simp only
        rw [StdMap.find_put h.npSorted, if_pos rfl]
      · right
        simp only
        rw [StdMap.find_put h.npSorted, if_neg hk]
    · intro src' hs
      have : StdMap.find s.m.sources n = some src' := hs
      rw [hf] at this; cases this
      simp only
      rw [StdMap.find_put h.npSorted, if_pos rfl]

theorem npreds_all {w : World κ E G X} {s : L κ E G X} (h : Good w s) (objs : κ → Obj G X)
    (hgeo : ∀ k, (objs k).geo = (s.objs k).geo) (b : Bool) (e0 e1 : ℝ) :
    Good w { s with
      emin := e0, emax := e1, useEb := b, objs := objs
      npreds := updateNpreds w objs s.m.sources s.npreds } ∧
    ∀ n, Fresh w { s with
      emin := e0, emax := e1, useEb := b, objs := objs
      npreds := updateNpreds w objs s.m.sources s.npreds } n := by
  obtain ⟨h1, h2⟩ := updateNpreds_spec w objs s.m.sources h.wf.sorted' s.npreds h.npSorted
  refine ⟨⟨⟨h.wf, h1, ?_, h.nresp, ?_, h.nocell, h.evs⟩, h.acc⟩, ?_⟩
  · intro k
    have := h.npKeys k
    simp only
    rw [keys_find, keys_find] at this ⊢
    rw [h2]
    cases hf : StdMap.find s.m.sources k with
    | none => simpa [hf] using this
    | some src => simp
  · intro k hk j ev r hev hr
    simp only
    rw [hgeo]
    exact h.coh k hk j ev r hev hr
  · intro n src hs
    simp only at hs ⊢
    rw [h2, hs]

theorem setEb_good {w : World κ E G X} {s : L κ E G X} (h : Good w s) (a b : ℝ) :
    Good w (setEbounds w s a b) ∧ ∀ n, Fresh w (setEbounds w s a b) n := by
  unfold setEbounds
  refine npreds_all h _ (fun k => ?_) true a b
  split <;> rfl

theorem unsetEb_good {w : World κ E G X} {s : L κ E G X} (h : Good w s) :
    Good w (unsetEbounds w s) ∧ ∀ n, Fresh w (unsetEbounds w s) n := by
  unfold unsetEbounds
  exact npreds_all h s.objs (fun k => rfl) false s.emin s.emax

theorem read_good {w : World κ E G X} {s : L κ E G X} (h : Good w s) (es : List E) :
    Good w (getEvents s es) ∧ (getEvents s es).npreds = s.npreds := by
  refine ⟨⟨⟨h.wf, h.npSorted, h.npKeys, by simp [getEvents], ?_, fun _ _ _ => rfl, ?_⟩, h.acc⟩, rfl⟩
  · intro k hk j ev r hev hr; simp [getEvents] at hr
  · intro ev hev
    simp only [getEvents, List.mem_append, List.mem_map] at hev
    rcases hev with hev | ⟨e, _, rfl⟩
    · exact h.evs ev hev
    · exact ⟨StdMap.sorted_nil, fun k hk => by simp [StdMap.keys] at hk, rfl⟩

theorem init_good (w : World κ E G X) (es : List E) (objs : κ → Obj G X) : Good w (L.init es objs) := by
  refine ⟨⟨⟨List.Pairwise.nil, fun x hx => by cases hx⟩, StdMap.sorted_nil, fun k => Iff.rfl,
    by simp [L.init], ?_, fun _ _ _ => rfl, ?_⟩, rfl⟩
  · intro k hk j ev r hev hr; simp [L.init] at hr
  · intro ev hev
    simp only [L.init, List.mem_map] at hev
    obtain ⟨e, _, rfl⟩ := hev
    exact ⟨StdMap.sorted_nil, fun k hk => by simp [StdMap.keys] at hk, rfl⟩

theorem fresh_congr {w : World κ E G X} {s s' : L κ E G X} (h1 : s'.m.sources = s.m.sources)
    (h2 : s'.objs = s.objs) (h3 : s'.npreds = s.npreds) (n : κ) : Fresh w s' n ↔ Fresh w s n := by
  unfold Fresh; rw [h1, h2, h3]

theorem syncParams_sources (w : World κ E G X) (s : L κ E G X) :
    (syncParams w s).m.sources = s.m.sources ∧ (syncParams w s).objs = s.objs := ⟨rfl, rfl⟩

theorem restore_keeps {w : World κ E G X} {s : L κ E G X} (h : Good w s) :
    Keeps w s (fun s' => FreeFresh w s') (restoreBestFit w s) := by
  have hp := paramOp_keeps h (.setValues false s.bestPars)
  unfold restoreBestFit
  cases hr : paramOp w s (.setValues false s.bestPars) with
  | ub => trivial
  | throws s' => rw [hr] at hp; exact hp
  | ok s' a =>
    rw [hr] at hp
    obtain ⟨h1, h2, h3⟩ := hp
    obtain ⟨g1, g2, g3⟩ := syncParams_good h1
    refine ⟨g1, upd_trans h2 g2 fun n hn => ?_, g3⟩
    left
    by_cases hst : Fresh w (syncParams w s') n
    · exact hst
    · have hf := (g2 n).resolve_left hst
      exact fun src hs => by rw [hf]; exact hn src hs

theorem save_keeps {w : World κ E G X} (hc : w.catchNeg = false) {s : L κ E G X} (h : Good w s) :
    Keeps w s (fun s' => FreeFresh w s') (saveCurrentFit w s) := by
  obtain ⟨g1, g2, g3⟩ := syncParams_good h
  have g1' : Good w { syncParams w s with best := noBest } :=
    ⟨⟨g1.wf, g1.npSorted, g1.npKeys, g1.nresp, g1.coh, g1.nocell, g1.evs⟩, g1.acc⟩
  obtain ⟨s', v, hv, k1, k2, k3, k4, -⟩ := value_keeps w hc true g1'
  unfold saveCurrentFit
  rw [hv]
  obtain ⟨e1, e2, e3, -⟩ := saveBest_same s' v
  have hf : ∀ n, Fresh w (saveBest s' v) n ↔ Fresh w (syncParams w s) n := by
    intro n
    refine fresh_congr ?_ ?_ ?_ n
    · rw [e1, k2]
    · rw [e2, k3]
    · rw [e3, k4]
  refine ⟨saveBest_good k1 v, fun n => ?_, fun hi n src hfind hfree => ?_⟩
  · rcases g2 n with hh | hh
    · exact .inl ((hf n).mpr hh)
    · right; rw [e3, k4]; exact hh
  · rw [hf]
    refine g3 hi n src ?_ hfree
    rw [e1, k2] at hfind; exact hfind

/-- One operation keeps the invariant, and brings the remembered counts up to date as
said in the specification. -/
theorem step_keeps {w : World κ E G X} (hc : w.catchNeg = false) {s : L κ E G X} (h : Good w s)
    (op : Op κ E G X) :
    Keeps w s (fun s' => w.newImp = true → ∀ n, Refreshes op s' n → Fresh w s' n) (step w s op) := by
  have hff : ∀ s' : L κ E G X, Good w s' → FreeFresh w s' → w.newImp = true → ∀ n,
      (∃ src, (n, src) ∈ s'.m.sources ∧ ¬ Fixed src) → Fresh w s' n := by
    rintro s' hg hf hi n ⟨src, h1, h2⟩
    exact hf hi n src (StdMap.find_of_mem hg.wf.sorted' h1) h2
  cases op with
  | add src o =>
    have := (addSource_keeps h src o).1
    simp only [step]
    cases hr : addSource w s src o with
    | ub => trivial
    | throws s' => rw [hr] at this; exact this
    | ok s' a =>
      rw [hr] at this
      refine ⟨this.1, this.2.1, fun hi n hn => ?_⟩
      rcases hn with rfl | hn
      · exact this.2.2.2
      · exact hff s' this.1 this.2.2.1 hi n hn
  | delete n =>
    have := deleteSource_keeps h n
    simp only [step]
    cases hr : deleteSource w s n with
    | ub => trivial
    | throws s' => rw [hr] at this; exact this
    | ok s' a =>
      rw [hr] at this
      exact ⟨this.1, this.2.1, hff s' this.1 this.2.2⟩
  | deleteAll =>
    obtain ⟨s', h1, h2, h3⟩ := deleteAll_good h
    simp only [step, h1]
    have hf : ∀ n, Fresh w s' n := fun n src hs => by rw [h3] at hs; simp [StdMap.find] at hs
    exact ⟨h2, fun n => .inl (hf n), fun _ n _ => hf n⟩
  | par op =>
    have := paramOp_keeps h op
    simp only [step]
    cases hr : paramOp w s op with
    | ub => trivial
    | throws s' => rw [hr] at this; exact this
    | ok s' a =>
      rw [hr] at this
      refine ⟨this.1, this.2.1, fun hi n hn => ?_⟩
      cases op
      case direct => exact hn.elim
      all_goals exact hff s' this.1 (this.2.2 rfl) hi n hn
  | syncSrc n =>
    obtain ⟨s', h1, h2, h3, h4, -, -⟩ := syncSrc_keeps h n
    simp only [step, h1]
    refine ⟨h2, h3, fun _ m hm => ?_⟩
    cases hm; exact h4
  | setEb a b =>
    obtain ⟨h1, h2⟩ := setEb_good h a b
    exact ⟨h1, fun n => .inl (h2 n), fun _ n _ => h2 n⟩
  | unsetEb =>
    obtain ⟨h1, h2⟩ := unsetEb_good h
    exact ⟨h1, fun n => .inl (h2 n), fun _ n _ => h2 n⟩
  | read es =>
    obtain ⟨h1, h2⟩ := read_good h es
    exact ⟨h1, upd_refl w h2, fun _ n hn => hn.elim⟩
  | eval p =>
    obtain ⟨s', v, hv, k1, k2, k3, k4, -⟩ := value_keeps w hc p h
    simp only [step, hv, Out.void]
    exact ⟨k1, upd_refl w k4, fun _ n hn => hn.elim⟩
  | restore =>
    have := restore_keeps h
    simp only [step]
    cases hr : restoreBestFit w s with
    | ub => trivial
    | throws s' => rw [hr] at this; exact this
    | ok s' a => rw [hr] at this; exact ⟨this.1, this.2.1, hff s' this.1 this.2.2⟩
  | save =>
    have := save_keeps hc h
    simp only [step]
    cases hr : saveCurrentFit w s with
    | ub => trivial
    | throws s' => rw [hr] at this; exact this
    | ok s' a => rw [hr] at this; exact ⟨this.1, this.2.1, hff s' this.1 this.2.2⟩

theorem run_good {w : World κ E G X} (hc : w.catchNeg = false) (ops : List (Op κ E G X)) :
    ∀ {s s' : L κ E G X}, Good w s → run w s ops = some s' → Good w s' := by
  induction ops with
  | nil => intro s s' h hr; simp only [run, Option.some.injEq] at hr; rw [← hr]; exact h
  | cons op ops ih =>
    intro s s' h hr
    have := step_keeps hc h op
    simp only [run] at hr
    cases hs : step w s op with
    | ub => rw [hs] at hr; cases hr
    | throws t => rw [hs] at hr this; exact ih this.1 hr
    | ok t a => rw [hs] at hr this; exact ih this.1 hr

theorem run_dirty {w : World κ E G X} (hc : w.catchNeg = false) (hi : w.newImp = true)
    (ops : List (Op κ E G X)) :
    ∀ {s s' : L κ E G X} (D : κ → Prop), Good w s → (∀ n, Stale w s n → D n) → run w s ops = some s' →
      ∀ n, Stale w s' n → dirty w s D ops n := by
  induction ops with
  | nil => intro s s' D h hD hr; simp only [run, Option.some.injEq] at hr; rw [← hr]; exact hD
  | cons op ops ih =>
    intro s s' D h hD hr
    have := step_keeps hc h op
    simp only [run] at hr
    cases hs : step w s op with
    | ub => rw [hs] at hr; cases hr
    | throws t =>
      rw [hs] at hr this
      simp only [dirty, hs]
      exact ih _ this.1 (fun n hn => (upd_stale h.toBase this.1.toBase this.2 hn).imp_left (hD n)) hr
    | ok t a =>
      rw [hs] at hr this
      simp only [dirty, hs]
      refine ih _ this.1 (fun n hn => ⟨?_, fun hre => ?_⟩) hr
      · exact (upd_stale h.toBase this.1.toBase this.2.1 hn).imp_left (hD n)
      · exact (stale_iff this.1.toBase n).mp hn (this.2.2 hi n hre)

end Verif.Unbinned
