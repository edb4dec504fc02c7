import Mathlib.Data.List.Nodup
import Verif.Readd.Spec
import Verif.Readd.Model
set_option linter.unusedVariables false
set_option linter.unusedSimpArgs false
set_option linter.unusedDecidableInType false
set_option linter.unusedSectionVars false
namespace Verif.Readd

variable {ν σ : Type} [DecidableEq ν] [DecidableEq σ] {c : Cfg}

/-- A map drawn for one place. -/
def OkMap (d : σ) (m : SMap σ) : Prop := m.psf = d ∧ ∀ i, m.img = some i → i = (d, d)

theorem ok_made (s : Src σ) : OkMap s.shape (made s) := ⟨rfl, fun i h => by cases h; rfl⟩

theorem ok_remake {d : σ} {m : SMap σ} (h : OkMap d m) {s : Src σ} (hs : s.shape = d) : OkMap d (remake m s) := by
  refine ⟨h.1, fun i hi => ?_⟩
  simp only [remake, Option.some.injEq] at hi
  rw [← hi, h.1, hs]

theorem ok_setSource {d : σ} {m : SMap σ} (h : OkMap d m) {s : Src σ} (hs : s.shape = d) : OkMap d (setSource c m s) := by
  unfold setSource
  split
  · split
    · exact ok_remake h hs
    · exact h
  · exact ⟨h.1, h.2⟩

theorem ok_reload {d : σ} {m : SMap σ} (h : OkMap d m) {s : Src σ} (hs : s.shape = d) :
    OkMap d (reload m s).1 ∧ (reload m s).2 = (d, d) := by
  unfold reload
  split
  · next i hi => exact ⟨h, h.2 i hi⟩
  · exact ⟨ok_remake h hs, by rw [hs, h.1]⟩

theorem ok_clear {d : σ} {m : SMap σ} (h : OkMap d m) : OkMap d (clear c m) := by
  unfold clear
  split
  · exact ⟨h.1, fun i hi => by cases hi⟩
  · exact h

/-- What the program holds is what is expected. -/
structure Rel (c : Cfg) (st : St ν σ) (w : World ν σ) : Prop where
  srcs : ∀ n, w.srcs n = (st.srcs n).map fun s => (s.shape, s.fixed)
  maps : ∀ n m, st.maps n = some m → ∃ d, w.drawn n = some d ∧ OkMap d m
  drawn : ∀ n s, st.srcs n = some s → w.drawn n = none ∨ w.drawn n = some s.shape
  names : ∀ n, n ∈ st.fixedNames ↔ c.single = true ∧ ∃ s, st.srcs n = some s ∧ s.fixed = true
  nodup : st.fixedNames.Nodup
  counts : ∀ a b, st.counts (a, b) = if a = b then w.sum a else 0
  npreds : ∀ a b, st.npreds (a, b) = if a = b then w.sum a else 0

theorem ok_getMap {st : St ν σ} {w : World ν σ} (h : Rel c st w) {n : ν} {s : Src σ}
    (hd : w.drawn n = none ∨ w.drawn n = some s.shape) : OkMap s.shape (getMap c st n s) := by
  unfold getMap
  cases hm : st.maps n with
  | none => exact ok_made s
  | some m =>
    obtain ⟨d, h1, h2⟩ := h.maps n m hm
    have : s.shape = d := by
      rcases hd with hd | hd
      · rw [hd] at h1; cases h1
      · rw [hd] at h1; exact Option.some.inj h1
    rw [this]
    exact ok_setSource h2 this

theorem bump_sum {f : σ × σ → Int} {g : σ → Int} (h : ∀ a b, f (a, b) = if a = b then g a else 0) (d : σ) (k : Int) (a b : σ) :
    bump f (d, d) k (a, b) = if a = b then (if a = d then g a + k else g a) else 0 := by
  unfold bump
  rw [h]
  by_cases hab : a = b
  · subst hab
    by_cases had : a = d
    · subst had; simp
    · simp [had]
  · have : (a, b) ≠ (d, d) := fun h => by cases h; exact hab rfl
    rw [if_neg this, if_neg hab, if_neg hab]

theorem rel_new : Rel c (St.new : St ν σ) World.empty :=
  ⟨fun _ => rfl, (fun _ _ h => by cases h), (fun _ _ h => by cases h), fun n => ⟨(fun h => by cases h), fun ⟨_, s, h, _⟩ => by cases h⟩,
    List.nodup_nil, fun a b => by simp [St.new, World.empty], fun a b => by simp [St.new, World.empty]⟩

/-- A map drawn at the right place is kept. -/
theorem rel_putMap {st : St ν σ} {w : World ν σ} (h : Rel c st w) {n : ν} {d : σ} {m : SMap σ} (hm : OkMap d m)
    (hd : ∀ s, st.srcs n = some s → s.shape = d) : Rel c (st.putMap n (some m)) (w.draw n d) where
  srcs := h.srcs
  maps := fun k m' hk => by
    simp only [St.putMap] at hk
    simp only [World.draw, upd]
    by_cases hkn : k = n
    · rw [if_pos hkn] at hk ⊢; cases hk; exact ⟨d, rfl, hm⟩
    · rw [if_neg hkn] at hk ⊢; exact h.maps k m' hk
  drawn := fun k s hk => by
    simp only [World.draw, upd]
    by_cases hkn : k = n
    · rw [if_pos hkn]; subst hkn; rw [hd s hk]; exact Or.inr rfl
    · rw [if_neg hkn]; exact h.drawn k s hk
  names := h.names
  nodup := h.nodup
  counts := h.counts
  npreds := h.npreds

/-- A map is erased. -/
theorem rel_erase {st : St ν σ} {w : World ν σ} (h : Rel c st w) (n : ν) :
    Rel c (st.putMap n none) { w with drawn := upd w.drawn n none } where
  srcs := h.srcs
  maps := fun k m' hk => by
    simp only [St.putMap] at hk
    simp only [upd]
    by_cases hkn : k = n
    · rw [if_pos hkn] at hk; cases hk
    · rw [if_neg hkn] at hk ⊢; exact h.maps k m' hk
  drawn := fun k s hk => by
    simp only [upd]
    by_cases hkn : k = n
    · rw [if_pos hkn]; exact Or.inl rfl
    · rw [if_neg hkn]; exact h.drawn k s hk
  names := h.names
  nodup := h.nodup
  counts := h.counts
  npreds := h.npreds

/-- A source that is not in the sum comes. -/
theorem rel_putSrc {st : St ν σ} {w : World ν σ} (h : Rel c st w) {n : ν} {s : Src σ} (hn : n ∉ st.fixedNames)
    (hf : ¬ (c.single = true ∧ s.fixed = true)) (hd : w.drawn n = none ∨ w.drawn n = some s.shape) :
    Rel c (st.putSrc n (some s)) { w with srcs := upd w.srcs n (some (s.shape, s.fixed)) } where
  srcs := fun k => by
    simp only [St.putSrc, upd]
    by_cases hkn : k = n
    · rw [if_pos hkn, if_pos hkn]; rfl
    · rw [if_neg hkn, if_neg hkn]; exact h.srcs k
  maps := h.maps
  drawn := fun k t hk => by
    simp only [St.putSrc] at hk
    by_cases hkn : k = n
    · rw [if_pos hkn] at hk; cases hk; rw [hkn]; exact hd
    · rw [if_neg hkn] at hk; exact h.drawn k t hk
  names := fun k => by
    simp only [St.putSrc]
    by_cases hkn : k = n
    · subst hkn
      simp only [if_true]
      exact ⟨fun hh => absurd hh hn, fun ⟨h1, t, h2, h3⟩ => absurd ⟨h1, by cases h2; exact h3⟩ hf⟩
    · simp only [if_neg hkn]; exact h.names k
  nodup := h.nodup
  counts := h.counts
  npreds := h.npreds

theorem not_mem_of_none {st : St ν σ} {w : World ν σ} (h : Rel c st w) {n : ν} (hn : w.srcs n = none) :
    st.srcs n = none ∧ n ∉ st.fixedNames := by
  have h1 : st.srcs n = none := by
    have := h.srcs n
    rw [hn] at this
    cases hs : st.srcs n with
    | none => rfl
    | some s => rw [hs] at this; cases this
  refine ⟨h1, fun hm => ?_⟩
  obtain ⟨_, s, hs, _⟩ := (h.names n).1 hm
  rw [h1] at hs; cases hs

theorem stored_shape (s : Src σ) (k : Option Nat) : (stored s k).shape = s.shape ∧ (stored s k).fixed = s.fixed := by
  unfold stored; cases k <;> exact ⟨rfl, rfl⟩

/-- A fixed source comes. -/
theorem rel_addFixed {st : St ν σ} {w : World ν σ} (h : Rel c st w) {n : ν} {s : Src σ} (hn : w.srcs n = none)
    (hsg : c.single = true) (hf : s.fixed = true) (hd : w.drawn n = none ∨ w.drawn n = some s.shape) :
    ∃ st', addFixed c (st.putSrc n (some s)) n s = .ok st' ∧
      Rel c st' ((({ w with srcs := upd w.srcs n (some (s.shape, s.fixed)) } : World ν σ).count 1 s.shape).draw n s.shape) := by
  obtain ⟨h1, h2⟩ := not_mem_of_none h hn
  unfold addFixed
  rw [if_neg (by exact h2)]
  have g0 : OkMap s.shape (getMap c (st.putSrc n (some s)) n s) := ok_getMap h hd
  obtain ⟨g1, g2⟩ := ok_reload g0 rfl
  obtain ⟨g3, g4⟩ := ok_reload (ok_clear (c := c) g1) (s := s) rfl
  refine ⟨_, rfl, ?_⟩
  constructor
  · intro k
    simp only [St.putSrc, St.putMap, World.draw, World.count, upd]
    by_cases hkn : k = n
    · rw [if_pos hkn, if_pos hkn]; rfl
    · rw [if_neg hkn, if_neg hkn]; exact h.srcs k
  · intro k m hk
    simp only [St.putSrc, St.putMap] at hk
    simp only [World.draw, World.count, upd]
    by_cases hkn : k = n
    · rw [if_pos hkn] at hk ⊢; cases hk; exact ⟨_, rfl, ok_clear g3⟩
    · rw [if_neg hkn] at hk ⊢; exact h.maps k m hk
  · intro k t hk
    simp only [St.putSrc, St.putMap] at hk
    simp only [World.draw, World.count, upd]
    by_cases hkn : k = n
    · rw [if_pos hkn] at hk ⊢; cases hk; exact Or.inr rfl
    · rw [if_neg hkn] at hk ⊢; exact h.drawn k t hk
  · intro k
    simp only [St.putSrc, St.putMap, List.mem_append, List.mem_singleton]
    by_cases hkn : k = n
    · subst hkn
      simp only [if_true]
      exact ⟨fun _ => ⟨hsg, s, rfl, hf⟩, fun _ => Or.inr trivial⟩
    · simp only [if_neg hkn]
      rw [← h.names k]
      exact ⟨fun hh => hh.resolve_right hkn, Or.inl⟩
  · show (st.fixedNames ++ [n]).Nodup
    rw [List.nodup_append]
    exact ⟨h.nodup, List.nodup_singleton _, fun a ha b hb => by rw [List.mem_singleton] at hb; subst hb; exact fun e => h2 (e ▸ ha)⟩
  · intro a b
    simp only [World.draw, World.count]
    rw [show (reload (getMap c (st.putSrc n (some s)) n s) s).2 = (s.shape, s.shape) from g2]
    exact bump_sum h.counts s.shape 1 a b
  · intro a b
    simp only [World.draw, World.count]
    rw [show (reload (clear c (reload (getMap c (st.putSrc n (some s)) n s) s).1) s).2 = (s.shape, s.shape) from g4]
    exact bump_sum h.npreds s.shape 1 a b

/-- A source goes. -/
theorem rel_delete {st : St ν σ} {w : World ν σ} (h : Rel c st w) {n : ν} {s : Src σ} (hs : st.srcs n = some s) :
    ∃ st', deleteSource c st n = .ok st' ∧ Rel c st' (w.gone c n) := by
  have hw : w.srcs n = some (s.shape, s.fixed) := by rw [h.srcs, hs]; rfl
  unfold deleteSource
  rw [hs]
  simp only [World.gone, hw]
  by_cases hm : n ∈ st.fixedNames
  · obtain ⟨hsg, t, ht, hf⟩ := (h.names n).1 hm
    rw [hs] at ht; cases ht
    rw [if_pos hm, if_pos ⟨hsg, hf⟩]
    have g0 : OkMap s.shape (getMap c st n s) := ok_getMap h (h.drawn n s hs)
    obtain ⟨g1, g2⟩ := ok_reload g0 rfl
    refine ⟨_, rfl, ?_⟩
    constructor
    · intro k
      simp only [St.putSrc, St.putMap, World.draw, World.count, upd]
      by_cases hkn : k = n
      · rw [if_pos hkn, if_pos hkn]; rfl
      · rw [if_neg hkn, if_neg hkn]; exact h.srcs k
    · intro k m hk
      simp only [St.putSrc, St.putMap] at hk
      simp only [World.draw, World.count, upd]
      by_cases hkn : k = n
      · rw [if_pos hkn] at hk ⊢; cases hk; exact ⟨_, rfl, ok_clear g1⟩
      · rw [if_neg hkn] at hk ⊢; exact h.maps k m hk
    · intro k t hk
      simp only [St.putSrc, St.putMap] at hk
      simp only [World.draw, World.count, upd]
      by_cases hkn : k = n
      · rw [if_pos hkn] at hk; cases hk
      · rw [if_neg hkn] at hk ⊢; exact h.drawn k t hk
    · intro k
      simp only [St.putSrc, St.putMap]
      rw [h.nodup.mem_erase_iff]
      by_cases hkn : k = n
      · subst hkn
        simp only [if_true, ne_eq, not_true_eq_false, false_and, false_iff]
        rintro ⟨_, t, ht, _⟩; cases ht
      · simp only [if_neg hkn, ne_eq, hkn, not_false_eq_true, true_and]
        exact h.names k
    · exact h.nodup.erase n
    · intro a b
      simp only [World.draw, World.count, St.putSrc, St.putMap]
      rw [show (reload (getMap c st n s) s).2 = (s.shape, s.shape) from g2]
      exact bump_sum h.counts s.shape (-1) a b
    · intro a b
      simp only [World.draw, World.count, St.putSrc, St.putMap]
      rw [show (reload (getMap c st n s) s).2 = (s.shape, s.shape) from g2]
      exact bump_sum h.npreds s.shape (-1) a b
  · have hnf : ¬ (c.single = true ∧ s.fixed = true) := fun ⟨h1, h2⟩ => hm ((h.names n).2 ⟨h1, s, hs, h2⟩)
    rw [if_neg hm, if_neg hnf]
    refine ⟨_, rfl, ?_⟩
    constructor
    · intro k
      simp only [St.putSrc, upd]
      by_cases hkn : k = n
      · rw [if_pos hkn, if_pos hkn]; rfl
      · rw [if_neg hkn, if_neg hkn]; exact h.srcs k
    · exact h.maps
    · intro k t hk
      simp only [St.putSrc] at hk
      by_cases hkn : k = n
      · rw [if_pos hkn] at hk; cases hk
      · rw [if_neg hkn] at hk; exact h.drawn k t hk
    · intro k
      simp only [St.putSrc]
      by_cases hkn : k = n
      · subst hkn
        simp only [if_true]
        exact ⟨fun hh => absurd hh hm, fun ⟨_, t, ht, _⟩ => by cases ht⟩
      · simp only [if_neg hkn]; exact h.names k
    · exact h.nodup
    · exact h.counts
    · exact h.npreds

/-- A good operation. -/
theorem rel_step {st : St ν σ} {w : World ν σ} (h : Rel c st w) {o : Op ν σ} (hg : Good c w o) :
    ∃ st', step c st o = .ok st' ∧ Rel c st' (w.step c o) := by
  cases o with
  | add n s k load =>
    obtain ⟨g1, g2⟩ := hg
    obtain ⟨h1, h2⟩ := not_mem_of_none h g1
    obtain ⟨e1, e2⟩ := stored_shape s k
    simp only [step, addSource, h1, Option.isSome_none, Bool.false_eq_true, if_false, World.step]
    by_cases hf : c.single = true ∧ s.fixed = true
    · rw [if_pos hf, if_pos hf]
      have := rel_addFixed (s := stored s k) h g1 hf.1 (by rw [e2]; exact hf.2) (by rw [e1]; exact g2)
      rwa [e1, e2] at this
    · rw [if_neg hf, if_neg hf]
      have hr := rel_putSrc (s := stored s k) h h2 (by rw [e2]; exact hf) (by rw [e1]; exact g2)
      rw [e1, e2] at hr
      cases load with
      | false => exact ⟨_, rfl, hr⟩
      | true =>
        simp only [if_true]
        refine ⟨_, rfl, rel_putMap hr (ok_getMap hr (s := s) (by exact g2)) fun t ht => ?_⟩
        simp only [St.putSrc, if_true, Option.some.injEq] at ht
        rw [← ht, e1]
  | addNew n s k =>
    obtain ⟨g1, g2⟩ := hg
    obtain ⟨h1, h2⟩ := not_mem_of_none h g1
    obtain ⟨e1, e2⟩ := stored_shape s k
    simp only [step, addSource, h1, Option.isSome_none, Bool.false_eq_true, if_false, World.step, if_true]
    by_cases hf : c.single = true ∧ s.fixed = true
    · rw [if_pos hf, if_pos hf]
      have := rel_addFixed (s := stored s k) h g1 hf.1 (by rw [e2]; exact hf.2) (by rw [e1]; exact g2 hf)
      rwa [e1, e2] at this
    · rw [if_neg hf, if_neg hf]
      have hr := rel_putSrc (s := stored s k) (rel_erase h n) h2 (by rw [e2]; exact hf) (by left; simp [upd])
      rw [e1, e2] at hr
      refine ⟨_, rfl, ?_⟩
      have hr2 := rel_putMap hr (ok_made s) (n := n) fun t ht => by
        have ht' : some (stored s k) = some t := by simpa [St.putSrc] using ht
        cases ht'
        exact e1
      have ew : World.draw ({ w with drawn := upd w.drawn n none, srcs := upd w.srcs n (some (s.shape, s.fixed)) } : World ν σ) n s.shape
          = World.draw { w with srcs := upd w.srcs n (some (s.shape, s.fixed)) } n s.shape := by
        simp only [World.draw, World.mk.injEq, true_and, and_true]
        funext j
        simp only [upd]
        split <;> rfl
      rw [← ew]
      exact hr2
  | delete n =>
    cases hs : st.srcs n with
    | none => exact absurd (by rw [h.srcs, hs]; rfl) hg
    | some s => exact rel_delete h hs
  | remove n =>
    simp only [step, removeSource, World.step]
    cases hs : st.srcs n with
    | none =>
      have : w.srcs n = none := by rw [h.srcs, hs]; rfl
      simp only [this]
      exact ⟨_, rfl, h⟩
    | some s =>
      have : w.srcs n = some (s.shape, s.fixed) := by rw [h.srcs, hs]; rfl
      simp only [this]
      obtain ⟨st', h1, h2⟩ := rel_delete h hs
      rw [h1, Res.bind_ok]
      cases s.fixed with
      | true => exact ⟨_, rfl, h2⟩
      | false => exact ⟨_, rfl, rel_erase h2 n⟩
  | erase n => exact ⟨_, rfl, rel_erase h n⟩
  | move n d =>
    obtain ⟨a, f, g1, g2, g3⟩ := hg
    cases hs : st.srcs n with
    | none => rw [h.srcs, hs] at g1; cases g1
    | some s =>
      have hh : w.srcs n = some (s.shape, s.fixed) := by rw [h.srcs, hs]; rfl
      rw [g1] at hh; cases hh
      simp only [step, hs, World.step, g1]
      refine ⟨_, rfl, ?_⟩
      constructor
      · intro k
        simp only [St.putSrc, upd]
        by_cases hkn : k = n
        · rw [if_pos hkn, if_pos hkn]; rfl
        · rw [if_neg hkn, if_neg hkn]; exact h.srcs k
      · exact h.maps
      · intro k t hk
        simp only [St.putSrc] at hk
        by_cases hkn : k = n
        · rw [if_pos hkn] at hk; cases hk; rw [hkn]; exact g2
        · rw [if_neg hkn] at hk; exact h.drawn k t hk
      · intro k
        simp only [St.putSrc]
        by_cases hkn : k = n
        · subst hkn
          simp only [if_true]
          rw [h.names k, hs]
          simp
        · simp only [if_neg hkn]; exact h.names k
      · exact h.nodup
      · exact h.counts
      · exact h.npreds
  | use n =>
    simp only [step, use, World.step]
    cases hs : st.srcs n with
    | none =>
      have : w.srcs n = none := by rw [h.srcs, hs]; rfl
      simp only [this]
      exact ⟨_, rfl, h⟩
    | some s =>
      have : w.srcs n = some (s.shape, s.fixed) := by rw [h.srcs, hs]; rfl
      simp only [this]
      obtain ⟨g1, g2⟩ := ok_reload (ok_getMap h (h.drawn n s hs)) (s := s) rfl
      refine ⟨_, rfl, rel_putMap h ?_ fun t ht => by rw [hs] at ht; cases ht; rfl⟩
      split
      · exact ok_clear g1
      · exact g1
  | compute n =>
    cases hs : st.srcs n with
    | none => exact absurd (by rw [h.srcs, hs]; rfl) hg
    | some s =>
      simp only [step, compute, hs, Res.bind_ok, World.step]
      obtain ⟨g1, g2⟩ := ok_reload (ok_getMap h (h.drawn n s hs)) (s := s) rfl
      refine ⟨_, rfl, ?_⟩
      cases hm : st.maps n with
      | none =>
        simp only [Option.isSome_none, Bool.false_eq_true, if_false]
        have : (st.putMap n (some (reload (getMap c st n s) s).1)).putMap n none = st := by
          unfold St.putMap
          cases st
          simp only [St.mk.injEq, true_and, and_true]
          funext k
          by_cases hk : k = n
          · simp only [if_pos hk]; rw [hk]; exact hm.symm
          · simp only [if_neg hk]
        rw [this]; exact h
      | some m =>
        simp only [Option.isSome_some, if_true]
        obtain ⟨d, hd, _⟩ := h.maps n m hm
        have hds : d = s.shape := by
          rcases h.drawn n s hs with hh | hh
          · rw [hd] at hh; cases hh
          · rw [hd] at hh; exact Option.some.inj hh
        have hw : w.draw n s.shape = w := by
          unfold World.draw
          cases w
          simp only [World.mk.injEq, true_and, and_true]
          funext k
          simp only [upd]
          by_cases hk : k = n
          · rw [if_pos hk, hk, ← hds]; exact hd.symm
          · rw [if_neg hk]
        have := rel_putMap h g1 (n := n) fun t ht => by rw [hs] at ht; cases ht; rfl
        rwa [hw] at this

theorem rel_run {ops : List (Op ν σ)} {st : St ν σ} {w : World ν σ} (h : Rel c st w) (hg : AllGood c w ops) :
    ∃ st', run c st ops = .ok st' ∧ Rel c st' (w.run c ops) := by
  induction ops generalizing st w with
  | nil => exact ⟨st, rfl, h⟩
  | cons o l ih =>
    obtain ⟨s1, h1, h2⟩ := rel_step h hg.1
    obtain ⟨s2, h3, h4⟩ := ih h2 hg.2
    exact ⟨s2, by simp only [run, h1, Res.bind_ok]; exact h3, h4⟩

theorem rel_image {st : St ν σ} {w : World ν σ} (h : Rel c st w) (n : ν) :
    image c st n = (w.srcs n).map fun p => (p.1, p.1) := by
  unfold image use
  cases hs : st.srcs n with
  | none => rw [h.srcs, hs]; rfl
  | some s =>
    obtain ⟨g1, g2⟩ := ok_reload (ok_getMap h (h.drawn n s hs)) (s := s) rfl
    rw [h.srcs, hs]
    exact congrArg some g2

end Verif.Readd
