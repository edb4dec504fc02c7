import Verif.SrcProb.Model
import Verif.SrcProb.Spec
import Mathlib.Tactic.Linarith
import Mathlib.Tactic.NormNum
import Mathlib.Tactic.Ring
import Mathlib.Algebra.Order.BigOperators.Group.List
import Mathlib.Data.List.Perm.Basic
import Mathlib.Data.List.Nodup
import Mathlib.Algebra.Order.Field.Basic
set_option linter.unusedSectionVars false
set_option linter.unusedSimpArgs false
set_option linter.unusedVariables false
/-
C105: probabilities of events.
-/
namespace Verif.SrcProb
open Verif Spec

theorem asked_iff (c : Cfg) (n : Name) : asked c n ↔ n ∈ sources c := by
  unfold asked sources
  cases c.list <;> simp

/-! ### Columns -/

theorem prepare_ok (columns : Cols) : ∀ (ns : List Name) (cols : Cols), (ns.map low).Nodup →
    (∀ n ∈ ns, columns (low n) = none → cols (low n) = none) →
    (∀ k, (columns k).isSome → cols k = columns k) →
    ∃ cols', prepare columns ns cols = .ok cols' ∧ (∀ n ∈ ns, (cols' (low n)).isSome) ∧
      ∀ k, k ∉ ns.map low → cols' k = cols k
  | [], cols, _, _, _ => ⟨cols, rfl, by simp, fun _ _ => rfl⟩
  | n :: ns, cols, hn, h1, h2 => by
    rw [List.map_cons, List.nodup_cons] at hn
    rw [prepare]
    by_cases hc : (columns (low n)).isNone
    · have hc' : columns (low n) = none := Option.isNone_iff_eq_none.1 hc
      rw [if_pos hc]
      have happ : append cols n = .ok fun k => if k = low n then some (fun _ => some 0) else cols k := by
        unfold append; rw [h1 n List.mem_cons_self hc']
      rw [happ, Res.bind_ok]
      obtain ⟨cols', p1, p2, p3⟩ := prepare_ok columns ns (fun k => if k = low n then some (fun _ => some 0) else cols k) hn.2
        (by
          intro m hm hcm
          have : low m ≠ low n := fun e => hn.1 (e ▸ List.mem_map_of_mem hm)
          simp only [if_neg this]
          exact h1 m (List.mem_cons_of_mem _ hm) hcm)
        (by
          intro k hk
          have : k ≠ low n := by rintro rfl; rw [hc'] at hk; cases hk
          simp only [if_neg this]
          exact h2 k hk)
      refine ⟨cols', p1, ?_, ?_⟩
      · intro m hm
        rcases List.mem_cons.1 hm with rfl | hm
        · rw [p3 _ hn.1]; simp
        · exact p2 m hm
      · intro k hk
        simp only [List.map_cons, List.mem_cons, not_or] at hk
        rw [p3 k hk.2]
        simp only [if_neg hk.1]
    · rw [if_neg hc]
      have hs : (columns (low n)).isSome := by
        cases h : columns (low n) with
        | none => rw [h] at hc; exact absurd rfl hc
        | some _ => rfl
      obtain ⟨cols', p1, p2, p3⟩ := prepare_ok columns ns cols hn.2 (fun m hm => h1 m (List.mem_cons_of_mem _ hm)) h2
      refine ⟨cols', p1, ?_, ?_⟩
      · intro m hm
        rcases List.mem_cons.1 hm with rfl | hm
        · rw [p3 _ hn.1, h2 _ hs]; exact hs
        · exact p2 m hm
      · intro k hk
        simp only [List.map_cons, List.mem_cons, not_or] at hk
        exact p3 k hk.2

theorem densities_ok {es : List Nat} {j e : Nat} (he : es[j]? = some e) (model : List Src) :
    ∃ d, densities model es j = .ok d ∧ d.2 = total model e ∧
      (Proper model → ∀ x ∈ model, d.1 x.name = some (x.dens e)) ∧ ∀ n, n ∉ model.map Src.name → d.1 n = none := by
  have key : ∀ (model : List Src) (s : (Name → Option ℝ) × ℝ), ∃ d,
      model.foldlM (addDens es j) s = .ok d ∧
      d.2 = s.2 + total model e ∧ (Proper model → ∀ x ∈ model, d.1 x.name = some (x.dens e)) ∧
      ∀ n, n ∉ model.map Src.name → d.1 n = s.1 n := by
    intro model
    induction model with
    | nil => exact fun s => ⟨s, rfl, by simp [total], by simp, fun _ _ => rfl⟩
    | cons x xs ih =>
      intro s
      obtain ⟨d, h1, h2, h3, h4⟩ := ih (fun k => if k = x.name then some (x.dens e) else s.1 k, s.2 + x.dens e)
      refine ⟨d, ?_, ?_, ?_, ?_⟩
      · rw [List.foldlM_cons, addDens, he]
        exact h1
      · rw [h2]; simp only [total, List.map_cons, List.sum_cons]; ring
      · intro hp y hy
        unfold Proper at hp
        rw [List.map_cons, List.nodup_cons] at hp
        rcases List.mem_cons.1 hy with rfl | hy
        · rw [h4 _ hp.1]; simp
        · exact h3 hp.2 y hy
      · intro n hn
        simp only [List.map_cons, List.mem_cons, not_or] at hn
        rw [h4 n hn.2]
        simp only [if_neg hn.1]
  obtain ⟨d, h1, h2, h3, h4⟩ := key model (fun _ => none, 0)
  exact ⟨d, h1, by rw [h2, zero_add], h3, fun n hn => h4 n hn⟩

theorem writeRow_ok (d : (Name → Option ℝ) × ℝ) (j : Nat) : ∀ (ns : List Name) (cols : Cols), (ns.map low).Nodup →
    (∀ n ∈ ns, (cols (low n)).isSome) →
    ∃ cols', writeRow d j ns cols = .ok cols' ∧ (∀ k, k ∉ ns.map low → cols' k = cols k) ∧
      ∀ n ∈ ns, ∃ a b, cols (low n) = some a ∧ cols' (low n) = some b ∧
        b j = quot ((d.1 n).getD 0) d.2 ∧ ∀ i, i ≠ j → b i = a i
  | [], cols, _, _ => ⟨cols, rfl, fun _ _ => rfl, by simp⟩
  | n :: ns, cols, hn, h1 => by
    rw [List.map_cons, List.nodup_cons] at hn
    obtain ⟨a, ha⟩ := Option.isSome_iff_exists.1 (h1 n List.mem_cons_self)
    have hset : setCell cols n j (quot ((d.1 n).getD 0) d.2) = .ok fun k => if k = low n then
        some (fun i => if i = j then quot ((d.1 n).getD 0) d.2 else a i) else cols k := by
      unfold setCell; rw [ha]
    obtain ⟨cols', p1, p2, p3⟩ := writeRow_ok d j ns (fun k => if k = low n then
        some (fun i => if i = j then quot ((d.1 n).getD 0) d.2 else a i) else cols k) hn.2 (by
      intro m hm
      have : low m ≠ low n := fun e => hn.1 (e ▸ List.mem_map_of_mem hm)
      simp only [if_neg this]
      exact h1 m (List.mem_cons_of_mem _ hm))
    refine ⟨cols', ?_, ?_, ?_⟩
    · rw [writeRow, hset, Res.bind_ok, p1]
    · intro k hk
      simp only [List.map_cons, List.mem_cons, not_or] at hk
      rw [p2 k hk.2]
      simp only [if_neg hk.1]
    · intro m hm
      rcases List.mem_cons.1 hm with rfl | hm
      · refine ⟨a, _, ha, by rw [p2 _ hn.1]; exact if_pos rfl, by simp, fun i hi => by simp [hi]⟩
      · obtain ⟨a', b', q1, q2, q3, q4⟩ := p3 m hm
        have : low m ≠ low n := fun e => hn.1 (e ▸ List.mem_map_of_mem hm)
        simp only [if_neg this] at q1
        exact ⟨a', b', q1, q2, q3, q4⟩

/-- What a cell is set to. -/
noncomputable def cellOf (model : List Src) (n : Name) (e : Nat) : Option ℝ :=
  open Classical in
  if total model e = 0 then none
  else match model.find? fun x => decide (x.name = n) with
    | none => some 0
    | some x => some (prob model x e)

theorem cellOf_eq {model : List Src} (hp : Proper model) {es : List Nat} {j e : Nat} (he : es[j]? = some e)
    {d : (Name → Option ℝ) × ℝ} (hd : densities model es j = .ok d) (n : Name) :
    quot ((d.1 n).getD 0) d.2 = cellOf model n e := by
  classical
  obtain ⟨d', h1, h2, h3, h4⟩ := densities_ok he model
  cases hd.symm.trans h1
  unfold quot cellOf
  rw [h2]
  by_cases h0 : total model e = 0
  · rw [if_pos h0, if_pos h0]
  · rw [if_neg h0, if_neg h0]
    cases hf : model.find? fun x => decide (x.name = n) with
    | none =>
      have : n ∉ model.map Src.name := by
        intro hm
        obtain ⟨x, hx, rfl⟩ := List.mem_map.1 hm
        have := List.find?_eq_none.1 hf x hx
        simp at this
      rw [h4 n this]
      simp
    | some x =>
      have hx := List.mem_of_find?_eq_some hf
      have hn : x.name = n := by simpa using List.find?_some hf
      rw [← hn, h3 hp x hx]
      simp [prob]

/-- All columns after a run. -/
theorem run_ok {c : Cfg} {f : EvFile} (hp : Proper c.model) (hn : ((sources c).map low).Nodup)
    (ha : ∀ j < f.nrow, c.accept (f.ev j) = true) :
    ∃ f', run c f = .ok f' ∧ f'.nrow = f.nrow ∧ f'.ev = f.ev ∧
      (∀ k, k ∉ (sources c).map low → f'.cols k = f.cols k) ∧
      ∀ n ∈ sources c, ∃ b, f'.cols (low n) = some b ∧ ∀ j < f.nrow, b j = cellOf c.model n (f.ev j) := by
  obtain ⟨c0, p1, p2, p3⟩ := prepare_ok f.cols (sources c) f.cols hn (fun _ _ h => h) (fun _ _ => rfl)
  have hev : events c f = (List.range f.nrow).map f.ev := by
    unfold events
    rw [List.filter_eq_self]
    intro e he
    obtain ⟨j, hj, rfl⟩ := List.mem_map.1 he
    exact ha j (List.mem_range.1 hj)
  have he : ∀ j < f.nrow, (events c f)[j]? = some (f.ev j) := by
    intro j hj
    rw [hev]; simp [hj]
  obtain ⟨c1, q1, q2, q3⟩ := loop_inv (lo := 0) (n := f.nrow) (s := c0) (body := fun j cols => do
      let d ← densities c.model (events c f) j
      writeRow d j (sources c) cols)
    (fun n cols' => (∀ k, k ∉ (sources c).map low → cols' k = c0 k) ∧
      ∀ m ∈ sources c, ∃ b, cols' (low m) = some b ∧ ∀ j < n, b j = cellOf c.model m (f.ev j))
    ⟨fun _ _ => rfl, fun m hm => by
      obtain ⟨b, hb⟩ := Option.isSome_iff_exists.1 (p2 m hm)
      exact ⟨b, hb, by simp⟩⟩
    (by
      rintro n c1 - hle ⟨q2, q3⟩
      obtain ⟨d, d1, -⟩ := densities_ok (he n (by omega)) c.model
      obtain ⟨c2, r1, r2, r3⟩ := writeRow_ok d n (sources c) c1 hn (by
        intro m hm
        obtain ⟨b, hb, -⟩ := q3 m hm
        rw [hb]; rfl)
      refine ⟨c2, ?_, ?_, ?_⟩
      · rw [d1, Res.bind_ok, r1]
      · intro k hk
        rw [r2 k hk, q2 k hk]
      · intro m hm
        obtain ⟨b, hb, hb'⟩ := q3 m hm
        obtain ⟨a, b2, s1, s2, s3, s4⟩ := r3 m hm
        cases hb.symm.trans s1
        refine ⟨b2, s2, fun j hj => ?_⟩
        by_cases e : j = n
        · subst e
          rw [s3, cellOf_eq hp (he j (by omega)) d1]
        · rw [s4 j e, hb' j (by omega)])
  rw [Nat.zero_add] at q3
  refine ⟨{ f with cols := c1 }, ?_, rfl, rfl, ?_, q3⟩
  · rw [run, p1, Res.bind_ok, q1, Res.bind_ok]
  · intro k hk
    exact (q2 k hk).trans (p3 k hk)

/-! ### C105 -/

/-- The lists are in order: sources have different names, and names asked for differ in more than
case. -/
def Fine (c : Cfg) : Prop := Proper c.model ∧ ((sources c).map low).Nodup

/-- **C105.**  If all events of the file are in its region of interest, the file gets for each source of
the model that is asked for, and for each event with a density that is not zero, the share of the source in
the density of all sources; columns of other names are not touched. -/
theorem C105_probabilities_partial {c : Cfg} {f : EvFile} (h : Fine c) (ha : ∀ j < f.nrow, c.accept (f.ev j) = true) :
    ∃ f', run c f = .ok f' ∧ f'.nrow = f.nrow ∧ f'.ev = f.ev ∧
      (∀ x ∈ c.model, asked c x.name → ∃ b, f'.cols (low x.name) = some b ∧
        ∀ j < f.nrow, total c.model (f.ev j) ≠ 0 → b j = some (prob c.model x (f.ev j))) ∧
      ∀ k, (∀ n, asked c n → low n ≠ k) → f'.cols k = f.cols k := by
  classical
  obtain ⟨f', h1, h2, h3, h4, h5⟩ := run_ok h.1 h.2 ha
  refine ⟨f', h1, h2, h3, ?_, ?_⟩
  · intro x hx hn
    obtain ⟨b, hb, hb'⟩ := h5 _ ((asked_iff c _).1 hn)
    refine ⟨b, hb, fun j hj ht => ?_⟩
    rw [hb' j hj]
    unfold cellOf
    rw [if_neg ht]
    cases hf : c.model.find? fun y => decide (y.name = x.name) with
    | none =>
      have := List.find?_eq_none.1 hf x hx
      simp at this
    | some y =>
      have hy := List.mem_of_find?_eq_some hf
      have hyn : y.name = x.name := by simpa using List.find?_some hf
      have : y = x := List.inj_on_of_nodup_map h.1 hy hx hyn
      rw [this]
  · intro k hk
    apply h4
    intro hm
    obtain ⟨n, hn, e⟩ := List.mem_map.1 hm
    exact hk n ((asked_iff c n).2 hn) e

/-- Shares of densities that are not negative are probabilities: each is between 0 and 1, and those of
all sources add up to 1. -/
theorem C105_normalized (model : List Src) (e : Nat) (h : ∀ x ∈ model, 0 ≤ x.dens e) (ht : total model e ≠ 0) :
    (∀ x ∈ model, 0 ≤ prob model x e ∧ prob model x e ≤ 1) ∧ (model.map fun x => prob model x e).sum = 1 := by
  have h0 : 0 ≤ total model e := List.sum_nonneg (by
    intro y hy
    obtain ⟨x, hx, rfl⟩ := List.mem_map.1 hy
    exact h x hx)
  have hpos : 0 < total model e := lt_of_le_of_ne h0 (Ne.symm ht)
  refine ⟨fun x hx => ⟨div_nonneg (h x hx) h0, ?_⟩, ?_⟩
  · unfold prob
    rw [div_le_one hpos]
    exact List.single_le_sum (by
      intro y hy
      obtain ⟨z, hz, rfl⟩ := List.mem_map.1 hy
      exact h z hz) _ (List.mem_map_of_mem hx)
  · unfold prob
    have : ∀ l : List Src, (l.map fun x => x.dens e / total model e).sum = (l.map fun x => x.dens e).sum / total model e := by
      intro l
      induction l with
      | nil => simp
      | cons x xs ih => simp only [List.map_cons, List.sum_cons, ih, add_div]
    rw [this]
    exact div_self ht

/-- The columns that a run over an event file with all sources writes add up to 1 in each row. -/
theorem C105_rows_partial {c : Cfg} {f : EvFile} (h : Fine c) (hl : c.list = none)
    (ha : ∀ j < f.nrow, c.accept (f.ev j) = true) (hd : ∀ x ∈ c.model, ∀ j < f.nrow, 0 ≤ x.dens (f.ev j)) :
    ∃ (f' : EvFile) (p : Name → Nat → ℝ), run c f = .ok f' ∧
      ∀ j < f.nrow, total c.model (f.ev j) ≠ 0 →
        (∀ x ∈ c.model, (∃ b, f'.cols (low x.name) = some b ∧ b j = some (p x.name j)) ∧ 0 ≤ p x.name j ∧ p x.name j ≤ 1) ∧
        (c.model.map fun x => p x.name j).sum = 1 := by
  classical
  obtain ⟨f', h1, -, -, h4, -⟩ := C105_probabilities_partial h ha
  refine ⟨f', fun n j => match c.model.find? fun y => decide (y.name = n) with
    | none => 0
    | some y => prob c.model y (f.ev j), h1, fun j hj ht => ?_⟩
  have hfind : ∀ x ∈ c.model, c.model.find? (fun y => decide (y.name = x.name)) = some x := by
    intro x hx
    cases hf : c.model.find? fun y => decide (y.name = x.name) with
    | none =>
      have := List.find?_eq_none.1 hf x hx
      simp at this
    | some y =>
      have hy := List.mem_of_find?_eq_some hf
      have hyn : y.name = x.name := by simpa using List.find?_some hf
      rw [List.inj_on_of_nodup_map h.1 hy hx hyn]
  have hN := C105_normalized c.model (f.ev j) (fun x hx => hd x hx j hj) ht
  constructor
  · intro x hx
    simp only [hfind x hx]
    obtain ⟨b, hb, hb'⟩ := h4 x hx (by unfold asked; rw [hl]; exact ⟨x, hx, rfl⟩)
    exact ⟨⟨b, hb, hb' j hj ht⟩, hN.1 x hx⟩
  · rw [← hN.2]
    congr 1
    apply List.map_congr_left
    intro x hx
    simp only [hfind x hx]

/-- **C105, histories.**  After any sequence of runs, each on the output of the one before, a column that was
asked for holds the shares of the last run that was asked for it; the others are as they were. -/
theorem C105_history_partial (cs : List Cfg) (f : EvFile) (h : ∀ c ∈ cs, Fine c)
    (ha : ∀ c ∈ cs, ∀ j < f.nrow, c.accept (f.ev j) = true) :
    ∃ f', runs cs f = .ok f' ∧ f'.nrow = f.nrow ∧ f'.ev = f.ev ∧
      ∀ pre post, ∀ c, cs = pre ++ c :: post →
        (∀ x ∈ c.model, asked c x.name → (∀ d ∈ post, ∀ n, asked d n → low n ≠ low x.name) →
          ∃ b, f'.cols (low x.name) = some b ∧
            ∀ j < f.nrow, total c.model (f.ev j) ≠ 0 → b j = some (prob c.model x (f.ev j))) ∧
        ∀ k, (∀ d ∈ cs, ∀ n, asked d n → low n ≠ k) → f'.cols k = f.cols k := by
  have keep : ∀ (cs : List Cfg) (f : EvFile), (∀ c ∈ cs, Fine c) → (∀ c ∈ cs, ∀ j < f.nrow, c.accept (f.ev j) = true) →
      ∃ f', runs cs f = .ok f' ∧ f'.nrow = f.nrow ∧ f'.ev = f.ev ∧
        ∀ k, (∀ d ∈ cs, ∀ n, asked d n → low n ≠ k) → f'.cols k = f.cols k := by
    intro cs
    induction cs with
    | nil => exact fun f _ _ => ⟨f, rfl, rfl, rfl, fun _ _ => rfl⟩
    | cons c cs ih =>
      intro f h ha
      obtain ⟨f1, p1, p2, p3, -, p5⟩ := C105_probabilities_partial (h c List.mem_cons_self) (ha c List.mem_cons_self)
      obtain ⟨f2, q1, q2, q3, q4⟩ := ih f1 (fun d hd => h d (List.mem_cons_of_mem _ hd))
        (fun d hd => by rw [p2, p3]; exact ha d (List.mem_cons_of_mem _ hd))
      refine ⟨f2, by rw [runs, p1, Res.bind_ok, q1], q2.trans p2, q3.trans p3, fun k hk => ?_⟩
      rw [q4 k fun d hd => hk d (List.mem_cons_of_mem _ hd), p5 k (hk c List.mem_cons_self)]
  have app : ∀ (pre : List Cfg) (f : EvFile) (rest : List Cfg) (g : EvFile), runs pre f = .ok g →
      runs (pre ++ rest) f = runs rest g := by
    intro pre
    induction pre with
    | nil => intro f rest g hg; cases hg; rfl
    | cons c pre ih =>
      intro f rest g hg
      rw [runs] at hg
      obtain ⟨f1, p1, p2⟩ := Res.bind_eq_ok.1 hg
      rw [List.cons_append, runs, p1, Res.bind_ok]
      exact ih f1 rest g p2
  obtain ⟨f', h1, h2, h3, h4⟩ := keep cs f h ha
  refine ⟨f', h1, h2, h3, ?_⟩
  intro pre post c hcs
  refine ⟨?_, h4⟩
  intro x hx hn hpost
  subst hcs
  obtain ⟨f1, p1, p2, p3, -⟩ := keep pre f (fun d hd => h d (by simp [hd])) (fun d hd => ha d (by simp [hd]))
  obtain ⟨f2, q1, q2, q3, q4, -⟩ := C105_probabilities_partial (f := f1) (h c (by simp))
    (by rw [p2, p3]; exact ha c (by simp))
  obtain ⟨f3, r1, r2, r3, r4⟩ := keep post f2 (fun d hd => h d (by simp [hd])) (fun d hd => by
    rw [q2, q3, p2, p3]; exact ha d (by simp [hd]))
  have : runs (pre ++ c :: post) f = .ok f3 := by
    rw [app pre f _ f1 p1, runs, q1, Res.bind_ok, r1]
  cases h1.symm.trans this
  obtain ⟨b, hb, hb'⟩ := q4 x hx hn
  refine ⟨b, by rw [r4 _ hpost, hb], ?_⟩
  rw [p2, p3] at hb'
  exact hb'

/-- A model with two sources. -/
def two : List Src := [⟨['A'], fun _ => 1⟩, ⟨['B'], fun e => e⟩]

/-- The hypotheses can be met. -/
example : ∃ (c : Cfg) (f : EvFile), Fine c ∧ c.list = none ∧ (∀ j < f.nrow, c.accept (f.ev j) = true) ∧ 0 < f.nrow ∧
    (∀ x ∈ c.model, ∀ j < f.nrow, 0 ≤ x.dens (f.ev j)) ∧ (∀ j < f.nrow, total c.model (f.ev j) ≠ 0) ∧ c.model.length = 2 := by
  refine ⟨⟨two, none, fun _ => true⟩, ⟨5, fun j => j, fun _ => none⟩, ⟨?_, ?_⟩, rfl, fun _ _ => rfl, by norm_num, ?_, ?_, rfl⟩
  · unfold Proper two; decide
  · unfold sources two; decide
  · intro x hx j _
    simp only [two, List.mem_cons, List.not_mem_nil, or_false] at hx
    rcases hx with rfl | rfl <;> simp
  · intro j _
    simp only [total, two, List.map_cons, List.map_nil, List.sum_cons, List.sum_nil]
    positivity

/-! ### Violations -/

/-- C105 is violated for a file with an event that is not in the region of interest: such events are
dropped when events are read, but have a row, and the tool fails. -/
theorem C105_rejected_violates {c : Cfg} {f : EvFile} (hn : ((sources c).map low).Nodup) (hm : c.model ≠ [])
    (hr : ∃ j < f.nrow, c.accept (f.ev j) = false) : run c f = .throws := by
  obtain ⟨c0, p1, p2, p3⟩ := prepare_ok f.cols (sources c) f.cols hn (fun _ _ h => h) (fun _ _ => rfl)
  have hlen : (events c f).length < f.nrow := by
    obtain ⟨j, hj, hj'⟩ := hr
    have h1 : (events c f).length < ((List.range f.nrow).map f.ev).length := by
      unfold events
      rw [List.length_filter_lt_length_iff_exists]
      exact ⟨f.ev j, List.mem_map_of_mem (List.mem_range.2 hj), by rw [hj']; simp⟩
    simpa using h1
  have bad : ∀ j, (events c f).length ≤ j → densities c.model (events c f) j = .throws := by
    intro j hj
    obtain ⟨x, xs, e⟩ := List.exists_cons_of_ne_nil hm
    unfold densities
    rw [e, List.foldlM_cons, addDens, List.getElem?_eq_none hj]
    rfl
  have key : ∀ n lo cols, (∀ m ∈ sources c, (cols (low m)).isSome) → lo ≤ (events c f).length →
      (events c f).length < lo + n →
      loop (fun j cols => do
        let d ← densities c.model (events c f) j
        writeRow d j (sources c) cols) lo n cols = .throws := by
    intro n
    induction n with
    | zero => intro lo cols _ h1 h2; omega
    | succ n ih =>
      intro lo cols hc h1 h2
      rw [loop]
      rcases Nat.lt_or_ge lo (events c f).length with h | h
      · obtain ⟨d, d1, -⟩ := densities_ok (List.getElem?_eq_getElem h) c.model
        obtain ⟨c2, r1, r2, r3⟩ := writeRow_ok d lo (sources c) cols hn hc
        simp only [d1, Res.bind_ok, r1]
        apply ih (lo + 1) c2 _ (by omega) (by omega)
        intro m hm
        obtain ⟨a, b, -, hb, -⟩ := r3 m hm
        rw [hb]; rfl
      · simp only [bad lo h, Res.bind_throws]
  rw [run, p1, Res.bind_ok, key f.nrow 0 c0 p2 (by omega) (by omega)]
  rfl

/-- C105 is violated for an event that no source of the model explains: the values are not numbers. -/
theorem C105_zero_violates {c : Cfg} {f : EvFile} (h : Fine c) (ha : ∀ j < f.nrow, c.accept (f.ev j) = true)
    {j : Nat} (hj : j < f.nrow) (ht : total c.model (f.ev j) = 0) :
    ∃ f', run c f = .ok f' ∧ ∀ n, asked c n → ∃ b, f'.cols (low n) = some b ∧ b j = none := by
  obtain ⟨f', h1, h2, h3, h4, h5⟩ := run_ok h.1 h.2 ha
  refine ⟨f', h1, fun n hn => ?_⟩
  obtain ⟨b, hb, hb'⟩ := h5 n ((asked_iff c n).1 hn)
  refine ⟨b, hb, ?_⟩
  rw [hb' j hj]
  unfold cellOf
  rw [if_pos ht]

/-- C105 is violated for a name that is not in the model, a misspelt one: there is no error, the
probabilities are zero. -/
theorem C105_unknown_violates {c : Cfg} {f : EvFile} (h : Fine c) (ha : ∀ j < f.nrow, c.accept (f.ev j) = true)
    {n : Name} (hn : asked c n) (hm : ∀ x ∈ c.model, x.name ≠ n) :
    ∃ f' b, run c f = .ok f' ∧ f'.cols (low n) = some b ∧ ∀ j < f.nrow, total c.model (f.ev j) ≠ 0 → b j = some 0 := by
  classical
  obtain ⟨f', h1, h2, h3, h4, h5⟩ := run_ok h.1 h.2 ha
  obtain ⟨b, hb, hb'⟩ := h5 n ((asked_iff c n).1 hn)
  refine ⟨f', b, h1, hb, fun j hj ht => ?_⟩
  rw [hb' j hj]
  unfold cellOf
  rw [if_neg ht]
  have : c.model.find? (fun x => decide (x.name = n)) = none := by
    rw [List.find?_eq_none]
    intro x hx
    simpa using hm x hx
  rw [this]

/-- C105 is violated for sources whose names differ in case only: the second column cannot be made. -/
theorem C105_case_violates (f : EvFile) (a b : Name) (accept : Nat → Bool) (d e : Nat → ℝ) (hab : low a = low b)
    (hf : f.cols (low a) = none) : run ⟨[⟨a, d⟩, ⟨b, e⟩], none, accept⟩ f = .throws := by
  have h1 : prepare f.cols (sources ⟨[⟨a, d⟩, ⟨b, e⟩], none, accept⟩) f.cols = .throws := by
    show prepare f.cols [a, b] f.cols = .throws
    rw [prepare, if_pos (by rw [hf]; rfl), append, hf]
    simp only [Res.bind_ok]
    rw [prepare, if_pos (by rw [← hab, hf]; rfl), append, ← hab]
    simp
  rw [run, h1]
  rfl

/-- C105 is violated for a source that has the name of a column of the events: it is the data of the events
that are replaced. -/
theorem C105_column_violates {c : Cfg} {f : EvFile} (h : Fine c) (ha : ∀ j < f.nrow, c.accept (f.ev j) = true)
    {x : Src} (hx : x ∈ c.model) (hn : asked c x.name) {old : Nat → Option ℝ} (hf : f.cols (low x.name) = some old)
    {j : Nat} (hj : j < f.nrow) (ht : total c.model (f.ev j) ≠ 0) (hv : old j ≠ some (prob c.model x (f.ev j))) :
    ∃ f' b, run c f = .ok f' ∧ f'.cols (low x.name) = some b ∧ b j ≠ old j := by
  obtain ⟨f', h1, -, -, h4, -⟩ := C105_probabilities_partial h ha
  obtain ⟨b, hb, hb'⟩ := h4 x hx hn
  exact ⟨f', b, h1, hb, by rw [hb' j hj ht]; exact fun e => hv e.symm⟩

/-- Names as they occur: a source called `Energy`, and two that differ in case. -/
example : low "Energy".toList = low "ENERGY".toList ∧ low "srcA".toList = low "SrcA".toList ∧
    ∃ (c : Cfg) (f : EvFile) (x : Src) (old : Nat → Option ℝ), Fine c ∧ x ∈ c.model ∧ asked c x.name ∧
      f.cols (low x.name) = some old ∧ 0 < f.nrow ∧ total c.model (f.ev 0) ≠ 0 ∧ old 0 ≠ some (prob c.model x (f.ev 0)) := by
  refine ⟨by decide, by decide, ⟨[⟨"Energy".toList, fun _ => 1⟩], none, fun _ => true⟩, ⟨1, fun j => j, fun _ => some fun _ => some 500⟩,
    ⟨"Energy".toList, fun _ => 1⟩, fun _ => some 500, ⟨?_, ?_⟩, by simp, ⟨_, by simp, rfl⟩, rfl, by norm_num, ?_, ?_⟩
  · unfold Proper; decide
  · unfold sources; decide
  · simp [total]
  · simp [prob, total]

end Verif.SrcProb
