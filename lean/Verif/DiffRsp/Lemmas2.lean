import Verif.DiffRsp.Lemmas
/-
Lemmas on whole files.
-/
set_option linter.unusedSimpArgs false
set_option linter.unusedVariables false
namespace Verif.DiffRsp
open Verif

theorem rows_ok {irf : Name} {ns : List Name} (hn : ns.Nodup) (ms : List Resp) (v : Nat → Name → ℝ)
    (srcs : List Src) (hs : ∀ x ∈ srcs, compName irf x.name ∈ ns)
    (hv : ∀ j m, ms[j]? = some m → ∀ x ∈ srcs, response irf m x.name = .ok (v j (compName irf x.name)))
    (cols : Cols) (hc : ∀ x ∈ srcs, ∀ i, ns[i]? = some (compName irf x.name) → (cols i).isSome) :
    ∃ cols', loop (fun j cols => do
        let m ← vget ms j
        writeRow irf ns j m srcs cols) 0 ms.length cols = .ok cols' ∧
      (∀ i, cols' i = none ↔ cols i = none) ∧
      (∀ i c c', cols i = some c → cols' i = some c' → ∀ r, ms.length ≤ r → c' r = c r) ∧
      (∀ x ∈ srcs, ∀ i c', ns[i]? = some (compName irf x.name) → cols' i = some c' →
        ∀ r < ms.length, c' r = v r (compName irf x.name)) ∧
      ∀ i c, cols i = some c → (∀ x ∈ srcs, ns[i]? ≠ some (compName irf x.name)) → cols' i = some c := by
  obtain ⟨cols', h1, h2⟩ := loop_inv (body := fun j cols => do
      let m ← vget ms j
      writeRow irf ns j m srcs cols)
    (fun j s => (∀ i, s i = none ↔ cols i = none) ∧
      (∀ i c c', cols i = some c → s i = some c' → ∀ r, j ≤ r → c' r = c r) ∧
      (∀ x ∈ srcs, ∀ i c', ns[i]? = some (compName irf x.name) → s i = some c' →
        ∀ r < j, c' r = v r (compName irf x.name)) ∧
      ∀ i c, cols i = some c → (∀ x ∈ srcs, ns[i]? ≠ some (compName irf x.name)) → s i = some c)
    (lo := 0) (n := ms.length) (s := cols)
    ⟨fun _ => Iff.rfl, fun i c c' h h' r _ => by rw [h] at h'; cases h'; rfl,
      fun _ _ _ _ _ _ r hr => by omega, fun _ _ h _ => h⟩ (by
      rintro j s - hj ⟨a1, a2, a3, a4⟩
      rw [Nat.zero_add] at hj
      have hm : ms[j]? = some ms[j] := List.getElem?_eq_getElem hj
      obtain ⟨s', b1, b2, b3, b4, b5⟩ := writeRow_ok hn j ms[j] (v j) srcs hs (hv j _ hm) s (by
        intro x hx i hi
        have := hc x hx i hi
        rw [Option.isSome_iff_ne_none] at this ⊢
        exact fun e => this ((a1 i).1 e))
      refine ⟨s', ?_, ?_, ?_, ?_, ?_⟩
      · simp only [vget_lt _ _ hj, Res.bind_ok]
        exact b1
      · intro i
        rw [b2, a1]
      · intro i c c' hi hi' r hr
        obtain ⟨c1, hc1⟩ : ∃ c1, s i = some c1 := by
          refine Option.ne_none_iff_exists'.1 fun e => ?_
          rw [a1, hi] at e
          cases e
        rw [b3 i c1 c' hc1 hi' r (by omega), a2 i c c1 hi hc1 r (by omega)]
      · intro x hx i c' hi hi' r hr
        rcases Nat.lt_succ_iff_lt_or_eq.1 hr with hr | rfl
        · obtain ⟨c1, hc1⟩ : ∃ c1, s i = some c1 := by
            refine Option.ne_none_iff_exists'.1 fun e => ?_
            rw [← b2, hi'] at e
            cases e
          rw [b3 i c1 c' hc1 hi' r (by omega), a3 x hx i c1 hi hc1 r hr]
        · exact b4 x hx i c' hi hi'
      · intro i c hi hno
        exact b5 i c (a4 i c hi hno) hno)
  rw [Nat.zero_add] at h2
  exact ⟨cols', h1, h2⟩

/-- The names in the file after the run. -/
def after (c : Cfg) (real : List Name) : List Name :=
  (c.srcs.map fun x => compName c.irf x.name).foldl addColumn real

theorem after_nodup (c : Cfg) {real : List Name} (h : real.Nodup) : (after c real).Nodup := foldl_add_nodup _ h

theorem mem_after (c : Cfg) {real : List Name} {n : Name} :
    n ∈ after c real ↔ n ∈ real ∨ ∃ x ∈ c.srcs, compName c.irf x.name = n := by
  rw [after, mem_foldl_add, List.mem_map]

theorem after_none (c : Cfg) {real : List Name} (h : noName ∉ real) : noName ∉ after c real := by
  rw [mem_after]
  rintro (h' | ⟨x, _, hx⟩)
  · exact h h'
  · exact compName_ne _ _ hx

theorem after_prefix (c : Cfg) (real : List Name) : real <+: after c real := foldl_add_prefix _ _

theorem filter_real {real : List Name} (hz : noName ∉ real) (k : Nat) :
    (real ++ List.replicate k noName).filter (fun n => decide (n ≠ noName)) = real := by
  rw [List.filter_append, List.filter_eq_self.2, List.filter_eq_nil_iff.2, List.append_nil]
  · intro a ha
    rw [(List.mem_replicate.1 ha).2]
    simp
  · intro a ha
    simpa using fun e : a = noName => hz (e ▸ ha)

/-- What holds of a file after the run. -/
structure Done (c : Cfg) (real : List Name) (f f' : EvFile) : Prop where
  nrow : f'.nrow = f.nrow
  ev : f'.ev = f.ev
  keys : ∃ k, f'.keys = after c real ++ List.replicate k noName
  cols : ∀ i < f'.keys.length, (f'.cols i).isSome
  keep : ∀ i n a b, real[i]? = some n → f.cols i = some a → f'.cols i = some b → ∀ j, b j = a j
  new : ∀ x ∈ c.srcs, compName c.irf x.name ∉ real → ∀ i b,
    (after c real)[i]? = some (compName c.irf x.name) → f'.cols i = some b →
      ∀ j < f.nrow, b j = Spec.value c x (f.ev j)

/-- Hypotheses on the run. -/
structure Fine (c : Cfg) : Prop where
  dist : (c.srcs.map fun x => compName c.irf x.name).Nodup
  cls : ∃ t, target c = .ok t

theorem write_ok {c : Cfg} (hcf : Fine c) {t : Tool} {f : EvFile} {real : List Name} {k : Nat}
    (h : f.keys = real ++ List.replicate k noName) (hr : real.Nodup) (hz : noName ∉ real)
    (hc : ∀ i < f.keys.length, (f.cols i).isSome)
    (ht : t.names = [] ∨ t.names = after c real) (hd : t.ndif = 0 ∨ t.ndif = f.keys.length)
    (hne : c.srcs ≠ []) {tg : Option Nat} (htg : target c = .ok tg) :
    ∃ f' ms, readEvents f = .ok ms ∧
      write c t f (computeAll c tg f ms) = .ok ({ t with names := after c real }, f') ∧ Done c real f f' := by
  obtain ⟨g, hg1, hg2, hg3⟩ := readEvents_tidy h hr hz hc
  set ms' := computeAll c tg f ((List.range f.nrow).map g) with hms
  have hlen : ms'.length = f.nrow := by rw [hms, computeAll]; simp
  have hget : ∀ j m, ms'[j]? = some m →
      m = compute c.irf c.srcs (isDummy c tg (f.ev j).cls) (f.ev j).id (g j) := by
    intro j m hm
    rw [hms, computeAll, List.getElem?_mapIdx] at hm
    have hj : j < f.nrow := by
      have := (List.getElem?_eq_some_iff.1 (show ms'[j]? = some m by
        rw [hms, computeAll, List.getElem?_mapIdx]; exact hm)).1
      omega
    rw [List.getElem?_map, List.getElem?_range hj] at hm
    simpa using hm.symm
  -- the names
  have hex : (c.srcs.map fun x => compName c.irf x.name).foldl addColumn (existing t.names f.keys) = after c real := by
    rw [existing_eq, h, filter_real hz]
    rcases ht with ht | ht
    · rw [ht, foldl_add_new real hr (by simp)]
      rfl
    · rw [ht, foldl_add_sub real (fun n hn => (mem_after c).2 (Or.inl hn)), foldl_add_sub]
      intro n hn
      obtain ⟨x, hx, he⟩ := List.mem_map.1 hn
      exact (mem_after c).2 (Or.inr ⟨x, hx, he⟩)
  have hexn : (existing t.names f.keys).Nodup := by
    rw [existing_eq]
    refine foldl_add_nodup _ ?_
    rcases ht with ht | ht
    · rw [ht]
      exact List.nodup_nil
    · rw [ht]
      exact after_nodup c hr
  obtain ⟨ns', cols1, p1, p2, p3, p4, p5⟩ := prepare_ok c.irf c.srcs (existing t.names f.keys) hexn f.cols
  rw [hex] at p2
  subst p2
  have hN := after_nodup c hr
  -- the values
  set v : Nat → Name → ℝ := fun j n =>
    match compute c.irf c.srcs (isDummy c tg (f.ev j).cls) (f.ev j).id (g j) n with
    | some (w :: _) => w
    | _ => 0 with hvdef
  have hreal : ∀ n ∈ real, ∀ j, ∃ a, g j n = some [a] := by
    intro n hn j
    obtain ⟨i, hi, he⟩ := List.mem_iff_getElem.1 hn
    have hi' : real[i]? = some n := by rw [List.getElem?_eq_getElem hi, he]
    obtain ⟨a, ha⟩ := Option.isSome_iff_exists.1 (hc i (by rw [h]; simp; omega))
    exact ⟨a j, hg2 j n hn i a hi' ha⟩
  have hval : ∀ x ∈ c.srcs, ∀ j, compute c.irf c.srcs (isDummy c tg (f.ev j).cls) (f.ev j).id (g j)
      (compName c.irf x.name) = some [v j (compName c.irf x.name)] := by
    intro x hx j
    have e := compute_ok hcf.dist (isDummy c tg (f.ev j).cls) (f.ev j).id (g j) hx
    by_cases hm : compName c.irf x.name ∈ real
    · obtain ⟨a, ha⟩ := hreal _ hm j
      rw [ha] at e
      simp only at e
      rw [e, hvdef]
      simp only [e]
    · rw [hg3 j _ hm (compName_ne _ _)] at e
      simp only at e
      rw [e, hvdef]
      simp only [e]
  have hvnew : ∀ x ∈ c.srcs, compName c.irf x.name ∉ real → ∀ j,
      v j (compName c.irf x.name) = Spec.value c x (f.ev j) := by
    intro x hx hm j
    have e := compute_ok hcf.dist (isDummy c tg (f.ev j).cls) (f.ev j).id (g j) hx
    rw [hg3 j _ hm (compName_ne _ _)] at e
    simp only at e
    rw [hval x hx j] at e
    have := List.cons.inj (Option.some.inj e)
    rw [this.1]
    exact dummy_value htg _ _
  have hvold : ∀ x ∈ c.srcs, compName c.irf x.name ∈ real → ∀ i a, real[i]? = some (compName c.irf x.name) →
      f.cols i = some a → ∀ j, v j (compName c.irf x.name) = a j := by
    intro x hx hm i a hi ha j
    have e := compute_ok hcf.dist (isDummy c tg (f.ev j).cls) (f.ev j).id (g j) hx
    rw [hg2 j _ hm i a hi ha] at e
    simp only at e
    rw [hval x hx j] at e
    exact (List.cons.inj (Option.some.inj e)).1
  obtain ⟨cols2, r1, r2, r3, r4, r5⟩ := rows_ok (irf := c.irf) hN ms' v c.srcs
    (fun x hx => (mem_after c).2 (Or.inr ⟨x, hx, rfl⟩)) (by
      intro j m hm x hx
      rw [hget j m hm, response, hval x hx j]) cols1 p4
  rw [hlen] at r1 r3 r4
  -- keywords
  have hle : real.length ≤ (after c real).length := (after_prefix c real).length_le
  have hpos : 0 < (after c real).length := by
    obtain ⟨x, hx⟩ := List.exists_mem_of_ne_nil _ hne
    exact List.length_pos_of_mem ((mem_after c).2 (Or.inr ⟨x, hx, rfl⟩))
  have hkeys : ∃ k', (after c real ++ f.keys.drop (after c real).length).take
      (if t.ndif < (after c real).length then (after c real).length else f.keys.length) =
        after c real ++ List.replicate k' noName ∧
      (after c real).length + k' ≤ max f.keys.length (after c real).length := by
    by_cases hlt : t.ndif < (after c real).length
    · refine ⟨0, ?_, by simp⟩
      rw [if_pos hlt, List.take_left]
      simp
    · have hd' : t.ndif = f.keys.length := by
        rcases hd with hd | hd
        · omega
        · exact hd
      rw [hd'] at hlt
      refine ⟨f.keys.length - (after c real).length, ?_, by omega⟩
      rw [if_neg (by rw [hd']; exact hlt), List.take_of_length_le (by simp; omega)]
      congr 1
      rw [h, List.drop_append, List.drop_of_length_le hle, List.nil_append, List.drop_replicate]
      congr 1
      simp
      omega
  obtain ⟨k', hk1, hk2⟩ := hkeys
  refine ⟨{ f with keys := after c real ++ List.replicate k' noName, cols := cols2 },
    (List.range f.nrow).map g, hg1, ?_, ?_⟩
  · rw [← hms, write, if_neg hne, if_neg (by omega), p1, Res.bind_ok]
    simp only [r1, Res.bind_ok, hk1]
  · have hsome : ∀ i, (∃ a, f.cols i = some a) → ∃ b, cols2 i = some b := by
      rintro i ⟨a, ha⟩
      refine Option.ne_none_iff_exists'.1 fun e => ?_
      rw [r2, p3 i a ha] at e
      cases e
    refine ⟨rfl, rfl, ⟨k', rfl⟩, ?_, ?_, ?_⟩
    · intro i hi
      simp only [List.length_append, List.length_replicate] at hi
      by_cases hik : i < f.keys.length
      · obtain ⟨b, hb⟩ := hsome i (Option.isSome_iff_exists.1 (hc i hik))
        simp only [hb]
        rfl
      · have hiN : i < (after c real).length := by omega
        have hg : (after c real)[i]? = some (after c real)[i] := List.getElem?_eq_getElem hiN
        rcases (mem_after c).1 (List.getElem_mem hiN) with hm | ⟨x, hx, he⟩
        · exfalso
          obtain ⟨i2, hi2, he2⟩ := List.mem_iff_getElem.1 hm
          have hg2' : real[i2]? = some (after c real)[i] := by rw [List.getElem?_eq_getElem hi2, he2]
          have := get_inj hN hg (get_prefix (after_prefix c real) hg2')
          rw [h] at hik
          simp at hik
          omega
        · have := p4 x hx i (by rw [hg, he])
          rw [Option.isSome_iff_ne_none] at this ⊢
          exact fun e => this ((r2 i).1 e)
    · intro i n a b hi ha hb j
      have hgi := get_prefix (after_prefix c real) hi
      by_cases hx : ∃ x ∈ c.srcs, compName c.irf x.name = n
      · obtain ⟨x, hx, rfl⟩ := hx
        by_cases hj : j < f.nrow
        · rw [r4 x hx i b hgi hb j hj]
          exact hvold x hx (List.mem_of_getElem? hi) i a hi ha j
        · exact r3 i a b (p3 i a ha) hb j (by omega)
      · have := r5 i a (p3 i a ha) (by
          intro x hxs e
          rw [hgi] at e
          exact hx ⟨x, hxs, (Option.some.inj e).symm⟩)
        rw [show cols2 i = some b from hb] at this
        cases this
        rfl
    · intro x hx hm i b hi hb j hj
      rw [r4 x hx i b hi hb j hj]
      exact hvnew x hx hm j

theorem done_refl {c : Cfg} {f : EvFile} {real : List Name} {k : Nat}
    (h : f.keys = real ++ List.replicate k noName)
    (hc : ∀ i < f.keys.length, (f.cols i).isSome) (hall : ∀ x ∈ c.srcs, compName c.irf x.name ∈ real) :
    after c real = real ∧ Done c real f f := by
  have e : after c real = real := foldl_add_sub _ (by
    intro n hn
    obtain ⟨x, hx, rfl⟩ := List.mem_map.1 hn
    exact hall x hx)
  refine ⟨e, rfl, rfl, ⟨k, by rw [e]; exact h⟩, hc, ?_, fun x hx hm => absurd (hall x hx) hm⟩
  intro i n a b hi ha hb j
  rw [ha] at hb
  cases hb
  rfl

theorem process_ok {c : Cfg} (hcf : Fine c) {t : Tool} {f : EvFile} {real : List Name} {k : Nat}
    (h : f.keys = real ++ List.replicate k noName) (hr : real.Nodup) (hz : noName ∉ real)
    (hc : ∀ i < f.keys.length, (f.cols i).isSome)
    (halt : ∀ x ∈ c.srcs, altName c.irf x.name ∉ f.keys)
    (ht : t.names = [] ∨ t.names = after c real) (hd : c.clobber = true → t.ndif = 0) :
    ∃ t' f', process c t f = .ok (t', f') ∧ Done c real f f' ∧
      (t'.names = [] ∨ t'.names = after c real) ∧ (c.clobber = true → t'.ndif = 0) := by
  obtain ⟨tg, htg⟩ := hcf.cls
  set t1 : Tool := if c.clobber then t else { t with ndif := f.keys.length } with ht1
  have h1 : t1.names = t.names := by rw [ht1]; split <;> rfl
  have h2 : t1.ndif = 0 ∨ t1.ndif = f.keys.length := by
    rw [ht1]
    split
    · rename_i hcl
      exact Or.inl (hd hcl)
    · exact Or.inr rfl
  have h3 : c.clobber = true → t1.ndif = 0 := by
    intro hcl
    rw [ht1, if_pos hcl]
    exact hd hcl
  by_cases hgo : c.clobber = true ∨ haveColumns c f = false
  · by_cases hne : c.srcs = []
    · obtain ⟨g, hg1, -, -⟩ := readEvents_tidy h hr hz hc
      obtain ⟨e, hdone⟩ := done_refl (c := c) h hc (by rw [hne]; simp)
      refine ⟨t1, f, ?_, hdone, by rw [h1]; exact ht, h3⟩
      simp only [process, ← ht1, if_pos hgo, hg1, htg, Res.bind_ok, write, if_pos hne]
    · obtain ⟨f', ms, w1, w2, w3⟩ := write_ok hcf h hr hz hc (t := t1) (by rw [h1]; exact ht) h2 hne htg
      refine ⟨{ t1 with names := after c real }, f', ?_, w3, Or.inr rfl, h3⟩
      simp only [process, ← ht1, if_pos hgo, w1, htg, Res.bind_ok, w2]
  · have hall : ∀ x ∈ c.srcs, compName c.irf x.name ∈ real := by
      intro x hx
      have hh : haveColumns c f = true := by
        cases hh : haveColumns c f
        · exact absurd (Or.inr hh) hgo
        · rfl
      have := List.all_eq_true.1 hh x hx
      rw [Bool.or_eq_true, decide_eq_true_eq, decide_eq_true_eq] at this
      have hm := this.resolve_right (halt x hx)
      rw [h] at hm
      rcases List.mem_append.1 hm with hm | hm
      · exact hm
      · exact absurd (List.mem_replicate.1 hm).2 (compName_ne _ _)
    obtain ⟨e, hdone⟩ := done_refl (c := c) h hc hall
    refine ⟨t1, f, ?_, hdone, by rw [h1]; exact ht, h3⟩
    simp only [process, ← ht1, if_neg hgo]

end Verif.DiffRsp
