import Verif.Xml.Lemmas
/-
Lemmas for writing and reading models: spectra and sources.
-/
set_option linter.unusedSectionVars false
set_option linter.unusedSimpArgs false
set_option linter.unusedVariables false
namespace Verif.Xml

variable {K : Type} [Field K] [LinearOrder K]

theorem growSet_end (v : List K) (x : K) : growSet v (v.length : Int) x = .ok (v ++ [x]) := by
  unfold growSet
  rw [if_neg (by omega), if_neg (by omega), Int.toNat_natCast, if_pos (le_refl _)]
  have hl : (vresize v (v.length + 1) 0 : List K) = v ++ [0] := by
    simp [vresize, List.take_of_length_le]
  rw [hl, vset_lt _ _ _ (by simp)]
  simp

/-- The head and tail of a list of numbered names. -/
theorem numbered_get {w : String} {ps : List (Par K)} (h : Spec.Numbered w ps) :
    ∀ i (hi : i < ps.length), ps[i].name = w ++ toString i := by
  intro i hi
  have := congrArg (fun l => l[i]?) h
  simpa [hi] using this

theorem idx_toList (w : String) (i : Nat) : (w ++ toString i).toList = w.toList ++ dec i := by
  rw [← numbered_eq, numbered, String.toList_ofList]

/-- The loop of `addParamsToMultipleBPL` over the elements of the indices. -/
theorem mbpl_index (E : Env K) : ∀ (ps : List (Par K)) (norm : K) (v brk : List K)
    (ns : List Node), (∀ p ∈ ps, Spec.ParOK E p) →
    (∀ i (hi : i < ps.length), ps[i].name = "Index" ++ toString (v.length + i)) →
    mbplLoop E (ps.map (parNode E) ++ ns) (norm, v, brk) =
      mbplLoop E ns (norm, v ++ ps.map (·.value), brk) := by
  intro ps
  induction ps with
  | nil => intro norm v brk ns _ _; simp
  | cons p ps ih =>
    intro norm v brk ns hok hn
    have h0 : p.name = "Index" ++ toString v.length := hn 0 (Nat.succ_pos _)
    have hl : p.name.toList = "Index".toList ++ dec v.length := by rw [h0, idx_toList]
    have hN : p.name ≠ "Normalization" := by
      intro e; rw [e] at hl; have := congrArg List.head? hl; exact absurd this (by simp)
    have hB : afterPrefix "Break".toList p.name = none :=
      after_other (c := 'B') (d := 'I') (p := "reak".toList) (r := "ndex".toList ++ dec v.length)
        hl (by decide)
    have hI : afterPrefix "Index".toList p.name = some (dec v.length) := by rw [h0, after_self]
    rw [List.map_cons, List.cons_append, mbplLoop, par_name, if_neg hN]
    simp only [hI, hB]
    rw [atoi_dec, num_value E p 0 (hok p (by simp)).1, growSet_end]
    simp only [Res.bind_ok]
    rw [ih norm (v ++ [p.value]) brk ns (fun q hq => hok q (by simp [hq]))
      (fun i hi => by
        have := hn (i + 1) (by simp; omega)
        simp only [List.getElem_cons_succ] at this
        rw [this, List.length_append, List.length_singleton]
        congr 2; omega)]
    simp

/-- The loop of `addParamsToMultipleBPL` over the elements of the breaks. -/
theorem mbpl_break (E : Env K) : ∀ (ps : List (Par K)) (norm : K) (idx v : List K)
    (ns : List Node), (∀ p ∈ ps, Spec.ParOK E p) →
    (∀ i (hi : i < ps.length), ps[i].name = "Break" ++ toString (v.length + i)) →
    mbplLoop E (ps.map (parNode E) ++ ns) (norm, idx, v) =
      mbplLoop E ns (norm, idx, v ++ ps.map (fun p => p.value * p.scale)) := by
  intro ps
  induction ps with
  | nil => intro norm idx v ns _ _; simp
  | cons p ps ih =>
    intro norm idx v ns hok hn
    have h0 : p.name = "Break" ++ toString v.length := hn 0 (Nat.succ_pos _)
    have hl : p.name.toList = "Break".toList ++ dec v.length := by rw [h0, idx_toList]
    have hN : p.name ≠ "Normalization" := by
      intro e; rw [e] at hl; have := congrArg List.head? hl; exact absurd this (by simp)
    have hI : afterPrefix "Index".toList p.name = none :=
      after_other (c := 'I') (d := 'B') (p := "ndex".toList) (r := "reak".toList ++ dec v.length)
        hl (by decide)
    have hB : afterPrefix "Break".toList p.name = some (dec v.length) := by rw [h0, after_self]
    rw [List.map_cons, List.cons_append, mbplLoop, par_name, if_neg hN]
    simp only [hI, hB]
    rw [atoi_dec, num_value E p 0 (hok p (by simp)).1, num_scale E p 1 (hok p (by simp)).2.1,
      growSet_end]
    simp only [Res.bind_ok]
    rw [ih norm idx (v ++ [p.value * p.scale]) ns (fun q hq => hok q (by simp [hq]))
      (fun i hi => by
        have := hn (i + 1) (by simp; omega)
        simp only [List.getElem_cons_succ] at this
        rw [this, List.length_append, List.length_singleton]
        congr 2; omega)]
    simp

theorem increasing_iff (l : List K) : increasing l = true ↔ l.Pairwise (· < ·) := by
  induction l with
  | nil => simp [increasing]
  | cons a l ih =>
    cases l with
    | nil => simp [increasing]
    | cons b l =>
      rw [increasing, Bool.and_eq_true, ih, decide_eq_true_eq]
      constructor
      · rintro ⟨hab, hp⟩
        refine List.pairwise_cons.2 ⟨?_, hp⟩
        intro x hx
        rcases List.mem_cons.1 hx with rfl | hx
        · exact hab
        · exact lt_trans hab ((List.pairwise_cons.1 hp).1 x hx)
      · intro hp
        exact ⟨(List.pairwise_cons.1 hp).1 b (by simp), (List.pairwise_cons.1 hp).2⟩

theorem names_numberedPars (E : Env K) (w : String) (free : Bool) : ∀ (vs : List K) (i : Nat),
    (numberedPars E w.toList free i vs).map (·.name) =
      (List.range vs.length).map (fun j => w ++ toString (i + j)) := by
  intro vs
  induction vs with
  | nil => intro i; simp [numberedPars]
  | cons v vs ih =>
    intro i
    rw [numberedPars, List.map_cons, ih, List.length_cons, List.range_succ_eq_map, List.map_cons,
      List.map_map]
    simp only [newPar, numbered_eq, Nat.add_zero]
    congr 1
    apply List.map_congr_left
    intro j _
    simp only [Function.comp_apply]
    congr 2; omega

theorem err_numberedPars (E : Env K) (w : List Char) (free : Bool) : ∀ (vs : List K) (i : Nat),
    ∀ p ∈ numberedPars E w free i vs, p.err = 0 := by
  intro vs
  induction vs with
  | nil => intro i p hp; simp [numberedPars] at hp
  | cons v vs ih =>
    intro i p hp
    rw [numberedPars, List.mem_cons] at hp
    rcases hp with rfl | hp
    · rfl
    · exact ih _ p hp

theorem dec_inj {i j : Nat} (h : dec i = dec j) : i = j := by
  have := congrArg atoi h
  rw [atoi_dec, atoi_dec] at this
  exact_mod_cast this

theorem word_inj {w : String} {i j : Nat} (h : w ++ toString i = w ++ toString j) : i = j := by
  have := congrArg String.toList h
  rw [idx_toList, idx_toList] at this
  exact dec_inj (List.append_cancel_left this)

theorem nodup_range (w : String) (n : Nat) :
    ((List.range n).map (fun i => w ++ toString i)).Nodup := by
  apply List.Nodup.map_on _ List.nodup_range
  intro i _ j _ h
  exact word_inj h

/-- Names from two words with different first letters differ. -/
theorem word_ne {v w : String} {c d : Char} {r s : List Char} (hv : v.toList = c :: r)
    (hw : w.toList = d :: s) (h : c ≠ d) (i j : Nat) : v ++ toString i ≠ w ++ toString j := by
  intro e
  have := congrArg String.toList e
  rw [idx_toList, idx_toList, hv, hw, List.cons_append, List.cons_append] at this
  exact h (List.cons.inj this).1

theorem word_ne' {v w : String} {c d : Char} {r s : List Char} (hv : v.toList = c :: r)
    (hw : w.toList = d :: s) (h : c ≠ d) (j : Nat) : v ≠ w ++ toString j := by
  intro e
  have := congrArg String.toList e
  rw [idx_toList, hv, hw, List.cons_append] at this
  exact h (List.cons.inj this).1

/-- The names of a power law with many breaks are all different. -/
theorem mbpl_nodup (n m : Nat) :
    ("Normalization" :: ((List.range n).map (fun i => "Index" ++ toString i)
      ++ (List.range m).map (fun i => "Break" ++ toString i))).Nodup := by
  rw [List.nodup_cons]
  constructor
  · intro h
    rcases List.mem_append.1 h with h | h
    · obtain ⟨j, _, hj⟩ := List.mem_map.1 h
      exact word_ne' (c := 'N') (d := 'I') rfl rfl (by decide) j hj.symm
    · obtain ⟨j, _, hj⟩ := List.mem_map.1 h
      exact word_ne' (c := 'N') (d := 'B') rfl rfl (by decide) j hj.symm
  · rw [List.nodup_append]
    refine ⟨nodup_range _ _, nodup_range _ _, ?_⟩
    intro a ha b hb
    obtain ⟨i, _, rfl⟩ := List.mem_map.1 ha
    obtain ⟨j, _, rfl⟩ := List.mem_map.1 hb
    exact word_ne (c := 'I') (d := 'B') rfl rfl (by decide) i j

/-- The loop of `addParamsToPiecewisePL` over the elements of the flux values. -/
theorem pw_dnde (E : Env K) : ∀ (ps : List (Par K)) (v ens : List K)
    (ns : List Node), (∀ p ∈ ps, Spec.ParOK E p) →
    (∀ i (hi : i < ps.length), ps[i].name = "dNdE" ++ toString (v.length + i)) →
    piecewiseLoop E (ps.map (parNode E) ++ ns) (v, ens) =
      piecewiseLoop E ns (v ++ ps.map (fun _ => 0), ens) := by
  intro ps
  induction ps with
  | nil => intro v ens ns _ _; simp
  | cons p ps ih =>
    intro v ens ns hok hn
    have h0 : p.name = "dNdE" ++ toString v.length := hn 0 (Nat.succ_pos _)
    have hl : p.name.toList = "dNdE".toList ++ dec v.length := by rw [h0, idx_toList]
    have hB : afterPrefix "Energy".toList p.name = none :=
      after_other (c := 'E') (d := 'd') (p := "nergy".toList) (r := "NdE".toList ++ dec v.length)
        hl (by decide)
    have hI : afterPrefix "dNdE".toList p.name = some (dec v.length) := by rw [h0, after_self]
    rw [List.map_cons, List.cons_append, piecewiseLoop, par_name]
    simp only [hI, hB]
    rw [atoi_dec, growSet_end]
    simp only [Res.bind_ok]
    rw [ih (v ++ [0]) ens ns (fun q hq => hok q (by simp [hq]))
      (fun i hi => by
        have := hn (i + 1) (by simp; omega)
        simp only [List.getElem_cons_succ] at this
        rw [this, List.length_append, List.length_singleton]
        congr 2; omega)]
    simp

/-- The loop of `addParamsToPiecewisePL` over the elements of the energies. -/
theorem pw_energy (E : Env K) : ∀ (ps : List (Par K)) (dnde v : List K)
    (ns : List Node), (∀ p ∈ ps, Spec.ParOK E p) →
    (∀ i (hi : i < ps.length), ps[i].name = "Energy" ++ toString (v.length + i)) →
    piecewiseLoop E (ps.map (parNode E) ++ ns) (dnde, v) =
      piecewiseLoop E ns (dnde, v ++ ps.map (fun p => p.value * p.scale)) := by
  intro ps
  induction ps with
  | nil => intro dnde v ns _ _; simp
  | cons p ps ih =>
    intro dnde v ns hok hn
    have h0 : p.name = "Energy" ++ toString v.length := hn 0 (Nat.succ_pos _)
    have hl : p.name.toList = "Energy".toList ++ dec v.length := by rw [h0, idx_toList]
    have hI : afterPrefix "dNdE".toList p.name = none :=
      after_other (c := 'd') (d := 'E') (p := "NdE".toList) (r := "nergy".toList ++ dec v.length)
        hl (by decide)
    have hB : afterPrefix "Energy".toList p.name = some (dec v.length) := by rw [h0, after_self]
    rw [List.map_cons, List.cons_append, piecewiseLoop, par_name]
    simp only [hI, hB]
    rw [atoi_dec, num_value E p 0 (hok p (by simp)).1, num_scale E p 1 (hok p (by simp)).2.1,
      growSet_end]
    simp only [Res.bind_ok]
    rw [ih dnde (v ++ [p.value * p.scale]) ns (fun q hq => hok q (by simp [hq]))
      (fun i hi => by
        have := hn (i + 1) (by simp; omega)
        simp only [List.getElem_cons_succ] at this
        rw [this, List.length_append, List.length_singleton]
        congr 2; omega)]
    simp

/-- An element with a name of neither kind is passed over. -/
theorem pw_skip (E : Env K) (p : Par K) (s : List K × List K) (ns : List Node)
    (h1 : afterPrefix "dNdE".toList p.name = none)
    (h2 : afterPrefix "Energy".toList p.name = none) :
    piecewiseLoop E (parNode E p :: ns) s = piecewiseLoop E ns s := by
  obtain ⟨a, b⟩ := s
  rw [piecewiseLoop, par_name]
  simp only [h1, h2, Res.bind_ok]

/-- The names of a piecewise power law are all different. -/
theorem pw_nodup (n m : Nat) :
    ("IndexL" :: "IndexH" :: ((List.range n).map (fun i => "dNdE" ++ toString i)
      ++ (List.range m).map (fun i => "Energy" ++ toString i))).Nodup := by
  have hne : ∀ v : String, ∀ r, v.toList = 'I' :: r →
      v ∉ ((List.range n).map (fun i => "dNdE" ++ toString i)
      ++ (List.range m).map (fun i => "Energy" ++ toString i)) := by
    intro v r hv h
    rcases List.mem_append.1 h with h | h
    · obtain ⟨j, _, hj⟩ := List.mem_map.1 h
      exact word_ne' (c := 'I') (d := 'd') hv rfl (by decide) j hj.symm
    · obtain ⟨j, _, hj⟩ := List.mem_map.1 h
      exact word_ne' (c := 'I') (d := 'E') hv rfl (by decide) j hj.symm
  rw [List.nodup_cons, List.nodup_cons]
  refine ⟨?_, ?_, ?_⟩
  · rw [List.mem_cons, not_or]
    exact ⟨by decide, hne _ _ rfl⟩
  · exact hne _ _ rfl
  · rw [List.nodup_append]
    refine ⟨nodup_range _ _, nodup_range _ _, ?_⟩
    intro a ha b hb
    obtain ⟨i, _, rfl⟩ := List.mem_map.1 ha
    obtain ⟨j, _, rfl⟩ := List.mem_map.1 hb
    exact word_ne (c := 'd') (d := 'E') rfl rfl (by decide) i j

/-- The parameters made before the values are read have the names of the spectrum. -/
theorem special_spec (E : Env K) (s : Spectrum K) (hok : ∀ p ∈ s.pars, Spec.ParOK E p)
    (h : (s.type ≠ "MultipleBPL" ∧ s.type ≠ "PiecewisePowerLaw" ∧ s.nodes = [] ∧
      Spec.Known E s.type s.pars) ∨ Spec.MultiBroken E s ∨ Spec.Piecewise E s) :
    ∃ ps qs, E.proto s.type = some ps ∧
      special E s.type (s.pars.map (parNode E)) ps = .ok (qs, s.nodes) ∧
      qs.map (·.name) = s.pars.map (·.name) ∧ (s.pars.map (·.name)).Nodup ∧
      ∀ q ∈ qs, q.err = 0 := by
  rcases h with ⟨h1, h2, h3, ps, hp, hn, hnd, he⟩ | h | h
  · refine ⟨ps, ps, hp, ?_, hn, hnd, he⟩
    rw [special, if_neg h1, if_neg h2, h3]
  · obtain ⟨ht, hp, n, idx, brk, hs, hN, hI, hB, hl, hnodes, hmono⟩ := h
    have hloop : mbplLoop E (s.pars.map (parNode E)) (1, [], []) =
        .ok (n.value, idx.map (·.value), brk.map (fun p => p.value * p.scale)) := by
      have hokn : Spec.ParOK E n := hok n (by rw [hs]; simp)
      rw [hs, List.map_cons, mbplLoop, par_name, hN, if_pos rfl]
      have a1 : afterPrefix "Index".toList "Normalization" = none := by decide
      have a2 : afterPrefix "Break".toList "Normalization" = none := by decide
      simp only [a1, a2, Res.bind_ok]
      rw [num_value E n 1 hokn.1, List.map_append]
      rw [mbpl_index E idx n.value [] [] (brk.map (parNode E))
        (fun p hp => hok p (by rw [hs]; simp [hp]))
        (fun i hi => by simpa using numbered_get hI i hi)]
      have := mbpl_break E brk n.value (idx.map (·.value)) [] []
        (fun p hp => hok p (by rw [hs]; simp [hp]))
        (fun i hi => by simpa using numbered_get hB i hi)
      simp only [List.append_nil, List.nil_append] at this ⊢
      rw [this]; rfl
    have hnames : s.pars.map (·.name) =
        "Normalization" :: ((List.range idx.length).map (fun i => "Index" ++ toString i)
          ++ (List.range brk.length).map (fun i => "Break" ++ toString i)) := by
      rw [hs, List.map_cons, List.map_append, hN]
      rw [show idx.map (·.name) = _ from hI, show brk.map (·.name) = _ from hB]
    refine ⟨[], [] ++ newPar E "Normalization" n.value true
        :: numberedPars E "Index".toList true 0 (idx.map (·.value))
        ++ numberedPars E "Break".toList false 0 (brk.map (fun p => p.value * p.scale)),
      hp, ?_, ?_, ?_, ?_⟩
    · rw [special, if_pos ht, hloop, Res.bind_ok, mbplAdd, if_neg (by simp [hl]),
        if_pos ((increasing_iff _).2 (by rw [← hnodes]; exact hmono)), ← hnodes]
    · rw [hnames, List.nil_append, List.map_append, List.map_cons, names_numberedPars,
        names_numberedPars]
      simp [newPar]
    · rw [hnames]; exact mbpl_nodup _ _
    · intro q hq
      rw [List.nil_append, List.mem_append, List.mem_cons] at hq
      rcases hq with (rfl | hq) | hq
      · rfl
      · exact err_numberedPars _ _ _ _ _ q hq
      · exact err_numberedPars _ _ _ _ _ q hq
  · obtain ⟨ht, hp, l, h, dnde, ens, hs, hL, hH, hD, hE, hl, hnodes, hmono⟩ := h
    have hloop : piecewiseLoop E (s.pars.map (parNode E)) ([], []) =
        .ok (dnde.map (fun _ => 0), ens.map (fun p => p.value * p.scale)) := by
      rw [hs, List.map_cons, List.map_cons,
        pw_skip E l _ _ (by rw [hL]; decide) (by rw [hL]; decide),
        pw_skip E h _ _ (by rw [hH]; decide) (by rw [hH]; decide), List.map_append]
      rw [pw_dnde E dnde [] [] (ens.map (parNode E))
        (fun p hp => hok p (by rw [hs]; simp [hp]))
        (fun i hi => by simpa using numbered_get hD i hi)]
      have := pw_energy E ens (dnde.map (fun _ => (0 : K))) [] []
        (fun p hp => hok p (by rw [hs]; simp [hp]))
        (fun i hi => by simpa using numbered_get hE i hi)
      simp only [List.append_nil, List.nil_append] at this ⊢
      rw [this]; rfl
    have hnames : s.pars.map (·.name) =
        "IndexL" :: "IndexH" :: ((List.range dnde.length).map (fun i => "dNdE" ++ toString i)
          ++ (List.range ens.length).map (fun i => "Energy" ++ toString i)) := by
      rw [hs, List.map_cons, List.map_cons, List.map_append, hL, hH]
      rw [show dnde.map (·.name) = _ from hD, show ens.map (·.name) = _ from hE]
    refine ⟨[], [] ++ newPar E "IndexL" (-((2 : ℕ) : K)) true
        :: newPar E "IndexH" (-((3 : ℕ) : K)) true
        :: numberedPars E "dNdE".toList true 0 (dnde.map (fun _ => 0))
        ++ numberedPars E "Energy".toList false 0 (ens.map (fun p => p.value * p.scale)),
      hp, ?_, ?_, ?_, ?_⟩
    · rw [special, if_neg (by rw [ht]; decide), if_pos ht, hloop, Res.bind_ok, piecewiseAdd,
        if_neg (by simp [hl]),
        if_pos ((increasing_iff _).2 (by rw [← hnodes]; exact hmono)), ← hnodes]
    · rw [hnames, List.nil_append, List.map_append, List.map_cons, List.map_cons,
        names_numberedPars, names_numberedPars]
      simp [newPar]
    · rw [hnames]; exact pw_nodup _ _
    · intro q hq
      rw [List.nil_append, List.mem_append, List.mem_cons, List.mem_cons] at hq
      rcases hq with (rfl | rfl | hq) | hq
      · rfl
      · rfl
      · exact err_numberedPars _ _ _ _ _ q hq
      · exact err_numberedPars _ _ _ _ _ q hq

end Verif.Xml
