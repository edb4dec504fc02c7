import Verif.DiffHdr.Model
import Verif.DiffHdr.Spec
set_option linter.unusedVariables false
set_option linter.unusedSimpArgs false
/-
C158: which event files `gtdiffrsp` works on, and what it does to files of the old form.
-/
namespace Verif.DiffHdr

variable {β : Type}

/-! ### Where a string is found -/

theorem find_some {pat : Name} (hp : pat ≠ []) : ∀ {s : Name} {i : Nat}, find pat s = some i → ∃ q, s = s.take i ++ pat ++ q ∧ i ≤ s.length
  | [], i, h => by simp [find, hp] at h
  | a :: s, i, h => by
    unfold find at h
    split at h
    · rename_i hx
      obtain ⟨q, hq⟩ := List.isPrefixOf_iff_prefix.1 hx
      cases h
      exact ⟨q, by simp [← hq], by simp⟩
    · cases hf : find pat s with
      | none => rw [hf] at h; cases h
      | some k =>
        rw [hf] at h
        cases h
        obtain ⟨q, hq, hl⟩ := find_some hp hf
        refine ⟨q, ?_, by simp; omega⟩
        show a :: s = a :: (s.take k ++ pat ++ q)
        rw [← hq]

theorem find_isSome {pat : Name} : ∀ (p q : Name), ∃ i, find pat (p ++ pat ++ q) = some i ∧ i ≤ p.length
  | [], q => by
    refine ⟨0, ?_, Nat.le_refl _⟩
    cases h : ([] ++ pat ++ q : Name) with
    | nil =>
      have : pat = [] := (List.append_eq_nil_iff.1 (by simpa using h)).1
      simp [find, this]
    | cons a s =>
      unfold find
      rw [if_pos]
      rw [← h]
      exact List.isPrefixOf_iff_prefix.2 ⟨q, by simp⟩
  | a :: p, q => by
    obtain ⟨i, h, hi⟩ := find_isSome (pat := pat) p q
    simp only [List.cons_append]
    unfold find
    split
    · exact ⟨0, rfl, Nat.zero_le _⟩
    · exact ⟨i + 1, by rw [h]; rfl, by simp; omega⟩

theorem find_iff {pat : Name} (hp : pat ≠ []) (s : Name) : (find pat s).isSome = true ↔ ∃ p q, s = p ++ pat ++ q := by
  constructor
  · intro h
    obtain ⟨i, hi⟩ := Option.isSome_iff_exists.1 h
    obtain ⟨q, hq, _⟩ := find_some hp hi
    exact ⟨_, q, hq⟩
  · rintro ⟨p, q, rfl⟩
    obtain ⟨i, hi, _⟩ := find_isSome (pat := pat) p q
    rw [hi]; rfl

/-! ### Compressed files -/

theorem pos_end {pat s : Name} (hp : pat ≠ []) (hk : pat.length ≤ s.length) (hl : s.length < 2 ^ 64) (he : ∀ p q, s = p ++ pat ++ q → q = []) :
    pos (find pat s) = off s pat.length ↔ ∃ p, s = p ++ pat := by
  have ho : off s pat.length = s.length - pat.length := by
    unfold off
    rw [show s.length + 2 ^ 64 - pat.length = (s.length - pat.length) + 2 ^ 64 by omega, Nat.add_mod_right]
    exact Nat.mod_eq_of_lt (by omega)
  have hpl : 0 < pat.length := List.length_pos_iff.2 hp
  rw [ho]
  constructor
  · intro h
    cases hf : find pat s with
    | none => rw [hf] at h; simp only [pos, Option.getD_none] at h; omega
    | some i =>
      obtain ⟨q, hq, _⟩ := find_some hp hf
      have := he _ _ hq
      subst this
      exact ⟨s.take i, by simpa using hq⟩
  · rintro ⟨p, hpq⟩
    obtain ⟨i, hi, _⟩ := find_isSome (pat := pat) p []
    rw [List.append_nil, ← hpq] at hi
    rw [hi]
    obtain ⟨q, hq, hil⟩ := find_some hp hi
    have := he _ _ hq
    subst this
    have hlen := congrArg List.length hq
    simp only [List.append_nil, List.length_append, List.length_take] at hlen
    simp only [pos, Option.getD_some]
    omega

/-- **C158 (partial).** A file whose name has at least three characters and in whose name `.gz` and
`.Z` are nowhere but at the end is refused if and only if its name says that it is compressed.  What
is missing: see the two violations. -/
theorem C158_compressed_partial {s : Name} (h3 : 3 ≤ s.length) (hl : s.length < 2 ^ 64) (he : OnlyAtEnd s) :
    refused s = true ↔ Compressed s := by
  have g1 := pos_end (pat := ['.', 'g', 'z']) (by simp) h3 hl he.1
  have g2 := pos_end (pat := ['.', 'Z']) (by simp) (by simp; omega) hl he.2
  simp only [List.length_cons, List.length_nil] at g1 g2
  unfold refused Compressed
  rw [Bool.or_eq_true, decide_eq_true_iff, decide_eq_true_iff]
  exact or_congr g1 g2

example : refused ['a', '.', 'g', 'z'] = true := by
  refine (C158_compressed_partial (by simp) (by simp) ⟨fun p q h => ?_, fun p q h => ?_⟩).2 (Or.inl ⟨['a'], rfl⟩)
  · have hl := congrArg List.length h
    simp at hl
    match p, hl, h with
    | [], _, h => simp at h
    | [x], hl, _ => exact List.length_eq_zero_iff.1 (by simp at hl; omega)
    | x :: y :: p, hl, _ => simp at hl; omega
  · have hz : 'Z' ∈ ['a', '.', 'g', 'z'] := by rw [h]; simp
    simp at hz

/-- **C158 (violation).** A compressed file in whose name `.gz` is also before the end is not
refused. -/
theorem C158_compressed_violates (p q : Name) (hl : (p ++ ['.', 'g', 'z'] ++ q ++ ['.', 'g', 'z']).length < 2 ^ 64) :
    Compressed (p ++ ['.', 'g', 'z'] ++ q ++ ['.', 'g', 'z']) ∧ refused (p ++ ['.', 'g', 'z'] ++ q ++ ['.', 'g', 'z']) = false := by
  refine ⟨Or.inl ⟨_, rfl⟩, ?_⟩
  generalize hs : p ++ ['.', 'g', 'z'] ++ q ++ ['.', 'g', 'z'] = s at hl
  have hlen : s.length = p.length + q.length + 6 := by rw [← hs]; simp; omega
  have ho : ∀ k, k ≤ 3 → off s k = s.length - k := fun k hk => by
    unfold off
    rw [show s.length + 2 ^ 64 - k = (s.length - k) + 2 ^ 64 by omega, Nat.add_mod_right]
    exact Nat.mod_eq_of_lt (by omega)
  unfold refused
  rw [Bool.or_eq_false_iff, decide_eq_false_iff_not, decide_eq_false_iff_not, ho 3 (by omega), ho 2 (by omega)]
  constructor
  · obtain ⟨i, hi, hle⟩ := find_isSome (pat := ['.', 'g', 'z']) p (q ++ ['.', 'g', 'z'])
    rw [show p ++ ['.', 'g', 'z'] ++ (q ++ ['.', 'g', 'z']) = s by rw [← hs]; simp] at hi
    rw [hi]
    simp only [pos, Option.getD_some]
    omega
  · cases hf : find ['.', 'Z'] s with
    | none => simp only [pos, Option.getD_none]; omega
    | some i =>
      simp only [pos, Option.getD_some]
      intro h
      obtain ⟨r, hr, hil⟩ := find_some (by simp) hf
      have hrl := congrArg List.length hr
      simp only [List.length_append, List.length_take, List.length_cons, List.length_nil] at hrl
      have hr0 : r = [] := List.length_eq_zero_iff.1 (by omega)
      subst hr0
      have e1 : s.getLast? = some 'Z' := by
        rw [hr]; simp
      have e2 : s.getLast? = some 'z' := by
        rw [← hs, List.getLast?_append]; rfl
      rw [e1] at e2
      exact absurd (Option.some.inj e2) (by decide)

example : refused ("a.gz.gz".toList) = false := (C158_compressed_violates ['a'] [] (by simp)).2

/-- **C158 (violation).** A file whose name has two characters is refused whatever they are, and so
is one whose name has one character. -/
theorem C158_short_violates (a b : Char) : ¬ Compressed [a] ∧ refused [a] = true ∧ (([a, b] ≠ ['.', 'Z']) → ¬ Compressed [a, b]) ∧
    refused [a, b] = true := by
  have f1 : find ['.', 'Z'] [a] = none := by simp [find, List.isPrefixOf]
  have f2 : find ['.', 'g', 'z'] [a, b] = none := by simp [find, List.isPrefixOf]
  refine ⟨?_, ?_, ?_, ?_⟩
  · rintro (⟨p, h⟩ | ⟨p, h⟩) <;> have := congrArg List.length h <;> simp at this
  · unfold refused; rw [f1]; simp [pos, off]
  · rintro hn (⟨p, h⟩ | ⟨p, h⟩)
    · have := congrArg List.length h; simp at this
    · have hl := congrArg List.length h
      simp at hl
      subst hl
      exact hn (by simpa using h)
  · unfold refused; rw [f2]; simp [pos, off]

example : refused ['f', '1'] = true ∧ ¬ Compressed ['f', '1'] :=
  ⟨(C158_short_violates 'f' '1').2.2.2, (C158_short_violates 'f' '1').2.2.1 (by simp)⟩

/-! ### The loop over the files -/

/-- A file that passes the loop. -/
theorem files_true {convert : Bool} {rest : File β → File β × Bool} {m s : Name} {f : File β} {l : List (Name × File β)}
    (h : (files convert rest m ((s, f) :: l)).2 = true) :
    refused s = false ∧ ∃ m' g, testPass m f = .ok m' ∧ checkVersion convert f = .ok g ∧ (rest g).2 = true ∧
      (files convert rest m ((s, f) :: l)).1 = (rest g).1 :: (files convert rest m' l).1 ∧ (files convert rest m' l).2 = true := by
  have hu := files.eq_2 convert rest m s f l
  rw [hu] at h ⊢
  clear hu
  split at h
  · cases h
  · rename_i hr
    refine ⟨by simpa using hr, ?_⟩
    cases ht : testPass m f with
    | ok m' =>
      cases hc : checkVersion convert f with
      | ok g =>
        simp only [ht, hc] at h
        by_cases hg : (rest g).2 = true
        · rw [if_pos hg] at h
          refine ⟨m', g, rfl, rfl, hg, ?_, h⟩
          simp only [if_neg hr, ht, hc, if_pos hg]
        · rw [if_neg hg] at h; cases h
      | throws => simp only [ht, hc] at h; cases h
      | ub => simp only [ht, hc] at h; cases h
    | throws => simp only [ht] at h; cases h
    | ub => simp only [ht] at h; cases h

theorem testPass_eq (m : Name) (f : File β) :
    testPass m f = if m = [] then .ok (version f) else if m ≠ version f then .throws else .ok m := by
  obtain ⟨p, n, l, c⟩ := f
  cases p <;> rfl

theorem testPass_ok {m m' : Name} {f : File β} (h : testPass m f = .ok m') :
    m' = version f ∧ (m = [] ∨ m = version f) := by
  rw [testPass_eq] at h
  split at h
  · rename_i hm; exact ⟨(Res.ok.inj h).symm, Or.inl hm⟩
  · split at h
    · cases h
    · rename_i hm
      have hm : m = version f := not_not.1 hm
      exact ⟨by rw [← Res.ok.inj h, hm], Or.inr hm⟩

theorem files_same {convert : Bool} {rest : File β → File β × Bool} : ∀ {l : List (Name × File β)} {m : Name}, m ≠ [] →
    (files convert rest m l).2 = true → ∀ x ∈ l, version x.2 = m
  | [], m, _, _, x, hx => by cases hx
  | (s, f) :: l, m, hm, h, x, hx => by
    obtain ⟨_, m', g, h1, _, _, _, h2⟩ := files_true h
    obtain ⟨e1, e2⟩ := testPass_ok h1
    have e3 : m = version f := e2.resolve_left hm
    rcases List.mem_cons.1 hx with rfl | hx
    · exact e3.symm
    · have := files_same (m := m') (by rw [e1, ← e3]; exact hm) h2 x hx
      rw [this, e1, e3]

/-- **C158 (one version, partial).** If a run goes through and no file has an empty version, all
files have the same one.  What is missing: `C158_version_violates`. -/
theorem C158_version_partial {convert : Bool} {rest : File β → File β × Bool} {l : List (Name × File β)}
    (h : (run convert rest l).2 = true) (hv : ∀ x ∈ l, version x.2 ≠ []) : ∀ x ∈ l, ∀ y ∈ l, version x.2 = version y.2 := by
  cases l with
  | nil => intro x hx; cases hx
  | cons a l =>
    obtain ⟨s, f⟩ := a
    obtain ⟨_, m', g, h1, _, _, _, h2⟩ := files_true h
    obtain ⟨e1, _⟩ := testPass_ok h1
    have hm : m' ≠ [] := by rw [e1]; exact hv _ (List.mem_cons_self ..)
    have key : ∀ x ∈ (s, f) :: l, version x.2 = m' := by
      intro x hx
      rcases List.mem_cons.1 hx with rfl | hx
      · exact e1.symm
      · exact files_same hm h2 x hx
    intro x hx y hy
    rw [key x hx, key y hy]

/-- The first file of the run fails because of its version only if it differs, and then nothing is
done with it and the files after it. -/
theorem files_other {convert : Bool} {rest : File β → File β × Bool} {m s : Name} {f : File β} {l : List (Name × File β)}
    (hm : m ≠ []) (hv : version f ≠ m) : files convert rest m ((s, f) :: l) = (f :: l.map (·.2), false) := by
  have ht : testPass m f = .throws := by
    rw [testPass_eq, if_neg hm, if_pos (Ne.symm hv)]
  unfold files
  split
  · rfl
  · simp only [ht]

/-- **C158 (other version).** A run on two files of different versions, the first of which is not
empty, fails; the responses of the first file were written then, the second is not touched. -/
theorem C158_other_version {convert : Bool} {rest : File β → File β × Bool} {s t : Name} {f g k : File β} {n : Nat} {l : List (Name × File β)}
    (hs : refused s = false) (hk : f.ndif = some n) (hr : rest f = (k, true)) (h0 : version f ≠ []) (hv : version g ≠ version f) :
    run convert rest ((s, f) :: (t, g) :: l) = (k :: g :: l.map (·.2), false) := by
  have hp : testPass [] f = .ok (version f) := by rw [testPass_eq]; rfl
  have hc : checkVersion convert f = .ok f := by unfold checkVersion; rw [hk]
  unfold run
  unfold files
  simp only [hs, hp, hc, hr, files_other h0 hv, Bool.false_eq_true, if_false, if_true]

/-- Two small files. -/
def toy (v : Option Name) (n : Option Nat) : File Nat :=
  ⟨v, n, fun _ => none, [(.word ['e', 'n', 'e', 'r', 'g', 'y'], 1), (.word ['p', '_', '_', 'g'], 2), (.word ['p', ':', ':', 'i'], 3)]⟩

example : run true (fun f => (f, true)) [(['a', 'b', 'c'], toy (some ['P', '8']) (some 0)), (['a', 'b', 'd'], toy none (some 0))] =
    ([toy (some ['P', '8']) (some 0), toy none (some 0)], false) :=
  C158_other_version (n := 0) (by decide) rfl rfl (by simp [version, toy]) (by simp [version, toy])

/-- **C158 (violation).** If the first file has an empty version, the second may have any. -/
theorem C158_version_violates (convert : Bool) {s t : Name} {f g : File β} (hs : refused s = false) (ht : refused t = false)
    (hf : f.ndif = some 0) (hg : g.ndif = some 0) (h0 : f.pass = some []) (rest : File β → File β × Bool) (hr : ∀ x, (rest x).2 = true)
    (hv : version g ≠ []) : (run convert rest [(s, f), (t, g)]).2 = true ∧ version f ≠ version g := by
  have hp : testPass [] f = .ok [] := by rw [testPass_eq]; simp [version, h0]
  have hp2 : testPass [] g = .ok (version g) := by rw [testPass_eq]; rfl
  refine ⟨?_, by unfold version at hv ⊢; rw [h0]; exact fun h => hv h.symm⟩
  simp only [run, files, hs, ht, hp, hp2, checkVersion, hf, hg, hr, Bool.false_eq_true, if_false, if_true]

example : (run true (fun f => (f, true)) [(['a', 'b', 'c'], toy (some []) (some 0)), (['a', 'b', 'd'], toy none (some 0))]).2 = true :=
  (C158_version_violates true (by decide) (by decide) rfl rfl rfl (fun f => (f, true)) (fun _ => rfl) (by simp [version, toy])).1

/-- **C158 (goes through).** If no name is refused, all files have the same non-empty version, each has
the new form or conversion is asked for, and the work on each file succeeds, the run goes through, and
each file is what the work makes of it or of what it was converted to. -/
theorem C158_all {convert : Bool} {rest : File β → File β × Bool} {l : List (Name × File β)} {v : Name} (h0 : v ≠ [])
    (hs : ∀ x ∈ l, refused x.1 = false) (hv : ∀ x ∈ l, version x.2 = v) (hn : ∀ x ∈ l, x.2.ndif.isSome = true ∨ convert = true)
    (hr : ∀ x, (rest x).2 = true) :
    run convert rest l = (l.map fun x => if x.2.ndif.isSome then (rest x.2).1 else (rest (convertHeader x.2)).1, true) := by
  have key : ∀ (l : List (Name × File β)) (m : Name), (m = [] ∨ m = v) → (∀ x ∈ l, refused x.1 = false) → (∀ x ∈ l, version x.2 = v) →
      (∀ x ∈ l, x.2.ndif.isSome = true ∨ convert = true) →
      files convert rest m l = (l.map fun x => if x.2.ndif.isSome then (rest x.2).1 else (rest (convertHeader x.2)).1, true) := by
    intro l
    induction l with
    | nil => intro m _ _ _ _; rfl
    | cons a l ih =>
      intro m hm hs hv hn
      obtain ⟨s, f⟩ := a
      have hs0 : refused s = false := hs _ (List.mem_cons_self ..)
      have hv0 : version f = v := hv _ (List.mem_cons_self ..)
      have hn0 : f.ndif.isSome = true ∨ convert = true := hn _ (List.mem_cons_self ..)
      have hp : testPass m f = .ok v := by
        rw [testPass_eq, hv0]
        rcases hm with rfl | rfl
        · rfl
        · rw [if_neg h0, if_neg (by simp)]
      have ih' := ih v (Or.inr rfl) (fun x hx => hs x (List.mem_cons_of_mem _ hx)) (fun x hx => hv x (List.mem_cons_of_mem _ hx))
        (fun x hx => hn x (List.mem_cons_of_mem _ hx))
      have hc : checkVersion convert f = .ok (if f.ndif.isSome then f else convertHeader f) := by
        unfold checkVersion
        cases h : f.ndif with
        | some k => simp
        | none =>
          rw [h] at hn0
          rw [hn0.resolve_left (by simp)]
          simp
      unfold files
      simp only [hs0, hp, hc, hr, ih', Bool.false_eq_true, if_false, if_true, List.map_cons]
      cases f.ndif <;> rfl
  exact key l [] (Or.inl rfl) hs hv hn

example : ∃ f, run true (fun f => (f, true)) [(['a', 'b', 'c'], toy none (some 0)), (['a', 'b', 'd'], toy (some ['N', 'O', 'N', 'E']) none)] =
    ([toy none (some 0), f], true) :=
  ⟨_, C158_all (v := ['N', 'O', 'N', 'E']) (by simp) (by decide) (by decide) (by decide) fun _ => rfl⟩

/-- **C158 (stops).** Without conversion, a run stops at the first file that has the old form: the files
before it have their responses, and it and those after it are not touched. -/
theorem C158_stops {rest : File β → File β × Bool} {l l' : List (Name × File β)} {s v : Name} {f : File β} (h0 : v ≠ [])
    (hs : ∀ x ∈ l, refused x.1 = false) (hv : ∀ x ∈ l, version x.2 = v) (hn : ∀ x ∈ l, x.2.ndif.isSome = true)
    (hr : ∀ x, (rest x).2 = true) (hf : f.ndif = none) :
    run false rest (l ++ (s, f) :: l') = (l.map (fun x => (rest x.2).1) ++ f :: l'.map (·.2), false) := by
  have last : ∀ m, files false rest m ((s, f) :: l') = (f :: l'.map (·.2), false) := by
    intro m
    have hc : checkVersion false f = .throws := by unfold checkVersion; rw [hf]; rfl
    unfold files
    split
    · rfl
    · cases testPass m f <;> simp [hc]
  have key : ∀ (l : List (Name × File β)) (m : Name), (m = [] ∨ m = v) → (∀ x ∈ l, refused x.1 = false) → (∀ x ∈ l, version x.2 = v) →
      (∀ x ∈ l, x.2.ndif.isSome = true) →
      files false rest m (l ++ (s, f) :: l') = (l.map (fun x => (rest x.2).1) ++ f :: l'.map (·.2), false) := by
    intro l
    induction l with
    | nil => intro m _ _ _ _; exact last m
    | cons a l ih =>
      intro m hm hs hv hn
      obtain ⟨t, g⟩ := a
      have hs0 : refused t = false := hs _ (List.mem_cons_self ..)
      have hv0 : version g = v := hv _ (List.mem_cons_self ..)
      have hn0 : g.ndif.isSome = true := hn _ (List.mem_cons_self ..)
      have hp : testPass m g = .ok v := by
        rw [testPass_eq, hv0]
        rcases hm with rfl | rfl
        · rfl
        · rw [if_neg h0, if_neg (by simp)]
      have ih' := ih v (Or.inr rfl) (fun x hx => hs x (List.mem_cons_of_mem _ hx)) (fun x hx => hv x (List.mem_cons_of_mem _ hx))
        (fun x hx => hn x (List.mem_cons_of_mem _ hx))
      have hc : checkVersion false g = .ok g := by
        unfold checkVersion
        obtain ⟨k, hk⟩ := Option.isSome_iff_exists.1 hn0
        rw [hk]
      simp only [List.cons_append, List.map_cons]
      unfold files
      simp only [hs0, hp, hc, hr, ih', Bool.false_eq_true, if_false, if_true]
  exact key l [] (Or.inl rfl) hs hv hn

example : run false (fun f => (f, true)) [(['a', 'b', 'c'], toy none (some 0)), (['a', 'b', 'd'], toy none none)] =
    ([toy none (some 0), toy none none], false) :=
  C158_stops (l := [(['a', 'b', 'c'], toy none (some 0))]) (l' := []) (v := ['N', 'O', 'N', 'E']) (by simp) (by decide) (by decide) (by decide)
    (fun _ => rfl) rfl

/-! ### Conversion -/

theorem taken_word (n : Name) : taken (.word n) = true ↔ OldName n := by
  unfold taken OldName
  simp only [Bool.or_eq_true, find_iff (pat := ['_', '_']) (by simp), find_iff (pat := [':', ':']) (by simp)]

theorem rename_length : ∀ (j : Nat) (l : List (Col × β)), (rename j l).length = l.length
  | _, [] => rfl
  | j, (c, v) :: l => by
    unfold rename
    split <;> simp [rename_length]

/-- What is in a column stays. -/
theorem rename_values : ∀ (j : Nat) (l : List (Col × β)), (rename j l).map (·.2) = l.map (·.2)
  | _, [] => rfl
  | j, (c, v) :: l => by
    unfold rename
    split <;> simp [rename_values]

theorem rename_word : ∀ (j : Nat) (l : List (Col × β)) (n : Name) (v : β),
    (Col.word n, v) ∈ rename j l ↔ (Col.word n, v) ∈ l ∧ taken (.word n) = false
  | _, [], n, v => by simp [rename]
  | j, (c, w) :: l, n, v => by
    unfold rename
    split
    · rename_i ht
      rw [List.mem_cons, List.mem_cons, rename_word]
      constructor
      · rintro (h | h)
        · cases h
        · exact ⟨Or.inr h.1, h.2⟩
      · rintro ⟨h | h, h2⟩
        · cases h; rw [h2] at ht; cases ht
        · exact Or.inr ⟨h, h2⟩
    · rename_i ht
      rw [List.mem_cons, List.mem_cons, rename_word]
      constructor
      · rintro (h | h)
        · cases h; exact ⟨Or.inl rfl, by simpa using ht⟩
        · exact ⟨Or.inr h.1, h.2⟩
      · rintro ⟨h | h, h2⟩
        · exact Or.inl h
        · exact Or.inr ⟨h, h2⟩

/-- The new columns: the one with number `j + i` is the `i`-th of those taken. -/
theorem rename_difrsp : ∀ (j : Nat) (l : List (Col × β)), (∀ i v, (Col.difrsp i, v) ∉ l) → ∀ (i : Nat) (v : β),
    (Col.difrsp i, v) ∈ rename j l ↔ ∃ k : Nat, i = j + k ∧ ∃ n, (l.filter fun c => taken c.1)[k]? = some (Col.word n, v)
  | j, [], _, i, v => by simp [rename]
  | j, (c, w) :: l, ho, i, v => by
    have ho' : ∀ i v, (Col.difrsp i, v) ∉ l := fun i v h => ho i v (List.mem_cons_of_mem _ h)
    unfold rename
    split
    · rename_i ht
      rw [List.mem_cons, rename_difrsp (j + 1) l ho', List.filter_cons, if_pos ht]
      constructor
      · rintro (h | ⟨k, hk, n, hn⟩)
        · cases h
          cases c with
          | word n => exact ⟨0, rfl, n, rfl⟩
          | difrsp q => cases ht
        · exact ⟨k + 1, by omega, n, by simpa using hn⟩
      · rintro ⟨k, hk, n, hn⟩
        cases k with
        | zero =>
          have hn' := Option.some.inj hn
          have e2 : w = v := congrArg Prod.snd hn'
          exact Or.inl (by rw [hk, e2]; rfl)
        | succ k => exact Or.inr ⟨k, by omega, n, by simpa using hn⟩
    · rename_i ht
      rw [List.mem_cons, rename_difrsp j l ho', List.filter_cons, if_neg ht]
      constructor
      · rintro (h | h)
        · exact absurd (List.mem_cons.2 (Or.inl h)) (ho i v)
        · exact h
      · exact Or.inr

/-- **C158 (conversion).** A file of the old form that is converted has the new form, and each
component has in the new form exactly the responses it had in the old one.  The columns stay in
their order with what is in them, and those whose names are not names of responses keep their
names. -/
theorem C158_convert {f : File β} (ho : Old f) :
    ∃ g, checkVersion true f = .ok g ∧ (∀ n v, InNewForm g n v ↔ InOldForm f n v) ∧ g.cols.map (·.2) = f.cols.map (·.2) ∧
      (∀ n v, (Col.word n, v) ∈ g.cols ↔ (Col.word n, v) ∈ f.cols ∧ ¬ OldName n) ∧ g.pass = f.pass ∧
      checkVersion false g = .ok g := by
  obtain ⟨o1, o2, o3⟩ := ho
  refine ⟨convertHeader f, by unfold checkVersion; rw [o1]; rfl, ?_, rename_values 0 _, ?_, rfl, rfl⟩
  · intro n v
    unfold InNewForm InOldForm
    rw [← taken_word]
    have hcols : (convertHeader f).cols = rename 0 f.cols := rfl
    constructor
    · rintro ⟨k, i, hk, hi, hl, hm⟩
      rw [hcols, rename_difrsp 0 _ o3] at hm
      obtain ⟨k', rfl, n', hn'⟩ := hm
      have hk' : (indices f.cols).length = k := Option.some.inj hk
      have hl' : (indices f.cols)[k']? = some n := by
        have : (convertHeader f).label (0 + k') = if 0 + k' < (indices f.cols).length then (indices f.cols)[0 + k']? else f.label (0 + k') := rfl
        rw [this, if_pos (by omega), Nat.zero_add] at hl
        exact hl
      have : n' = n := by
        unfold indices at hl'
        rw [List.getElem?_map, hn'] at hl'
        exact Option.some.inj hl'
      subst this
      have hmem := List.mem_of_getElem? hn'
      obtain ⟨m1, m2⟩ := List.mem_filter.1 hmem
      exact ⟨m2, m1⟩
    · rintro ⟨ht, hm⟩
      obtain ⟨k', hk'⟩ := List.mem_iff_getElem?.1 (List.mem_filter.2 ⟨hm, ht⟩ : (Col.word n, v) ∈ f.cols.filter fun c => taken c.1)
      have hl' : (indices f.cols)[k']? = some n := by
        unfold indices
        rw [List.getElem?_map, hk']; rfl
      have hlt : k' < (indices f.cols).length := (List.getElem?_eq_some_iff.1 hl').1
      refine ⟨_, k', rfl, hlt, ?_, ?_⟩
      · show (if k' < (indices f.cols).length then (indices f.cols)[k']? else f.label k') = some n
        rw [if_pos hlt]; exact hl'
      · rw [hcols, rename_difrsp 0 _ o3]
        exact ⟨k', by omega, n, hk'⟩
  · intro n v
    rw [← taken_word]
    have := rename_word 0 f.cols n v
    rw [show (convertHeader f).cols = rename 0 f.cols from rfl, this]
    simp

theorem toy_old : Old (toy none none) := ⟨rfl, fun _ => rfl, fun i v h => by simp [toy] at h⟩

example : ∃ g, checkVersion true (toy none none) = .ok g ∧ InNewForm g ['p', '_', '_', 'g'] 2 ∧ InNewForm g ['p', ':', ':', 'i'] 3 := by
  obtain ⟨g, h1, h2, _⟩ := C158_convert toy_old
  exact ⟨g, h1, (h2 _ _).2 ⟨Or.inl ⟨['p'], ['g'], rfl⟩, by simp [toy]⟩, (h2 _ _).2 ⟨Or.inr ⟨['p'], ['i'], rfl⟩, by simp [toy]⟩⟩

/-- **C158 (files of the new form).** Such a file is not changed before its responses are computed,
whether conversion is asked for or not. -/
theorem C158_new_form {f : File β} {k : Nat} (h : f.ndif = some k) (convert : Bool) : checkVersion convert f = .ok f := by
  unfold checkVersion; rw [h]

example : checkVersion true (toy none (some 3)) = .ok (toy none (some 3)) := C158_new_form rfl true

end Verif.DiffHdr
