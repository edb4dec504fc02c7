import Verif.LtSum.Lemmas
import Mathlib.Data.List.Perm.Basic
import Mathlib.Algebra.BigOperators.Group.List.Basic
set_option linter.unusedSectionVars false
set_option linter.unusedSimpArgs false
set_option linter.unusedVariables false
/-
C106: the sum of livetime cubes.
-/
namespace Verif.LtSum
open Verif Spec

/-- The output may be written. -/
def Free (fs : FS) (c : Call) : Prop := fs c.out = none ∨ c.clobber = true

theorem copy_ok {fs : FS} {c : Call} {f : LtFile} {fl : List LtFile} (h : Opens fs c.list (f :: fl)) (hw : Free fs c) :
    copy fs c = .ok (put fs c.out f) := by
  unfold copy
  cases hl : c.list with
  | nil => rw [hl] at h; cases h
  | cons k ks =>
    rw [hl] at h
    cases h with
    | cons e es =>
      simp only [e]
      rw [if_neg]
      rintro ⟨h1, h2⟩
      rcases hw with h' | h'
      · rw [h'] at h1; cases h1
      · rw [h'] at h2; cases h2

theorem check_iff {fs : FS} {ks : List Nat} {f : LtFile} {fl : List LtFile} (h : Opens fs ks (f :: fl)) :
    ((∀ g ∈ fl, f.bounds = g.bounds) → check fs ks = .ok ()) ∧
    ((¬ ∀ g ∈ fl, f.bounds = g.bounds) → check fs ks = .throws) := by
  cases h with
  | cons e es =>
    rw [check, open_ok e, Res.bind_ok]
    exact checkRest_iff f.bounds es

theorem addMain_ok {fs : FS} {c : Call} {f o : LtFile} {fl : List LtFile} (h : Opens fs c.list (f :: fl))
    (ho : fs c.out = some o) (hm : o.main = f.main) (ha : ∀ g ∈ fl, Alike f.main g.main) :
    ∃ t, addMain fs c = .ok (put fs c.out { o with main := t }) ∧ IsSum ((f :: fl).map LtFile.main) t := by
  obtain ⟨s, h1, h2, h3⟩ := total_ok LtFile.main h ha
  refine ⟨⟨s.rows, s.tstart, s.tstop, f.main.zenmax⟩, ?_, h2.rezen fun a b d => ?_⟩
  · rw [addMain, h1, Res.bind_ok, open_ok ho, Res.bind_ok, hm, overwrite_ok' h3, Res.bind_ok]
  · rw [h3.2]
    rfl

theorem addWeighted_ok {fs : FS} {c : Call} {f o : LtFile} {fl : List LtFile} (h : Opens fs c.list (f :: fl))
    (ho : fs c.out = some o) (hm : o.weighted = f.weighted) (ha : ∀ g ∈ fl, Alike f.weighted g.weighted) :
    ∃ t, addWeighted fs c = .ok (put fs c.out { o with weighted := t }) ∧ IsSum ((f :: fl).map LtFile.weighted) t := by
  obtain ⟨s, h1, h2, h3⟩ := total_ok LtFile.weighted h ha
  refine ⟨⟨s.rows, s.tstart, s.tstop, f.weighted.zenmax⟩, ?_, h2.rezen fun a b d => ?_⟩
  · rw [addWeighted, h1, Res.bind_ok, open_ok ho, Res.bind_ok, hm, overwrite_ok' h3, Res.bind_ok]
  · rw [h3.2]
    rfl

theorem andThen_ok {s : FS × Res Unit} {f : FS → Res FS} {fs : FS} (h : s.2 = .ok ()) (hf : f s.1 = .ok fs) :
    andThen s f = (fs, .ok ()) := by
  unfold andThen; rw [h]; simp only [hf]

theorem andThen_throws {s : FS × Res Unit} {f : FS → Res FS} (h : s.2 = .ok ()) (hf : f s.1 = .throws) :
    andThen s f = (s.1, .throws) := by
  unfold andThen; rw [h]; simp only [hf]

theorem andThen_skip {s : FS × Res Unit} {f : FS → Res FS} (h : s.2 = .throws) : andThen s f = s := by
  unfold andThen
  obtain ⟨a, b⟩ := s
  simp only at h
  rw [h]

theorem put_put (fs : FS) (k : Nat) (a b : LtFile) : put (put fs k a) k b = put fs k b := by
  funext i
  unfold put
  split <;> rfl

theorem copied_ok {fs : FS} {c : Call} {f : LtFile} {fl : List LtFile} (h : Opens fs c.list (f :: fl))
    (hw : Free fs c) (hb : ∀ g ∈ fl, f.bounds = g.bounds) :
    andThen (fs, check fs c.list) (fun fs => copy fs c) = (put fs c.out f, .ok ()) :=
  andThen_ok ((check_iff h).1 hb) (copy_ok h hw)

/-- The files are given with the run: the one that is written is `o`, the others stay. -/
theorem run_ok {fs : FS} {c : Call} {f : LtFile} {fl : List LtFile} (h : Opens fs c.list (f :: fl)) (ho : c.out ∉ c.list)
    (hw : Free fs c) (hc : ∀ g ∈ fl, Compatible f g) :
    ∃ o, run fs c = (put fs c.out o, .ok ()) ∧ IsSumFile (f :: fl) o := by
  have h1 : Opens (put fs c.out f) c.list (f :: fl) := Opens.put h ho
  obtain ⟨t, p1, p2⟩ := addMain_ok h1 (put_self _ _ _) rfl fun g hg => (hc g hg).2.1
  rw [put_put] at p1
  have h2 : Opens (put fs c.out { f with main := t }) c.list (f :: fl) := Opens.put h ho
  obtain ⟨u, q1, q2⟩ := addWeighted_ok h2 (put_self _ _ _) rfl fun g hg => (hc g hg).2.2
  rw [put_put] at q1
  refine ⟨⟨f.bounds, t, u⟩, ?_, ?_, p2, q2⟩
  · rw [run, copied_ok h hw fun g hg => (hc g hg).1, andThen_ok (f := fun fs => addMain fs _) rfl p1, andThen_ok rfl q1]
  · intro g hg
    rcases List.mem_cons.1 hg with rfl | hg
    · rfl
    · exact (hc g hg).1.symm

/-- **C106.**  If the output is not among the files, the tool writes the sum of compatible files and
changes no other file. -/
theorem C106_sum_partial {fs : FS} {c : Call} {f : LtFile} {fl : List LtFile} (h : Opens fs c.list (f :: fl))
    (ho : c.out ∉ c.list) (hw : Free fs c) (hc : ∀ g ∈ fl, Compatible f g) :
    (run fs c).2 = .ok () ∧ (∃ o, (run fs c).1 c.out = some o ∧ IsSumFile (f :: fl) o) ∧
      ∀ k, k ≠ c.out → (run fs c).1 k = fs k := by
  obtain ⟨o, h1, h2⟩ := run_ok h ho hw hc
  rw [h1]
  exact ⟨rfl, ⟨o, put_self _ _ _, h2⟩, fun k hk => put_other _ _ hk⟩

/-- Files that are not compatible are refused, and no file but the output changes. -/
theorem C106_refuses {fs : FS} {c : Call} {f : LtFile} {fl : List LtFile} (h : Opens fs c.list (f :: fl))
    (ho : c.out ∉ c.list) (hw : Free fs c) (hc : ¬ ∀ g ∈ fl, Compatible f g) :
    (run fs c).2 = .throws ∧ ∀ k, k ≠ c.out → (run fs c).1 k = fs k := by
  by_cases hb : ∀ g ∈ fl, f.bounds = g.bounds
  · have h1 : Opens (put fs c.out f) c.list (f :: fl) := Opens.put h ho
    by_cases hm : ∀ g ∈ fl, Alike f.main g.main
    · obtain ⟨t, p1, p2⟩ := addMain_ok h1 (put_self _ _ _) rfl hm
      rw [put_put] at p1
      have h2 : Opens (put fs c.out { f with main := t }) c.list (f :: fl) := Opens.put h ho
      have hq : ¬ ∀ g ∈ fl, Alike f.weighted g.weighted := fun hq => hc fun g hg => ⟨hb g hg, hm g hg, hq g hg⟩
      have q1 : addWeighted (put fs c.out { f with main := t }) c = .throws := by
        rw [addWeighted, total_throws LtFile.weighted h2 hq]; rfl
      rw [run, copied_ok h hw hb, andThen_ok (f := fun fs => addMain fs _) rfl p1, andThen_throws rfl q1]
      exact ⟨rfl, fun k hk => put_other _ _ hk⟩
    · have q1 : addMain (put fs c.out f) c = .throws := by
        rw [addMain, total_throws LtFile.main h1 hm]; rfl
      rw [run, copied_ok h hw hb, andThen_throws (f := fun fs => addMain fs c) rfl q1, andThen_skip rfl]
      exact ⟨rfl, fun k hk => put_other _ _ hk⟩
  · rw [run, andThen_skip (s := (fs, check fs c.list)) ((check_iff h).2 hb), andThen_skip (s := (fs, check fs c.list)) ((check_iff h).2 hb),
      andThen_skip (s := (fs, check fs c.list)) ((check_iff h).2 hb)]
    exact ⟨(check_iff h).2 hb, fun _ _ => rfl⟩

/-- An existing output is not replaced unless the user says so. -/
theorem C106_keeps_output {fs : FS} {c : Call} {f : LtFile} {fl : List LtFile} (h : Opens fs c.list (f :: fl))
    {o : LtFile} (ho : fs c.out = some o) (hw : c.clobber = false) :
    (run fs c).2 = .throws ∧ (run fs c).1 = fs := by
  have hcopy : copy fs c = .throws := by
    unfold copy
    cases hl : c.list with
    | nil => rw [hl] at h; cases h
    | cons k ks =>
      rw [hl] at h
      cases h with
      | cons e es =>
        simp only [e]
        rw [if_pos ⟨by rw [ho]; rfl, hw⟩]
  have key : andThen (fs, check fs c.list) (fun fs => copy fs c) = (fs, .throws) := by
    by_cases hb : ∀ g ∈ fl, f.bounds = g.bounds
    · exact andThen_throws ((check_iff h).1 hb) hcopy
    · rw [andThen_skip (s := (fs, check fs c.list)) ((check_iff h).2 hb), (check_iff h).2 hb]
  rw [run, key, andThen_skip rfl, andThen_skip rfl]
  exact ⟨rfl, rfl⟩

/-! ### Order and grouping -/

theorem at2_eq : ∀ (a b : List (List ℝ)), a.map List.length = b.map List.length → (∀ i j, at2 a i j = at2 b i j) → a = b
  | [], [], _, _ => rfl
  | [], _ :: _, h, _ => by simp at h
  | _ :: _, [], h, _ => by simp at h
  | x :: a, y :: b, h, hv => by
    simp only [List.map_cons, List.cons.injEq] at h
    have e1 : x = y := by
      apply List.ext_getElem h.1
      intro n h1 h2
      have := hv 0 n
      simpa [at2, List.getElem?_eq_getElem h1, List.getElem?_eq_getElem h2] using this
    have e2 := at2_eq a b h.2 fun i j => by simpa [at2] using hv (i + 1) j
    rw [e1, e2]

/-- Tables that differ at most in whether the keyword `ZENMAX` is written out. -/
def Same (a b : Tab) : Prop := a.rows = b.rows ∧ a.tstart = b.tstart ∧ a.tstop = b.tstop ∧ zen a = zen b

/-- The same for files. -/
def SameFile (a b : LtFile) : Prop := a.bounds = b.bounds ∧ Same a.main b.main ∧ Same a.weighted b.weighted

/-- The sum is determined by the tables, whatever their order. -/
theorem isSum_unique {ts us : List Tab} (hp : ts.Perm us) {s t : Tab} (h : IsSum ts s) (k : IsSum us t) : Same s t := by
  obtain ⟨a1, a2, a3, ⟨u, a4, a4'⟩, a5, ⟨v, a6, a6'⟩⟩ := h
  obtain ⟨b1, b2, b3, ⟨x, b4, b4'⟩, b5, ⟨y, b6, b6'⟩⟩ := k
  have hal : Alike s t := (a1 u a4).symm.trans (b1 u (hp.mem_iff.1 a4))
  refine ⟨at2_eq _ _ hal.1 fun i j => ?_, ?_, ?_, hal.2⟩
  · have e1 := a2 i j
    have e2 := b2 i j
    rw [cell_eq] at e1 e2
    rw [e1, e2]
    exact (hp.map _).sum_eq
  · apply le_antisymm
    · rw [b4']; exact a3 x (hp.mem_iff.2 b4)
    · rw [a4']; exact b3 u (hp.mem_iff.1 a4)
  · apply le_antisymm
    · rw [a6']; exact b5 v (hp.mem_iff.1 a6)
    · rw [b6']; exact a5 y (hp.mem_iff.2 b6)

theorem isSumFile_unique {fl gl : List LtFile} (hne : fl ≠ []) (hp : fl.Perm gl) {s t : LtFile} (h : IsSumFile fl s)
    (k : IsSumFile gl t) : SameFile s t := by
  obtain ⟨f, hf⟩ := List.exists_mem_of_ne_nil _ hne
  exact ⟨(h.1 f hf).symm.trans (k.1 f (hp.mem_iff.1 hf)), isSum_unique (hp.map _) h.2.1 k.2.1,
    isSum_unique (hp.map _) h.2.2 k.2.2⟩

/-- The sum of sums is the sum of all. -/
theorem isSum_append {ts us : List Tab} {a b s : Tab} (h : IsSum ts a) (k : IsSum us b) (hs : IsSum [a, b] s) :
    IsSum (ts ++ us) s := by
  obtain ⟨a1, a2, a3, ⟨u, a4, a4'⟩, a5, ⟨v, a6, a6'⟩⟩ := h
  obtain ⟨b1, b2, b3, ⟨x, b4, b4'⟩, b5, ⟨y, b6, b6'⟩⟩ := k
  obtain ⟨c1, c2, c3, ⟨p, c4, c4'⟩, c5, ⟨q, c6, c6'⟩⟩ := hs
  refine ⟨?_, ?_, ?_, ?_, ?_, ?_⟩
  · intro t ht
    rcases List.mem_append.1 ht with ht | ht
    · exact (a1 t ht).trans (c1 a (by simp))
    · exact (b1 t ht).trans (c1 b (by simp))
  · intro i j
    rw [c2]
    simp [a2 i j, b2 i j]
  · intro t ht
    rcases List.mem_append.1 ht with ht | ht
    · exact le_trans (c3 a (by simp)) (a3 t ht)
    · exact le_trans (c3 b (by simp)) (b3 t ht)
  · simp only [List.mem_cons, List.not_mem_nil, or_false] at c4
    rcases c4 with rfl | rfl
    · exact ⟨u, by simp [a4], by rw [c4', a4']⟩
    · exact ⟨x, by simp [b4], by rw [c4', b4']⟩
  · intro t ht
    rcases List.mem_append.1 ht with ht | ht
    · exact le_trans (a5 t ht) (c5 a (by simp))
    · exact le_trans (b5 t ht) (c5 b (by simp))
  · simp only [List.mem_cons, List.not_mem_nil, or_false] at c6
    rcases c6 with rfl | rfl
    · exact ⟨v, by simp [a6], by rw [c6', a6']⟩
    · exact ⟨y, by simp [b6], by rw [c6', b6']⟩

theorem isSumFile_append {fl gl : List LtFile} {a b s : LtFile} (h : IsSumFile fl a) (k : IsSumFile gl b)
    (hs : IsSumFile [a, b] s) : IsSumFile (fl ++ gl) s := by
  refine ⟨?_, ?_, ?_⟩
  · intro f hf
    rcases List.mem_append.1 hf with hf | hf
    · exact (h.1 f hf).trans (hs.1 a (by simp))
    · exact (k.1 f hf).trans (hs.1 b (by simp))
  · rw [List.map_append]; exact isSum_append h.2.1 k.2.1 hs.2.1
  · rw [List.map_append]; exact isSum_append h.2.2 k.2.2 hs.2.2

theorem Spec.Compatible.trans {a b c : LtFile} (h : Compatible a b) (k : Compatible b c) : Compatible a c :=
  ⟨h.1.trans k.1, h.2.1.trans k.2.1, h.2.2.trans k.2.2⟩

theorem Spec.Compatible.symm {a b : LtFile} (h : Compatible a b) : Compatible b a :=
  ⟨h.1.symm, h.2.1.symm, h.2.2.symm⟩

/-- **C106, order.**  The output does not depend on the order of the files. -/
theorem C106_order_partial {fs : FS} {c d : Call} {fl gl : List LtFile} (hc : Opens fs c.list fl) (hd : Opens fs d.list gl)
    (hp : fl.Perm gl) (hne : fl ≠ []) (h1 : c.out ∉ c.list) (h2 : d.out ∉ d.list) (w1 : Free fs c) (w2 : Free fs d)
    (hx : ∀ f ∈ fl, ∀ g ∈ fl, Compatible f g) :
    ∃ a b, (run fs c).1 c.out = some a ∧ (run fs d).1 d.out = some b ∧ SameFile a b := by
  obtain ⟨f, fl', rfl⟩ := List.exists_cons_of_ne_nil hne
  have hne2 : gl ≠ [] := by
    rintro rfl
    exact absurd hp.length_eq (by simp)
  obtain ⟨g, gl', rfl⟩ := List.exists_cons_of_ne_nil hne2
  obtain ⟨-, ⟨a, p1, p2⟩, -⟩ := C106_sum_partial hc h1 w1 fun x hx' => hx f (by simp) x (by simp [hx'])
  obtain ⟨-, ⟨b, q1, q2⟩, -⟩ := C106_sum_partial hd h2 w2 fun x hx' =>
    hx g (hp.mem_iff.2 (by simp)) x (hp.mem_iff.2 (by simp [hx']))
  exact ⟨a, b, p1, q1, isSumFile_unique hne hp p2 q2⟩

/-- **C106, grouping.**  Adding the sums of two groups of files gives the same as adding all files at
once. -/
theorem C106_grouping_partial {fs : FS} {as bs : List Nat} {fl gl : List LtFile} (ha : Opens fs as fl) (hb : Opens fs bs gl)
    (hne1 : fl ≠ []) (hne2 : gl ≠ []) (hx : ∀ f ∈ fl ++ gl, ∀ g ∈ fl ++ gl, Compatible f g)
    {x y z w : Nat} (hx1 : x ∉ as) (hx2 : x ∉ bs) (hy : y ∉ bs) (hxy : x ≠ y) (hzx : z ≠ x) (hzy : z ≠ y)
    (hw : w ∉ as ++ bs) :
    ∃ p q, (run (run (run fs ⟨as, x, true⟩).1 ⟨bs, y, true⟩).1 ⟨[x, y], z, true⟩).1 z = some p ∧
      (run fs ⟨as ++ bs, w, true⟩).1 w = some q ∧ SameFile p q := by
  obtain ⟨f, fl', rfl⟩ := List.exists_cons_of_ne_nil hne1
  obtain ⟨g, gl', rfl⟩ := List.exists_cons_of_ne_nil hne2
  obtain ⟨a, p1, p2⟩ := run_ok (c := ⟨as, x, true⟩) ha hx1 (Or.inr rfl) fun k hk => hx f (by simp) k (by simp [hk])
  rw [p1]
  have hb' : Opens (put fs x a) bs (g :: gl') := Opens.put hb hx2
  obtain ⟨b, q1, q2⟩ := run_ok (c := ⟨bs, y, true⟩) hb' hy (Or.inr rfl) fun k hk => hx g (by simp) k (by simp [hk])
  simp only [q1]
  have hab : Compatible a b := by
    have h1 : Compatible f a := ⟨p2.1 f (by simp), p2.2.1.1 _ (by simp), p2.2.2.1 _ (by simp)⟩
    have h2 : Compatible g b := ⟨q2.1 g (by simp), q2.2.1.1 _ (by simp), q2.2.2.1 _ (by simp)⟩
    exact h1.symm.trans ((hx f (by simp) g (by simp)).trans h2)
  have ho : Opens (put (put fs x a) y b) [x, y] [a, b] :=
    .cons (by rw [put_other _ _ hxy, put_self]) (.cons (put_self _ _ _) .nil)
  obtain ⟨s, s1, s2⟩ := run_ok (c := ⟨[x, y], z, true⟩) ho (by simp [hzx, hzy]) (Or.inr rfl) (by
    intro k hk
    rw [List.mem_singleton.1 hk]
    exact hab)
  simp only [s1]
  have hall : Opens fs (as ++ bs) ((f :: fl') ++ (g :: gl')) := List.rel_append ha hb
  obtain ⟨t, t1, t2⟩ := run_ok (c := ⟨as ++ bs, w, true⟩) (f := f) (fl := fl' ++ g :: gl') hall hw (Or.inr rfl)
    fun k hk => hx f (by simp) k (List.mem_cons_of_mem _ hk)
  simp only [t1]
  exact ⟨s, t, put_self _ _ _, put_self _ _ _,
    isSumFile_unique (by simp) (List.Perm.refl _) (isSumFile_append p2 q2 s2) t2⟩

/-- Two files. -/
def tab1 : Tab := ⟨[[1, 2], [3, 4]], 0, 10, none⟩
/-- Another. -/
def tab2 : Tab := ⟨[[5, 0], [0, 1]], 20, 30, some 180⟩
/-- The hypotheses can be met. -/
example : ∃ (fs : FS) (c : Call) (f : LtFile) (fl : List LtFile), Opens fs c.list (f :: fl) ∧ c.out ∉ c.list ∧ Free fs c ∧
    (∀ g ∈ fl, Compatible f g) ∧ fl ≠ [] ∧ ∃ i j, ∀ g ∈ f :: fl, cell g.main i j ≠ 0 := by
  refine ⟨fun k => if k = 0 then some ⟨[0, 1], tab1, tab1⟩ else if k = 1 then some ⟨[0, 1], tab2, tab2⟩ else none,
    ⟨[0, 1], 2, false⟩, ⟨[0, 1], tab1, tab1⟩, [⟨[0, 1], tab2, tab2⟩], .cons rfl (.cons rfl .nil), by simp, Or.inl rfl, ?_,
    by simp, 0, 0, ?_⟩
  · intro g hg
    rw [List.mem_singleton.1 hg]
    exact ⟨rfl, ⟨rfl, by simp [zen, tab1, tab2]⟩, ⟨rfl, by simp [zen, tab1, tab2]⟩⟩
  · intro g hg
    simp only [List.mem_cons, List.not_mem_nil, or_false] at hg
    rcases hg with rfl | rfl <;> simp [cell, tab1, tab2]

/-! ### Violations -/

/-- C106 is violated if the output is the second of two files and may be replaced: the second file is
overwritten with the first before it is read, and the result is twice the first file. -/
theorem C106_output_violates (fs : FS) (k l : Nat) (hkl : k ≠ l) (f g : LtFile) (hk : fs k = some f) (hl : fs l = some g)
    (hb : f.bounds = g.bounds) :
    (run fs ⟨[k, l], l, true⟩).2 = .ok () ∧
    ∃ o, (run fs ⟨[k, l], l, true⟩).1 l = some o ∧ IsSumFile [f, f] o := by
  have h0 : Opens fs [k, l] [f, g] := .cons hk (.cons hl .nil)
  have hcopy := copied_ok (c := ⟨[k, l], l, true⟩) h0 (Or.inr rfl) (by intro x hx; rw [List.mem_singleton.1 hx]; exact hb)
  have h1 : Opens (put fs l f) [k, l] [f, f] := .cons (by rw [put_other _ _ hkl]; exact hk) (.cons (put_self _ _ _) .nil)
  obtain ⟨t, p1, p2⟩ := addMain_ok (c := ⟨[k, l], l, true⟩) h1 (put_self _ _ _) rfl
    (by intro x hx; rw [List.mem_singleton.1 hx]; exact Alike.refl _)
  simp only [put_put] at p1
  have h2 : Opens (put fs l { f with main := t }) [k, l] [f, { f with main := t }] :=
    .cons (by rw [put_other _ _ hkl]; exact hk) (.cons (put_self _ _ _) .nil)
  obtain ⟨u, q1, q2⟩ := addWeighted_ok (c := ⟨[k, l], l, true⟩) h2 (put_self _ _ _) rfl
    (by intro x hx; rw [List.mem_singleton.1 hx]; exact Alike.refl _)
  simp only [put_put] at q1
  have hrun : run fs ⟨[k, l], l, true⟩ = (put fs l ⟨f.bounds, t, u⟩, .ok ()) := by
    rw [run]
    simp only at hcopy ⊢
    rw [hcopy, andThen_ok (f := fun fs => addMain fs _) rfl p1, andThen_ok rfl q1]
  rw [hrun]
  refine ⟨rfl, _, put_self _ _ _, ?_, p2, q2⟩
  intro x hx
  simp only [List.mem_cons, List.not_mem_nil, or_false, or_self] at hx
  rw [hx]

/-- The hypotheses can be met, and the sum is then another. -/
example : ∃ (fs : FS) (k l : Nat) (f g : LtFile), k ≠ l ∧ fs k = some f ∧ fs l = some g ∧ f.bounds = g.bounds ∧
    cell f.main 0 0 + cell f.main 0 0 ≠ cell f.main 0 0 + cell g.main 0 0 :=
  ⟨fun k => if k = 0 then some ⟨[0, 1], tab1, tab1⟩ else some ⟨[0, 1], tab2, tab2⟩, 0, 1, ⟨[0, 1], tab1, tab1⟩,
    ⟨[0, 1], tab2, tab2⟩, by simp, rfl, rfl, rfl, by simp [cell, tab1, tab2]⟩

/-- C106 is violated when files are refused for their cut in zenith angle or their size: the output has
been made before the test, and is a copy of the first file. -/
theorem C106_refused_violates {fs : FS} {c : Call} {f : LtFile} {fl : List LtFile} (h : Opens fs c.list (f :: fl))
    (ho : c.out ∉ c.list) (hw : Free fs c) (hb : ∀ g ∈ fl, f.bounds = g.bounds)
    (hm : ¬ ∀ g ∈ fl, Alike f.main g.main) :
    (run fs c).2 = .throws ∧ (run fs c).1 c.out = some f := by
  have h1 : Opens (put fs c.out f) c.list (f :: fl) := Opens.put h ho
  have q1 : addMain (put fs c.out f) c = .throws := by
    rw [addMain, total_throws LtFile.main h1 hm]; rfl
  rw [run, copied_ok h hw hb, andThen_throws (f := fun fs => addMain fs c) rfl q1, andThen_skip rfl]
  exact ⟨rfl, put_self _ _ _⟩

/-- The hypotheses can be met: a cut at 100 degrees in one of the files. -/
example : ∃ (fs : FS) (c : Call) (f : LtFile) (fl : List LtFile), Opens fs c.list (f :: fl) ∧ c.out ∉ c.list ∧ Free fs c ∧
    (∀ g ∈ fl, f.bounds = g.bounds) ∧ ¬ ∀ g ∈ fl, Alike f.main g.main := by
  refine ⟨fun k => if k = 0 then some ⟨[0, 1], tab1, tab1⟩ else
    if k = 1 then some ⟨[0, 1], { tab2 with zenmax := some 100 }, tab2⟩ else none,
    ⟨[0, 1], 2, false⟩, ⟨[0, 1], tab1, tab1⟩, [⟨[0, 1], { tab2 with zenmax := some 100 }, tab2⟩],
    .cons rfl (.cons rfl .nil), by simp, Or.inl rfl, by simp, ?_⟩
  intro h
  have := (h _ List.mem_cons_self).2
  norm_num [zen, tab1] at this

/-- C106 is violated for an empty list of files: the first of them is asked for. -/
theorem C106_empty_violates (fs : FS) (c : Call) (h : c.list = []) : (run fs c).2 = .ub := by
  unfold run
  rw [h]
  rfl

end Verif.LtSum
