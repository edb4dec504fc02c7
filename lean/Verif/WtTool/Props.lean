import Verif.WtTool.Model
import Verif.WtTool.Spec
import Verif.Weights.Props2
set_option linter.unusedSimpArgs false
set_option linter.unusedVariables false
/-
C170: the tools gtalphabkg and gtwtsmap.
-/
namespace Verif.WtTool
open Verif Verif.Weights Spec
open Verif.Vec (val)

theorem readMap_ok {d : Disk} {n : String} {m : Map} (h : d n = some m) : readMap d n = .ok m := by
  unfold readMap
  rw [h]

theorem writeAs_wcs (rnd : ℝ → ℝ) {m : Map} (h : m.kind = .wcs) :
    writeAsWeights rnd m = .ok ⟨m.npix, m.data, energies rnd m, []⟩ := by
  unfold writeAsWeights
  rw [h]
  rfl

theorem writeAs_hpx (rnd : ℝ → ℝ) {m : Map} (h : m.kind = .hpx) : writeAsWeights rnd m = .ub := by
  unfold writeAsWeights
  rw [h]
  rfl

theorem centers_getElem? : ∀ (l : List ℝ) (k : Nat),
    (centers l)[k]? = if k + 1 < l.length then some (Real.sqrt (nth l (k + 1) * nth l k)) else none
  | [], k => by simp [centers]
  | [a], k => by simp [centers]
  | a :: b :: l, 0 => by simp [centers, nth]
  | a :: b :: l, k + 1 => by
    rw [centers, List.getElem?_cons_succ, centers_getElem? (b :: l) k]
    simp only [List.length_cons, nth, List.getElem?_cons_succ]
    by_cases h : k < l.length
    · rw [if_pos (by omega), if_pos (by omega)]
    · rw [if_neg (by omega), if_neg (by omega)]

/-- The keywords gtwtsmap writes. -/
theorem keys_ok (eps : ℝ) (b a : String) :
    Key [("EPSILON", .num eps), ("BKGMAP", .str b), ("ALPHAMAP", .str a)] "EPSILON" (.num eps) ∧
      Key [("EPSILON", .num eps), ("BKGMAP", .str b), ("ALPHAMAP", .str a)] "BKGMAP" (.str b) ∧
      Key [("EPSILON", .num eps), ("BKGMAP", .str b), ("ALPHAMAP", .str a)] "ALPHAMAP" (.str a) := by
  refine ⟨⟨[], [("BKGMAP", .str b), ("ALPHAMAP", .str a)], rfl, ?_⟩,
    ⟨[("EPSILON", .num eps)], [("ALPHAMAP", .str a)], rfl, ?_⟩,
    ⟨[("EPSILON", .num eps), ("BKGMAP", .str b)], [], rfl, ?_⟩⟩
  · intro p hp
    simp only [List.mem_cons, List.mem_nil_iff, or_false] at hp
    rcases hp with e | e <;> subst e <;> simp
  · intro p hp
    simp only [List.mem_cons, List.mem_nil_iff, or_false] at hp
    subst hp
    simp
  · intro p hp
    cases hp

theorem energies_ok (rnd : ℝ → ℝ) (m : Map) (w : List ℝ) : energies rnd { m with data := w } = energies rnd m := rfl

/-- Without a map of factors gtwtsmap writes, for an image, the weight of every pixel of the background at the
centres of its energy bins, and says where the weights come from. -/
theorem C170_weights_partial (rnd : ℝ → ℝ) {d : Disk} {b a : String} {eps : ℝ} {m : Map} (ha : a = "none" ∨ a = "")
    (hb : d b = some m) (hk : m.kind = .wcs) (hn : 20 ≤ m.data.length) (hm : ∀ x ∈ m.data, 0 ≤ x) :
    ∃ f, gtwtsmap rnd d b a eps = .ok f ∧ f.npix = m.npix ∧ f.data.length = m.data.length ∧
      (∀ i, i < m.data.length → nth f.data i = weight eps 1 (nth m.data i)) ∧
      (∀ k : Nat, f.energies[k]? = if k + 1 < m.edges.length then
        some (rnd (Real.sqrt (nth m.edges (k + 1) * nth m.edges k))) else none) ∧
      Key f.keys "EPSILON" (.num eps) ∧ Key f.keys "BKGMAP" (.str b) ∧ Key f.keys "ALPHAMAP" (.str a) := by
  obtain ⟨r, r1, r2, r3, _⟩ := C71_weights_partial (eps2 := eps * eps) hm hn (mul_self_nonneg eps)
  refine ⟨⟨m.npix, r, energies rnd m, [("EPSILON", .num eps), ("BKGMAP", .str b), ("ALPHAMAP", .str a)]⟩, ?_, rfl, r2,
    ?_, ?_, keys_ok eps b a⟩
  · unfold gtwtsmap
    rw [if_pos ha, Res.bind_ok, readMap_ok hb, Res.bind_ok]
    show (makeWtsMap (eps * eps) none m.data >>= _) = _
    rw [r1, Res.bind_ok, writeAs_wcs rnd (m := { m with data := r }) hk]
    rfl
  · intro i hi
    show val r i = _
    rw [(r3 i hi).1]
    unfold weight
    rw [sq]
    rfl
  · intro k
    show (energies rnd m)[k]? = _
    unfold energies
    rw [List.getElem?_map, centers_getElem?]
    split_ifs <;> rfl

theorem readMaps_ok {d : Disk} : ∀ {ns : List String} {ms : List Map}, ns.map d = ms.map some →
    readMaps d ns = .ok ms
  | [], [], _ => rfl
  | [], _ :: _, h => by simp at h
  | _ :: _, [], h => by simp at h
  | n :: ns, m :: ms, h => by
    rw [List.map_cons, List.map_cons, List.cons.injEq] at h
    rw [readMaps, readMap_ok h.1, Res.bind_ok, readMaps_ok h.2]
    rfl

/-- The keywords with the names of the maps. -/
theorem named_length (ns : List String) : ((List.range ns.length).filterMap fun i =>
    ns[i]?.map fun n => ("BKGMAP" ++ toString (i + 1), Val.str n)).length = ns.length := by
  rw [List.length_filterMap_eq_countP]
  have : ∀ a ∈ List.range ns.length,
      ((ns[a]?.map fun n => ("BKGMAP" ++ toString (a + 1), Val.str n)).isSome) = true := by
    intro a ha
    rw [List.getElem?_eq_getElem (List.mem_range.1 ha)]
    rfl
  rw [List.countP_eq_length.2 this, List.length_range]

theorem named_mem (ns : List String) (i : Nat) (x : String) (h : ns[i]? = some x) :
    ("BKGMAP" ++ toString (i + 1), Val.str x) ∈ (List.range ns.length).filterMap fun i =>
      ns[i]?.map fun n => ("BKGMAP" ++ toString (i + 1), Val.str n) := by
  refine List.mem_filterMap.2 ⟨i, List.mem_range.2 ?_, by rw [h]; rfl⟩
  obtain ⟨hi, _⟩ := List.getElem?_eq_some_iff.1 h
  exact hi

/-- gtalphabkg for the backgrounds of several components, then gtwtsmap for one of these with the map just
written: the weight of every pixel is the factor over one plus the background, above zero and at most one. -/
theorem C170_chain_partial (rnd : ℝ → ℝ) {d : Disk} {ns : List String} {ms : List Map} {b out : String} {eps : ℝ}
    {m : Map} {n : Nat} (hr : ns.map d = ms.map some) (hb : b ∈ ns) (hd : d b = some m) (ho : out ≠ b)
    (ho1 : out ≠ "none") (ho2 : out ≠ "") (hk : m.kind = .wcs) (hn : 20 ≤ n)
    (hs : ∀ m ∈ ms, m.data.length = n ∧ ∀ x ∈ m.data, 0 ≤ x) :
    ∃ d' keys f a, gtalphabkg d ns eps out = .ok (d', keys) ∧ (∀ x, x ≠ out → d' x = d x) ∧
      (∃ m0, ms.head? = some m0 ∧ d' out = some { m0 with data := a }) ∧
      Key keys "EPSILON" (.num eps) ∧ keys.length = ns.length + 1 ∧
      (∀ (i : Nat) (x : String), ns[i]? = some x → ("BKGMAP" ++ toString (i + 1), Val.str x) ∈ keys) ∧
      gtwtsmap rnd d' b out eps = .ok f ∧ f.data.length = n ∧ Key f.keys "ALPHAMAP" (.str out) ∧
      ∀ i, i < n → (∃ b0 ∈ ms.map (fun m => nth m.data i), (∀ x ∈ ms.map (fun m => nth m.data i), b0 ≤ x) ∧
          nth a i = factor eps b0 (ms.map fun m => nth m.data i)) ∧
        nth f.data i = weight eps (nth a i) (nth m.data i) ∧ 0 < nth f.data i ∧ nth f.data i ≤ 1 := by
  have hne : ms ≠ [] := by
    intro e
    subst e
    have : ns = [] := by simpa using hr
    subst this
    cases hb
  have hmem : m ∈ ms := by
    have h1 : d b ∈ ms.map some := hr ▸ List.mem_map_of_mem hb
    rw [hd] at h1
    obtain ⟨m', h2, h3⟩ := List.mem_map.1 h1
    cases h3
    exact h2
  have hM : Maps (ms.map Map.data) n := ⟨by simpa using hne, by
      intro l hl
      obtain ⟨m', h1, h2⟩ := List.mem_map.1 hl
      subst h2
      exact (hs m' h1).1, by
      intro l hl
      obtain ⟨m', h1, h2⟩ := List.mem_map.1 hl
      subst h2
      exact (hs m' h1).2⟩
  obtain ⟨a, r, a1, r1, r2, r3⟩ := C71_product_partial (eps2 := eps * eps) hM hn (mul_self_nonneg eps)
    (List.mem_map_of_mem (f := Map.data) hmem)
  obtain ⟨a', c1, c2, c3⟩ := C71_alpha_partial (eps2 := eps * eps) hM hn (mul_self_nonneg eps)
  rw [a1] at c1
  injection c1 with c1
  injection c1 with c1
  subst c1
  cases ms with
  | nil => exact absurd rfl hne
  | cons m0 ms =>
    have hg : gtalphabkg d ns eps out = .ok (fun n => if n = out then some { m0 with data := a } else d n,
        ("EPSILON", .num eps) :: (List.range ns.length).filterMap fun i =>
          ns[i]?.map fun n => ("BKGMAP" ++ toString (i + 1), .str n)) := by
      unfold gtalphabkg
      rw [readMaps_ok hr, Res.bind_ok, a1, Res.bind_ok]
    refine ⟨_, _, ⟨m.npix, r, energies rnd m, [("EPSILON", .num eps), ("BKGMAP", .str b), ("ALPHAMAP", .str out)]⟩, a,
      hg, ?_, ⟨m0, rfl, ?_⟩, ?_, ?_, ?_, ?_, r2, (keys_ok eps b out).2.2, ?_⟩
    · intro x hx
      exact if_neg hx
    · exact if_pos rfl
    · refine ⟨[], _, rfl, ?_⟩
      intro p hp
      obtain ⟨i, _, h2⟩ := List.mem_filterMap.1 hp
      cases hi : ns[i]? with
      | none =>
        rw [hi] at h2
        cases h2
      | some x =>
        rw [hi] at h2
        injection h2 with h2
        subst h2
        simp only
        intro e
        have e2 := congrArg String.toList e
        rw [String.toList_append] at e2
        have e3 := congrArg List.head? e2
        have t1 : "BKGMAP".toList = ['B', 'K', 'G', 'M', 'A', 'P'] := by decide
        have t2 : "EPSILON".toList = ['E', 'P', 'S', 'I', 'L', 'O', 'N'] := by decide
        rw [t1, t2] at e3
        simp at e3
    · rw [List.length_cons, named_length]
    · intro i x hx
      exact List.mem_cons_of_mem _ (named_mem ns i x hx)
    · unfold gtwtsmap
      rw [if_neg (by
        rintro (e | e)
        · exact ho1 e
        · exact ho2 e)]
      rw [readMap_ok (m := { m0 with data := a }) (by simp), Res.bind_ok, Res.bind_ok,
        readMap_ok (m := m) ((if_neg (Ne.symm ho)).trans hd), Res.bind_ok]
      show (makeWtsMap (eps * eps) (some a) m.data >>= _) = _
      rw [r1, Res.bind_ok, writeAs_wcs rnd (m := { m with data := r }) hk]
      rfl
    · intro i hi
      obtain ⟨b0, q1, q2, q3, _, _⟩ := c3 i hi
      obtain ⟨g1, g2, g3⟩ := r3 i hi
      have hmap : ((m0 :: ms).map Map.data).map (fun l => val l i) = (m0 :: ms).map fun m => nth m.data i := by
        rw [List.map_map]
        rfl
      rw [hmap] at q1 q2 q3
      refine ⟨⟨b0, q1, q2, ?_⟩, ?_, g2, g3⟩
      · show val a i = _
        rw [q3]
        unfold Weights.Spec.alpha factor
        rw [sq eps]
      · show val r i = _
        rw [g1]
        unfold weight
        rw [sq eps]
        rfl

/-- A missing map ends both tools before anything is written. -/
theorem C170_missing (rnd : ℝ → ℝ) (d : Disk) (b a out : String) (eps : ℝ) (n : String) (ns : List String)
    (hb : d b = none) (hn : d n = none) :
    (gtwtsmap rnd d b "none" eps = .throws) ∧ gtalphabkg d (n :: ns) eps out = .throws := by
  constructor
  · unfold gtwtsmap
    rw [if_pos (Or.inl rfl), Res.bind_ok]
    unfold readMap
    rw [hb]
    rfl
  · unfold gtalphabkg
    rw [readMaps]
    unfold readMap
    rw [hn]
    rfl

/-- For a HEALPix map gtwtsmap never ends well: the table is deleted twice. -/
theorem C170_healpix_violates (rnd : ℝ → ℝ) {d : Disk} {b a : String} {eps : ℝ} {m : Map}
    (ha : a = "none" ∨ a = "" ∨ ∃ m', d a = some m') (hb : d b = some m) (hk : m.kind = .hpx) :
    ∀ f, gtwtsmap rnd d b a eps ≠ .ok f := by
  intro f
  have key : ∀ o : Option (List ℝ), ∀ g : WtFile → Res WtFile,
      (makeWtsMap (eps * eps) o m.data >>= fun w => writeAsWeights rnd { m with data := w } >>= g) ≠ .ok f := by
    intro o g
    cases hw : makeWtsMap (eps * eps) o m.data with
    | ok w =>
      rw [Res.bind_ok, writeAs_hpx rnd (m := { m with data := w }) hk]
      intro h
      cases h
    | throws =>
      intro h
      cases h
    | ub =>
      intro h
      cases h
  unfold gtwtsmap
  by_cases h1 : a = "none" ∨ a = ""
  · rw [if_pos h1, Res.bind_ok, readMap_ok hb, Res.bind_ok]
    exact key _ _
  · rw [if_neg h1]
    rcases ha with e | e | ⟨m', e⟩
    · exact absurd (Or.inl e) h1
    · exact absurd (Or.inr e) h1
    · rw [readMap_ok e, Res.bind_ok, Res.bind_ok, readMap_ok hb, Res.bind_ok]
      exact key _ _

/-- The same, when the weights themselves can be computed: the behaviour is undefined. -/
theorem C170_healpix_undefined_violates (rnd : ℝ → ℝ) {d : Disk} {b : String} {eps : ℝ} {m : Map}
    (hb : d b = some m) (hk : m.kind = .hpx) (hn : 20 ≤ m.data.length) (hm : ∀ x ∈ m.data, 0 ≤ x) :
    gtwtsmap rnd d b "none" eps = .ub := by
  obtain ⟨r, r1, _⟩ := C71_weights_partial (eps2 := eps * eps) hm hn (mul_self_nonneg eps)
  unfold gtwtsmap
  rw [if_pos (Or.inl rfl), Res.bind_ok, readMap_ok hb, Res.bind_ok]
  show (makeWtsMap (eps * eps) none m.data >>= _) = _
  rw [r1, Res.bind_ok, writeAs_hpx rnd (m := { m with data := r }) hk]
  rfl

/-- gtalphabkg without input maps uses a null pointer. -/
theorem C170_no_inputs_violates (d : Disk) (eps : ℝ) (out : String) : gtalphabkg d [] eps out = .ub := rfl

/-- A disk with two backgrounds. -/
noncomputable def exDisk : Disk := fun n =>
  if n = "a.fits" then some ⟨.wcs, 10, [100, 200, 400], List.replicate 20 1⟩
  else if n = "b.fits" then some ⟨.wcs, 10, [100, 200, 400], List.replicate 20 2⟩
  else if n = "h.fits" then some ⟨.hpx, 12, [100, 200, 400], List.replicate 24 2⟩
  else none

example : ["a.fits", "b.fits"].map exDisk =
    [(⟨.wcs, 10, [100, 200, 400], List.replicate 20 1⟩ : Map), ⟨.wcs, 10, [100, 200, 400], List.replicate 20 2⟩].map some := by
  simp [exDisk]

example : ∃ m, exDisk "h.fits" = some m ∧ m.kind = .hpx ∧ 20 ≤ m.data.length ∧ ∀ x ∈ m.data, 0 ≤ x := by
  refine ⟨⟨.hpx, 12, [100, 200, 400], List.replicate 24 2⟩, by simp [exDisk], rfl, by simp, ?_⟩
  intro x hx
  rw [List.eq_of_mem_replicate hx]
  norm_num

example : exDisk "c.fits" = none := by simp [exDisk]

end Verif.WtTool
