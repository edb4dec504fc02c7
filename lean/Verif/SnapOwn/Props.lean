import Verif.SnapOwn.Lemmas
import Mathlib.Tactic.NormNum
set_option linter.unusedSimpArgs false
set_option linter.unusedVariables false
/-
C168: a snapshot keeps its parameters to itself.
-/
namespace Verif.SnapOwn
open Verif Spec

theorem read_ok {h : Heap} {a : Nat} {v : ℝ} (ha : h.cell a = some v) : read h a = .ok v := by
  unfold read
  rw [ha]

theorem insertAll_nil (l : Params) : insertAll [] l = l := by
  simp [insertAll]

/-- The shape of a snapshot that owns its parameters: they lie above `n`, are distinct and exist. -/
def Owns (n : Nat) (t : Snap) (h : Heap) : Prop :=
  t.owned = true ∧ (t.norm :: (t.spat.map Prod.snd ++ t.spec.map Prod.snd)).Nodup ∧
    (∀ a, n ≤ a → ((∃ v, h.cell a = some v) ↔ a ∈ t.norm :: (t.spat.map Prod.snd ++ t.spec.map Prod.snd))) ∧
    ∀ a ∈ t.norm :: (t.spat.map Prod.snd ++ t.spec.map Prod.snd), n ≤ a

/-- Latching with ownership. -/
theorem latch_owned {h : Heap} {s : Src} (hs : Sound h) (ha : Alive h s) :
    ∃ t h', latch fresh s true h = .ok (t, h') ∧ Owns h.next t h' ∧ Holds h s h' t ∧ t.spatName = s.spatName ∧
      Sound h' ∧ ∀ a, a < h.next → h'.cell a = h.cell a := by
  obtain ⟨⟨v, hv⟩, ha2, ha3⟩ := ha
  have hs1 := alloc_sound hs v
  have hn1 : (alloc h v).1.next = h.next + 1 := rfl
  obtain ⟨l2, h2, a1, a2, a3, a4, a5, a6, a7⟩ := copyMap_ok s.spec (alloc h v).1 hs1 (by
    intro p hp
    obtain ⟨w, hw⟩ := ha2 p hp
    exact ⟨w, by rw [alloc_cell_lt (sound_lt hs hw), hw]⟩)
  rw [hn1] at a3 a4 a5 a6
  obtain ⟨l3, h3, b1, b2, b3, b4, b5, b6, b7⟩ := copyMap_ok s.spat h2 a2 (by
    intro p hp
    obtain ⟨w, hw⟩ := ha3 p hp
    have := sound_lt hs hw
    exact ⟨w, by rw [a5 _ (by omega), alloc_cell_lt this, hw]⟩)
  rw [a3] at b3 b4 b5 b6
  have low : ∀ a, a < h.next → h3.cell a = h.cell a := by
    intro a haa
    rw [b5 a (by omega), a5 a (by omega), alloc_cell_lt haa]
  have top : h3.cell h.next = some v := by
    rw [b5 _ (by omega), a5 _ (by omega)]
    simp [alloc]
  have mem : ∀ a, a ∈ h.next :: (l3.map Prod.snd ++ l2.map Prod.snd) ↔ h.next ≤ a ∧ a < h3.next := by
    intro a
    rw [a4, b4, b3]
    simp only [List.mem_cons, List.mem_append, List.mem_range'_1]
    omega
  refine ⟨⟨true, h.next, l2, s.spatName, l3⟩, h3, ?_, ⟨rfl, ?_, ?_, ?_⟩, ⟨?_, ?_, ?_⟩, rfl, b2, low⟩
  · unfold latch release fresh
    simp only [Bool.false_eq_true, if_false, Res.bind_ok, if_true]
    rw [read_ok hv, Res.bind_ok]
    show (copyMap false s.spec (alloc h v).1 >>= _) = _
    rw [a1, Res.bind_ok]
    show (copyMap false s.spat h2 >>= _) = _
    rw [b1, Res.bind_ok]
    simp [insertAll_nil, alloc]
  · show (h.next :: (l3.map Prod.snd ++ l2.map Prod.snd)).Nodup
    rw [a4, b4, List.nodup_cons, List.nodup_append]
    refine ⟨?_, List.nodup_range', List.nodup_range', ?_⟩
    · simp only [List.mem_append, List.mem_range'_1]
      omega
    · intro x hx y hy
      rw [List.mem_range'_1] at hx hy
      omega
  · intro a haa
    show _ ↔ a ∈ h.next :: (l3.map Prod.snd ++ l2.map Prod.snd)
    rw [mem]
    constructor
    · rintro ⟨w, hw⟩
      exact ⟨haa, sound_lt b2 hw⟩
    · rintro ⟨_, h2'⟩
      by_cases e : a = h.next
      · exact ⟨v, by rw [e, top]⟩
      by_cases e2 : a < h.next + 1 + s.spec.length
      · obtain ⟨w, hw⟩ := a6 a (by omega) (by omega)
        exact ⟨w, by rw [b5 a e2, hw]⟩
      · exact b6 a (by omega) h2'
  · intro a h1
    exact ((mem a).1 h1).1
  · show h3.cell h.next = h.cell s.norm
    rw [top, hv]
  · show Agree h s.spec h3 l2
    unfold Agree at a7 ⊢
    have e1 : s.spec.map (fun p => (p.1, h.cell p.2)) = s.spec.map (fun p => (p.1, (alloc h v).1.cell p.2)) := by
      apply List.map_congr_left
      intro p hp
      obtain ⟨w, hw⟩ := ha2 p hp
      rw [alloc_cell_lt (sound_lt hs hw)]
    rw [e1, a7]
    apply List.map_congr_left
    intro p hp
    have : p.2 ∈ l2.map Prod.snd := List.mem_map_of_mem hp
    rw [a4, List.mem_range'_1] at this
    rw [b5 p.2 (by omega)]
  · show Agree h s.spat h3 l3
    unfold Agree at b7 ⊢
    rw [← b7]
    apply List.map_congr_left
    intro p hp
    obtain ⟨w, hw⟩ := ha3 p hp
    have := sound_lt hs hw
    rw [a5 _ (by omega), alloc_cell_lt this]

/-- Destroying a snapshot that owns its parameters. -/
theorem destroy_owned {n : Nat} {t : Snap} {h : Heap} (ho : Owns n t h) :
    ∃ h', destroy t h = .ok h' ∧ (∀ a, a < n → h'.cell a = h.cell a) ∧ ∀ a, n ≤ a → h'.cell a = none := by
  obtain ⟨o1, o2, o3, o4⟩ := ho
  obtain ⟨v, hv⟩ := (o3 t.norm (o4 _ List.mem_cons_self)).2 List.mem_cons_self
  have o2' := o2
  rw [List.nodup_cons, List.nodup_append] at o2
  obtain ⟨n1, n2, n3, n4⟩ := o2
  have live : ∀ a ∈ t.spat.map Prod.snd ++ t.spec.map Prod.snd, ∃ v, (without h [t.norm]).cell a = some v := by
    intro a ha
    obtain ⟨w, hw⟩ := (o3 a (o4 _ (List.mem_cons_of_mem _ ha))).2 (List.mem_cons_of_mem _ ha)
    refine ⟨w, ?_⟩
    simp only [without, List.mem_cons, List.mem_nil_iff, or_false]
    rw [if_neg (fun e : a = t.norm => n1 (e ▸ ha)), hw]
  refine ⟨without (without (without h [t.norm]) (t.spat.map Prod.snd)) (t.spec.map Prod.snd), ?_, ?_, ?_⟩
  · unfold destroy
    rw [if_pos o1, free_ok hv, Res.bind_ok, freeMap_ok _ _ n2, Res.bind_ok, freeMap_ok _ _ n3]
    · intro p hp
      have hp' : p.2 ∈ t.spec.map Prod.snd := List.mem_map_of_mem hp
      obtain ⟨w, hw⟩ := live p.2 (List.mem_append_right _ hp')
      refine ⟨w, ?_⟩
      show (if p.2 ∈ t.spat.map Prod.snd then none else (without h [t.norm]).cell p.2) = some w
      rw [if_neg (fun e => n4 _ e _ hp' rfl), hw]
    · intro p hp
      exact live p.2 (List.mem_append_left _ (List.mem_map_of_mem hp))
  · intro a ha
    have hm : a ∉ t.norm :: (t.spat.map Prod.snd ++ t.spec.map Prod.snd) := by
      intro e
      have := o4 a e
      omega
    rw [List.mem_cons, List.mem_append, not_or, not_or] at hm
    simp only [without, List.mem_cons, List.mem_nil_iff, or_false]
    rw [if_neg hm.2.2, if_neg hm.2.1, if_neg hm.1]
  · intro a ha
    simp only [without, List.mem_cons, List.mem_nil_iff, or_false]
    by_cases hm : a ∈ t.norm :: (t.spat.map Prod.snd ++ t.spec.map Prod.snd)
    · rw [List.mem_cons, List.mem_append] at hm
      by_cases h1 : a ∈ t.spec.map Prod.snd
      · rw [if_pos h1]
      · rw [if_neg h1]
        by_cases h2 : a ∈ t.spat.map Prod.snd
        · rw [if_pos h2]
        · rw [if_neg h2, if_pos]
          rcases hm with e | e | e
          · exact e
          · exact absurd e h2
          · exact absurd e h1
    · have hx : h.cell a = none := by
        cases hc : h.cell a with
        | none => rfl
        | some w => exact absurd ((o3 a ha).1 ⟨w, hc⟩) hm
      rw [hx]
      simp

/-- A new snapshot that owns its parameters holds those of the source, wherever they are kept, and leaves the
source alone. -/
theorem C168_latched {h : Heap} {s : Src} (hs : Sound h) (ha : Alive h s) :
    ∃ t h', latch fresh s true h = .ok (t, h') ∧ Holds h s h' t ∧ ∀ a, a < h.next → h'.cell a = h.cell a := by
  obtain ⟨t, h', k1, _, k3, _, _, k5⟩ := latch_owned hs ha
  exact ⟨t, h', k1, k3, k5⟩

/-- Whatever happens to the parameters that existed before — also their removal — such a snapshot keeps what it
holds. -/
theorem C168_apart {h : Heap} {s : Src} (hs : Sound h) (ha : Alive h s) {t : Snap} {h' : Heap}
    (hl : latch fresh s true h = .ok (t, h')) (k : Heap) (hk : ∀ a, h.next ≤ a → k.cell a = h'.cell a) :
    Holds h s k t := by
  obtain ⟨t', h'', k1, k2, k3, _, _, _⟩ := latch_owned hs ha
  rw [hl] at k1
  injection k1 with e
  injection e with e1 e2
  subst e1
  subst e2
  obtain ⟨m1, m2, m3⟩ := k3
  have up := k2.2.2.2
  refine ⟨?_, ?_, ?_⟩
  · rw [hk _ (up _ List.mem_cons_self), m1]
  · unfold Agree at m2 ⊢
    rw [m2]
    apply List.map_congr_left
    intro p hp
    rw [hk _ (up _ (List.mem_cons_of_mem _ (List.mem_append_right _ (List.mem_map_of_mem hp))))]
  · unfold Agree at m3 ⊢
    rw [m3]
    apply List.map_congr_left
    intro p hp
    rw [hk _ (up _ (List.mem_cons_of_mem _ (List.mem_append_left _ (List.mem_map_of_mem hp))))]

/-- Its destruction gives everything back and takes nothing from the source. -/
theorem C168_destroyed {h : Heap} {s : Src} (hs : Sound h) (ha : Alive h s) :
    ∃ t h' h'', latch fresh s true h = .ok (t, h') ∧ destroy t h' = .ok h'' ∧ h''.cell = h.cell := by
  obtain ⟨t, h', k1, k2, _, _, _, k5⟩ := latch_owned hs ha
  obtain ⟨h'', d1, d2, d3⟩ := destroy_owned k2
  refine ⟨t, h', h'', k1, d1, ?_⟩
  funext a
  by_cases e : a < h.next
  · rw [d2 a e, k5 a e]
  · rw [d3 a (by omega), hs a (by omega)]

/-- A snapshot that owns nothing is the source's parameters themselves, and its destruction does nothing. -/
theorem C168_view (h : Heap) (s : Src) : ∃ t, latch fresh s false h = .ok (t, h) ∧ Holds h s h t ∧
    destroy t h = .ok h := by
  refine ⟨⟨false, s.norm, s.spec, "" ++ s.spatName, insertAll [] s.spat⟩, rfl, ⟨rfl, rfl, ?_⟩, rfl⟩
  show Agree h s.spat h (insertAll [] s.spat)
  rw [insertAll_nil]
  rfl

/-- A snapshot that owns its parameters sees no change of the type of its source right after it was made. -/
theorem C168_compared {h : Heap} {s : Src} (hs : Sound h) (ha : Alive h s) :
    ∃ t h', latch fresh s true h = .ok (t, h') ∧ compareSpatial t s h' = .ok false := by
  obtain ⟨t, h', k1, _, k3, k4, _, _⟩ := latch_owned hs ha
  refine ⟨t, h', k1, ?_⟩
  have hn : t.spat.map Prod.fst = s.spat.map Prod.fst := by
    have := congrArg (List.map Prod.fst) k3.2.2
    simpa [List.map_map, Function.comp_def] using this.symm
  show Res.ok (spatialChanged t ⟨false, s.norm, s.spec, "" ++ s.spatName, insertAll [] s.spat⟩) = _
  unfold spatialChanged
  simp only [insertAll_nil, k4, hn]
  simp

/-- A deep copy of a snapshot that is only a view, then its destruction: the source's normalisation is gone, and
reading it is undefined. -/
theorem C168_deep_copy_violates {h : Heap} {s : Src} (hs : Sound h) (ha : Alive h s) :
    ∃ t t' h' h'', latch fresh s false h = .ok (t, h) ∧ deepCopy t h = .ok (t', h') ∧
      t'.owned = true ∧ t'.norm = s.norm ∧ destroy t' h' = .ok h'' ∧ h.cell s.norm ≠ none ∧
      read h'' s.norm = .ub := by
  obtain ⟨⟨v, hv⟩, ha2, ha3⟩ := ha
  obtain ⟨l2, h2, a1, a2, a3, a4, a5, a6, a7⟩ := copyMap_ok s.spat h hs ha3
  obtain ⟨l3, h3, b1, b2, b3, b4, b5, b6, b7⟩ := copyMap_ok s.spec h2 a2 (by
    intro p hp
    obtain ⟨w, hw⟩ := ha2 p hp
    exact ⟨w, by rw [a5 _ (sound_lt hs hw), hw]⟩)
  rw [a3] at b3 b4 b5 b6
  have hlt := sound_lt hs hv
  have hnorm : h3.cell s.norm = some v := by rw [b5 _ (by omega), a5 _ hlt, hv]
  refine ⟨⟨false, s.norm, s.spec, "" ++ s.spatName, insertAll [] s.spat⟩,
    ⟨true, s.norm, l3, "" ++ s.spatName, l2⟩, h3,
    without (without (without h3 [s.norm]) (l2.map Prod.snd)) (l3.map Prod.snd), rfl, ?_, rfl, rfl, ?_, ?_, ?_⟩
  · unfold deepCopy
    simp only [Bool.false_eq_true, if_false, Res.bind_ok, insertAll_nil]
    rw [a1, Res.bind_ok]
    show (copyMap false s.spec h2 >>= _) = _
    rw [b1]
    rfl
  · unfold destroy
    rw [if_pos rfl, free_ok hnorm, Res.bind_ok, freeMap_ok _ _ (by rw [a4]; exact List.nodup_range'), Res.bind_ok,
      freeMap_ok _ _ (by rw [b4]; exact List.nodup_range')]
    · intro p hp
      have hp' : p.2 ∈ l3.map Prod.snd := List.mem_map_of_mem hp
      rw [b4, List.mem_range'_1] at hp'
      obtain ⟨w, hw⟩ := b6 p.2 hp'.1 (by omega)
      refine ⟨w, ?_⟩
      show (if p.2 ∈ l2.map Prod.snd then none else (without h3 [s.norm]).cell p.2) = some w
      rw [if_neg (by rw [a4, List.mem_range'_1]; omega)]
      simp only [without, List.mem_cons, List.mem_nil_iff, or_false]
      rw [if_neg (by omega), hw]
    · intro p hp
      have hp' : p.2 ∈ l2.map Prod.snd := List.mem_map_of_mem hp
      rw [a4, List.mem_range'_1] at hp'
      obtain ⟨w, hw⟩ := a6 p.2 hp'.1 (by omega)
      refine ⟨w, ?_⟩
      simp only [without, List.mem_cons, List.mem_nil_iff, or_false]
      rw [if_neg (by omega), b5 _ (by omega), hw]
  · rw [hv]
    exact fun e => by cases e
  · unfold read
    have : (without (without (without h3 [s.norm]) (l2.map Prod.snd)) (l3.map Prod.snd)).cell s.norm = none := by
      simp [without]
    rw [this]

/-- Two snapshots with the same parameters, as the copy the compiler writes leaves them: the second destruction
is undefined. -/
theorem C168_copied_violates {h : Heap} {s : Src} (hs : Sound h) (ha : Alive h s) :
    ∃ t h', latch fresh s true h = .ok (t, h') ∧ (destroy t h' >>= destroy t) = .ub := by
  obtain ⟨t, h', k1, k2, _, _, _, k5⟩ := latch_owned hs ha
  obtain ⟨h'', d1, d2, d3⟩ := destroy_owned k2
  refine ⟨t, h', k1, ?_⟩
  rw [d1, Res.bind_ok]
  unfold destroy
  rw [if_pos k2.1]
  have : free h'' t.norm = .ub := by
    unfold free
    rw [d3 _ (k2.2.2.2 _ List.mem_cons_self)]
  rw [this]
  rfl

/-- A snapshot taken twice of a source that did not change says that its spatial type changed. -/
theorem C168_relatched_violates (h : Heap) (s : Src) (hn : s.spatName ≠ "") :
    ∃ t t', latch fresh s false h = .ok (t, h) ∧ latch t s false h = .ok (t', h) ∧
      compareSpatial t s h = .ok false ∧ compareSpatial t' s h = .ok true := by
  refine ⟨_, _, rfl, rfl, ?_, ?_⟩
  · show Res.ok (spatialChanged _ ⟨false, s.norm, s.spec, "" ++ s.spatName, insertAll [] s.spat⟩) = _
    simp [spatialChanged, fresh]
  · show Res.ok (spatialChanged _ ⟨false, s.norm, s.spec, "" ++ s.spatName, insertAll [] s.spat⟩) = _
    have : s.spatName ++ s.spatName ≠ s.spatName := by
      intro e
      have := congrArg String.length e
      rw [String.length_append] at this
      exact hn (String.length_eq_zero_iff.1 (by omega))
    congr 1
    unfold spatialChanged
    simp [fresh, this]

/-- A deep copy of a snapshot that owns its parameters. -/
theorem deepCopy_owned {n : Nat} {t : Snap} {h : Heap} (hs : Sound h) (hnn : n ≤ h.next) (ho : Owns n t h) :
    ∃ t' h', deepCopy t h = .ok (t', h') ∧ Owns n t' h' ∧ (∀ a, a < n → h'.cell a = h.cell a) ∧
      h'.cell t'.norm = h.cell t.norm ∧ Agree h t.spec h' t'.spec ∧ Agree h t.spat h' t'.spat := by
  obtain ⟨o1, o2, o3, o4⟩ := ho
  obtain ⟨v, hv⟩ := (o3 t.norm (o4 _ List.mem_cons_self)).2 List.mem_cons_self
  have hlt := sound_lt hs hv
  rw [List.nodup_cons, List.nodup_append] at o2
  obtain ⟨n1, n2, n3, n4⟩ := o2
  have live0 : ∀ a ∈ t.spat.map Prod.snd ++ t.spec.map Prod.snd, ∃ v, h.cell a = some v := fun a ha =>
    (o3 a (o4 _ (List.mem_cons_of_mem _ ha))).2 (List.mem_cons_of_mem _ ha)
  have hv1 : (alloc h v).1.cell t.norm = some v := by rw [alloc_cell_lt hlt, hv]
  have c1 : ∀ a, a < h.next → a ≠ t.norm → (without (alloc h v).1 [t.norm]).cell a = h.cell a := by
    intro a h1 h2
    simp only [without, List.mem_cons, List.mem_nil_iff, or_false]
    rw [if_neg h2, alloc_cell_lt h1]
  have c2 : (without (alloc h v).1 [t.norm]).cell h.next = some v := by
    simp only [without, List.mem_cons, List.mem_nil_iff, or_false]
    rw [if_neg (by omega)]
    simp [alloc]
  have c3 : (without (alloc h v).1 [t.norm]).cell t.norm = none := by simp [without]
  have cl : ∀ a ∈ t.spat.map Prod.snd ++ t.spec.map Prod.snd, a < h.next ∧ a ≠ t.norm := by
    intro a ha
    obtain ⟨w, hw⟩ := live0 a ha
    exact ⟨sound_lt hs hw, fun e => n1 (e ▸ ha)⟩
  obtain ⟨l2, h2, a1, a2, a3, a4, a5, a6, a7⟩ := copyMap_del t.spat (without (alloc h v).1 [t.norm])
    (without_sound (alloc_sound hs v) _) n2 (by
      intro p hp
      have hm := List.mem_append_left (t.spec.map Prod.snd) (List.mem_map_of_mem (f := Prod.snd) hp)
      obtain ⟨w, hw⟩ := live0 _ hm
      exact ⟨w, by rw [c1 _ (cl _ hm).1 (cl _ hm).2, hw]⟩)
  have hnx : (without (alloc h v).1 [t.norm]).next = h.next + 1 := rfl
  rw [hnx] at a3 a4 a5 a6
  have d1 : ∀ a ∈ t.spec.map Prod.snd, h2.cell a = h.cell a := by
    intro a ha
    have hm := cl a (List.mem_append_right _ ha)
    rw [a5 a (by omega), if_neg (fun e => n4 _ e _ ha rfl), c1 a hm.1 hm.2]
  obtain ⟨l3, h3, b1, b2, b3, b4, b5, b6, b7⟩ := copyMap_del t.spec h2 a2 n3 (by
    intro p hp
    have hp' := List.mem_map_of_mem (f := Prod.snd) hp
    obtain ⟨w, hw⟩ := live0 _ (List.mem_append_right _ hp')
    exact ⟨w, by rw [d1 _ hp', hw]⟩)
  rw [a3] at b3 b4 b5 b6
  have old : ∀ a, h.next ≤ a → a ∉ t.spat.map Prod.snd ∧ a ∉ t.spec.map Prod.snd := by
    intro a ha
    constructor
    · intro e
      have := (cl a (List.mem_append_left _ e)).1
      omega
    · intro e
      have := (cl a (List.mem_append_right _ e)).1
      omega
  have top : h3.cell h.next = some v := by
    rw [b5 _ (by omega), if_neg (old _ le_rfl).2, a5 _ (by omega), if_neg (old _ le_rfl).1, c2]
  have mem : ∀ a, a ∈ h.next :: (l2.map Prod.snd ++ l3.map Prod.snd) ↔ h.next ≤ a ∧ a < h3.next := by
    intro a
    rw [a4, b4, b3]
    simp only [List.mem_cons, List.mem_append, List.mem_range'_1]
    omega
  refine ⟨⟨true, h.next, l3, t.spatName, l2⟩, h3, ?_, ⟨rfl, ?_, ?_, ?_⟩, ?_, ?_, ?_, ?_⟩
  · unfold deepCopy
    simp only [o1, if_true]
    rw [read_ok hv, Res.bind_ok]
    show (((free (alloc h v).1 t.norm : Res Heap) >>= _) >>= _) = _
    rw [free_ok hv1, Res.bind_ok, Res.bind_ok]
    show (copyMap true t.spat (without (alloc h v).1 [t.norm]) >>= _) = _
    rw [a1, Res.bind_ok]
    show (copyMap true t.spec h2 >>= _) = _
    rw [b1]
    rfl
  · show (h.next :: (l2.map Prod.snd ++ l3.map Prod.snd)).Nodup
    rw [a4, b4, List.nodup_cons, List.nodup_append]
    refine ⟨?_, List.nodup_range', List.nodup_range', ?_⟩
    · simp only [List.mem_append, List.mem_range'_1]
      omega
    · intro x hx y hy
      rw [List.mem_range'_1] at hx hy
      omega
  · intro a haa
    show _ ↔ a ∈ h.next :: (l2.map Prod.snd ++ l3.map Prod.snd)
    rw [mem]
    constructor
    · rintro ⟨w, hw⟩
      refine ⟨?_, sound_lt b2 hw⟩
      by_contra hlow
      have hlow' : a < h.next := by omega
      rw [b5 a (by omega)] at hw
      by_cases e3 : a ∈ t.spec.map Prod.snd
      · rw [if_pos e3] at hw
        cases hw
      rw [if_neg e3, a5 a (by omega)] at hw
      by_cases e2 : a ∈ t.spat.map Prod.snd
      · rw [if_pos e2] at hw
        cases hw
      rw [if_neg e2] at hw
      by_cases e1 : a = t.norm
      · rw [e1, c3] at hw
        cases hw
      rw [c1 a hlow' e1] at hw
      have := (o3 a haa).1 ⟨w, hw⟩
      rw [List.mem_cons, List.mem_append] at this
      rcases this with e | e | e
      · exact e1 e
      · exact e2 e
      · exact e3 e
    · rintro ⟨g1, g2⟩
      by_cases e : a = h.next
      · exact ⟨v, by rw [e, top]⟩
      by_cases e2 : a < h.next + 1 + t.spat.length
      · obtain ⟨w, hw⟩ := a6 a (by omega) (by omega)
        exact ⟨w, by rw [b5 a e2, if_neg (old a g1).2, hw]⟩
      · exact b6 a (by omega) g2
  · intro a h1
    have := ((mem a).1 h1).1
    omega
  · intro a ha
    have hm : a ∉ t.norm :: (t.spat.map Prod.snd ++ t.spec.map Prod.snd) := by
      intro e
      have := o4 a e
      omega
    rw [List.mem_cons, List.mem_append, not_or, not_or] at hm
    rw [b5 a (by omega), if_neg hm.2.2, a5 a (by omega), if_neg hm.2.1, c1 a (by omega) hm.1]
  · show h3.cell h.next = h.cell t.norm
    rw [top, hv]
  · show Agree h t.spec h3 l3
    unfold Agree at b7 ⊢
    rw [← b7]
    apply List.map_congr_left
    intro p hp
    rw [d1 _ (List.mem_map_of_mem hp)]
  · show Agree h t.spat h3 l2
    unfold Agree at a7 ⊢
    have e1 : t.spat.map (fun p => (p.1, h.cell p.2)) =
        t.spat.map (fun p => (p.1, (without (alloc h v).1 [t.norm]).cell p.2)) := by
      apply List.map_congr_left
      intro p hp
      have hm := cl p.2 (List.mem_append_left _ (List.mem_map_of_mem hp))
      rw [c1 _ hm.1 hm.2]
    rw [e1, a7]
    apply List.map_congr_left
    intro p hp
    have : p.2 ∈ l2.map Prod.snd := List.mem_map_of_mem hp
    rw [a4, List.mem_range'_1] at this
    rw [b5 p.2 (by omega), if_neg (old p.2 (by omega)).2]

/-- A deep copy of a snapshot that already owns its parameters holds the same values, and after its destruction
the memory is what it was before the snapshot was made. -/
theorem C168_deep_copy_partial {h : Heap} {s : Src} (hs : Sound h) (ha : Alive h s) :
    ∃ t h1 t' h2 h3, latch fresh s true h = .ok (t, h1) ∧ deepCopy t h1 = .ok (t', h2) ∧ Holds h s h2 t' ∧
      destroy t' h2 = .ok h3 ∧ h3.cell = h.cell := by
  obtain ⟨t, h1, k1, k2, k3, k4, k5, k6⟩ := latch_owned hs ha
  have hle : h.next ≤ h1.next := by
    have hm := List.mem_cons_self (a := t.norm) (l := t.spat.map Prod.snd ++ t.spec.map Prod.snd)
    obtain ⟨w, hw⟩ := (k2.2.2.1 t.norm (k2.2.2.2 _ hm)).2 hm
    have h1' := sound_lt k5 hw
    have h2' := k2.2.2.2 _ hm
    omega
  obtain ⟨t', h2, d1, d2, d3, d4, d5, d6⟩ := deepCopy_owned k5 hle k2
  obtain ⟨h3, f1, f2, f3⟩ := destroy_owned d2
  refine ⟨t, h1, t', h2, h3, k1, d1, ⟨?_, ?_, ?_⟩, f1, ?_⟩
  · rw [d4, k3.1]
  · exact k3.2.1.trans d5
  · exact k3.2.2.trans d6
  · funext a
    by_cases e : a < h.next
    · rw [f2 a e, d3 a e, k6 a e]
    · rw [f3 a (by omega), hs a (by omega)]

/-- A memory with a point source. -/
def exHeap : Heap := ⟨fun a => if a < 4 then some (a : ℝ) else none, 4⟩

/-- The point source in it. -/
def exSrc : Src := ⟨0, [("Index", 1)], "Position", [("RA", 2), ("DEC", 3)]⟩

example : Sound exHeap := by
  intro a ha
  simp only [exHeap] at ha ⊢
  rw [if_neg (by omega)]

example : Alive exHeap exSrc := by
  refine ⟨⟨0, by simp [exHeap, exSrc]⟩, ?_, ?_⟩
  · intro p hp
    simp only [exSrc, List.mem_cons, List.mem_nil_iff, or_false] at hp
    subst hp
    exact ⟨1, by simp [exHeap]⟩
  · intro p hp
    simp only [exSrc, List.mem_cons, List.mem_nil_iff, or_false] at hp
    rcases hp with e | e <;> subst e
    · exact ⟨2, by simp [exHeap]⟩
    · exact ⟨3, by simp [exHeap]⟩

example : exSrc.spatName ≠ "" := by decide

end Verif.SnapOwn
