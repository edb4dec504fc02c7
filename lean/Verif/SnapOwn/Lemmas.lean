import Verif.SnapOwn.Model
import Verif.SnapOwn.Spec
import Mathlib.Tactic.Common
import Mathlib.Data.List.Nodup
import Mathlib.Data.List.Range
set_option linter.unusedSimpArgs false
set_option linter.unusedVariables false
/-
Copying and freeing parameters.
-/
namespace Verif.SnapOwn
open Verif Spec

/-- The heap without some addresses. -/
def without (h : Heap) (l : List Nat) : Heap := ⟨fun a => if a ∈ l then none else h.cell a, h.next⟩

theorem free_ok {h : Heap} {a : Nat} {v : ℝ} (ha : h.cell a = some v) : free h a = .ok (without h [a]) := by
  unfold free without
  rw [ha]
  simp

theorem freeMap_ok : ∀ (l : Params) (h : Heap), (l.map Prod.snd).Nodup → (∀ p ∈ l, ∃ v, h.cell p.2 = some v) →
    freeMap l h = .ok (without h (l.map Prod.snd))
  | [], h, _, _ => by simp [freeMap, without]
  | p :: l, h, hn, ha => by
    obtain ⟨v, hv⟩ := ha p List.mem_cons_self
    rw [List.map_cons, List.nodup_cons] at hn
    rw [freeMap, free_ok hv, Res.bind_ok, freeMap_ok l _ hn.2]
    · congr 1
      unfold without
      congr 1
      funext a
      simp only [List.map_cons, List.mem_cons, List.mem_nil_iff, or_false]
      by_cases h1 : a ∈ l.map Prod.snd
      · simp [h1]
      · by_cases h2 : a = p.2
        · simp [h1, h2]
        · simp [h1, h2]
    · intro q hq
      obtain ⟨w, hw⟩ := ha q (List.mem_cons_of_mem _ hq)
      refine ⟨w, ?_⟩
      simp only [without, List.mem_cons, List.mem_nil_iff, or_false]
      rw [if_neg, hw]
      intro e
      exact hn.1 (e ▸ List.mem_map_of_mem hq)

theorem alloc_cell_lt {h : Heap} {v : ℝ} {a : Nat} (ha : a < h.next) : (alloc h v).1.cell a = h.cell a := by
  simp only [alloc]
  rw [if_neg (by omega)]

theorem sound_lt {h : Heap} (hs : Sound h) {a : Nat} {v : ℝ} (ha : h.cell a = some v) : a < h.next := by
  by_contra hn
  rw [hs a (by omega)] at ha
  cases ha

theorem alloc_sound {h : Heap} (hs : Sound h) (v : ℝ) : Sound (alloc h v).1 := by
  intro a ha
  simp only [alloc] at ha ⊢
  rw [if_neg (by omega)]
  exact hs a (by omega)

/-- What copying without deleting does. -/
theorem copyMap_ok : ∀ (l : Params) (h : Heap), Sound h → (∀ p ∈ l, ∃ v, h.cell p.2 = some v) →
    ∃ l' h', copyMap false l h = .ok (l', h') ∧ Sound h' ∧ h'.next = h.next + l.length ∧
      l'.map Prod.snd = List.range' h.next l.length ∧ (∀ a, a < h.next → h'.cell a = h.cell a) ∧
      (∀ a, h.next ≤ a → a < h'.next → ∃ v, h'.cell a = some v) ∧ Agree h l h' l'
  | [], h, hs, _ => by
    refine ⟨[], h, rfl, hs, rfl, rfl, fun _ _ => rfl, ?_, rfl⟩
    intro a h1 h2
    omega
  | p :: l, h, hs, ha => by
    obtain ⟨v, hv⟩ := ha p List.mem_cons_self
    have hp := sound_lt hs hv
    obtain ⟨l', h', k1, k2, k3, k4, k5, k6, k7⟩ := copyMap_ok l (alloc h v).1 (alloc_sound hs v) (by
      intro q hq
      obtain ⟨w, hw⟩ := ha q (List.mem_cons_of_mem _ hq)
      exact ⟨w, by rw [alloc_cell_lt (sound_lt hs hw), hw]⟩)
    have hn : (alloc h v).1.next = h.next + 1 := rfl
    rw [hn] at k3 k4 k5 k6
    refine ⟨(p.1, h.next) :: l', h', ?_, k2, ?_, ?_, ?_, ?_, ?_⟩
    · have hr : read h p.2 = .ok v := by
        unfold read
        rw [hv]
      rw [copyMap, hr, Res.bind_ok]
      show ((.ok (alloc h v).1 : Res Heap) >>= _) = _
      rw [Res.bind_ok, k1]
      rfl
    · rw [k3, List.length_cons]
      omega
    · rw [List.map_cons, k4, List.length_cons, List.range'_succ]
    · intro a haa
      rw [k5 a (by omega), alloc_cell_lt haa]
    · intro a h1 h2
      by_cases e : a = h.next
      · refine ⟨v, ?_⟩
        rw [k5 a (by omega), e]
        simp [alloc]
      · exact k6 a (by omega) h2
    · unfold Agree at k7 ⊢
      rw [List.map_cons, List.map_cons, ← k7]
      congr 1
      · rw [k5 h.next (by omega), hv]
        simp [alloc]
      · apply List.map_congr_left
        intro q hq
        obtain ⟨w, hw⟩ := ha q (List.mem_cons_of_mem _ hq)
        rw [alloc_cell_lt (sound_lt hs hw)]

theorem without_sound {h : Heap} (hs : Sound h) (l : List Nat) : Sound (without h l) := by
  intro a ha
  simp only [without] at ha ⊢
  rw [hs a ha]
  simp

/-- What copying and deleting does. -/
theorem copyMap_del : ∀ (l : Params) (h : Heap), Sound h → (l.map Prod.snd).Nodup →
    (∀ p ∈ l, ∃ v, h.cell p.2 = some v) →
    ∃ l' h', copyMap true l h = .ok (l', h') ∧ Sound h' ∧ h'.next = h.next + l.length ∧
      l'.map Prod.snd = List.range' h.next l.length ∧
      (∀ a, a < h.next → h'.cell a = if a ∈ l.map Prod.snd then none else h.cell a) ∧
      (∀ a, h.next ≤ a → a < h'.next → ∃ v, h'.cell a = some v) ∧ Agree h l h' l'
  | [], h, hs, _, _ => by
    refine ⟨[], h, rfl, hs, rfl, rfl, fun _ _ => rfl, ?_, rfl⟩
    intro a h1 h2
    omega
  | p :: l, h, hs, hn, ha => by
    obtain ⟨v, hv⟩ := ha p List.mem_cons_self
    have hp := sound_lt hs hv
    rw [List.map_cons, List.nodup_cons] at hn
    have hv1 : (alloc h v).1.cell p.2 = some v := by rw [alloc_cell_lt hp, hv]
    have hcell : ∀ a, a ≠ p.2 → a < h.next → (without (alloc h v).1 [p.2]).cell a = h.cell a := by
      intro a h1 h2
      simp only [without, List.mem_cons, List.mem_nil_iff, or_false]
      rw [if_neg h1, alloc_cell_lt h2]
    have hnew : (without (alloc h v).1 [p.2]).cell h.next = some v := by
      simp only [without, List.mem_cons, List.mem_nil_iff, or_false]
      rw [if_neg (by omega)]
      simp [alloc]
    obtain ⟨l', h', k1, k2, k3, k4, k5, k6, k7⟩ := copyMap_del l (without (alloc h v).1 [p.2])
      (without_sound (alloc_sound hs v) _) hn.2 (by
        intro q hq
        obtain ⟨w, hw⟩ := ha q (List.mem_cons_of_mem _ hq)
        refine ⟨w, ?_⟩
        rw [hcell q.2 (fun e => hn.1 (e ▸ List.mem_map_of_mem hq)) (sound_lt hs hw), hw])
    have hnx : (without (alloc h v).1 [p.2]).next = h.next + 1 := rfl
    rw [hnx] at k3 k4 k5 k6
    have hfresh : h.next ∉ l.map Prod.snd := by
      intro e
      obtain ⟨q, hq, e2⟩ := List.mem_map.1 e
      obtain ⟨w, hw⟩ := ha q (List.mem_cons_of_mem _ hq)
      have := sound_lt hs hw
      omega
    refine ⟨(p.1, h.next) :: l', h', ?_, k2, ?_, ?_, ?_, ?_, ?_⟩
    · have hr : read h p.2 = .ok v := by
        unfold read
        rw [hv]
      rw [copyMap, hr, Res.bind_ok]
      show ((free (alloc h v).1 p.2 : Res Heap) >>= _) = _
      rw [free_ok hv1, Res.bind_ok, k1]
      rfl
    · rw [k3, List.length_cons]
      omega
    · rw [List.map_cons, k4, List.length_cons, List.range'_succ]
    · intro a haa
      rw [k5 a (by omega)]
      by_cases h1 : a ∈ l.map Prod.snd
      · rw [if_pos h1, if_pos]
        exact List.mem_cons_of_mem _ h1
      · rw [if_neg h1]
        by_cases h2 : a = p.2
        · rw [if_pos (by rw [h2]; exact List.mem_cons_self)]
          simp [without, h2]
        · rw [if_neg, hcell a h2 haa]
          rw [List.map_cons, List.mem_cons]
          rintro (e | e)
          · exact h2 e
          · exact h1 e
    · intro a h1 h2
      by_cases e : a = h.next
      · refine ⟨v, ?_⟩
        rw [e, k5 h.next (by omega), if_neg hfresh, hnew]
      · exact k6 a (by omega) h2
    · unfold Agree at k7 ⊢
      rw [List.map_cons, List.map_cons, ← k7]
      congr 1
      · rw [k5 h.next (by omega), if_neg hfresh, hnew, hv]
      · apply List.map_congr_left
        intro q hq
        obtain ⟨w, hw⟩ := ha q (List.mem_cons_of_mem _ hq)
        rw [hcell q.2 (fun e => hn.1 (e ▸ List.mem_map_of_mem hq)) (sound_lt hs hw)]

end Verif.SnapOwn
