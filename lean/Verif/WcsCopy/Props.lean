import Verif.WcsCopy.Lemmas

/-!
# C149: copying the projection to the extensions
-/

set_option linter.unusedSectionVars false
set_option linter.unusedSimpArgs false
set_option linter.unusedVariables false

namespace Verif.WcsCopy

open Spec

variable {ν δ : Type}

/-- **C149.** Afterwards every image has, for each keyword of the projection in the primary header, the
same value as the primary header.  (Partial: the name must not be one of those taken for tables, no
part before it may have the same name, and the strings must not look like numbers, see the
violations.) -/
theorem C149_copied_partial (conv : String → Option ν) (p : Hdu ν δ) (l : File ν δ) (hp : p.image = true)
    (hstr : ∀ k s, p.header k = some (.str s) → conv s = none) :
    ∃ r, copyWcs conv (p :: l) = .ok r ∧
      ∀ (i : Nat) (u : Hdu ν δ), (p :: l)[i]? = some u → u.image = true → ¬ Reserved u.id →
        FirstOfName (p :: l) i →
        ∃ u', r[i]? = some u' ∧ ∀ k, IsWcs k → p.header k ≠ none → u'.header k = p.header k := by
  obtain ⟨r, h1, _, h3⟩ := copyWcs_get conv p l hp
  refine ⟨r, h1, fun i u hu himg hres hfirst => ?_⟩
  refine ⟨_, (h3 i u hu).1 ⟨hres, hfirst, himg⟩, fun k hk hpk => ?_⟩
  show upd conv p.header u.header k = p.header k
  cases hv : p.header k with
  | none => exact absurd hv hpk
  | some v =>
    cases v with
    | num x => exact upd_num conv _ _ k x hk (by unfold getNum; rw [hv])
    | str s => exact upd_str conv _ _ k s hk hv (hstr k s hv)

/-- **C149.** Nothing else changes: the parts, their names, kinds and data, the headers of tables, and
every keyword that is not one of the projection or which the primary header lacks. -/
theorem C149_frame (conv : String → Option ν) (p : Hdu ν δ) (l : File ν δ) (hp : p.image = true) :
    ∃ r, copyWcs conv (p :: l) = .ok r ∧ r.length = (p :: l).length ∧
      ∀ (i : Nat) (u : Hdu ν δ), (p :: l)[i]? = some u →
        ∃ u', r[i]? = some u' ∧ u'.id = u.id ∧ u'.image = u.image ∧ u'.data = u.data ∧
          (u.image = false → u'.header = u.header) ∧
          ∀ k, (¬ IsWcs k ∨ p.header k = none) → u'.header k = u.header k := by
  obtain ⟨r, h1, h2, h3⟩ := copyWcs_get conv p l hp
  refine ⟨r, h1, h2, fun i u hu => ?_⟩
  by_cases hc : ¬ Reserved u.id ∧ FirstOfName (p :: l) i ∧ u.image = true
  · refine ⟨_, (h3 i u hu).1 hc, rfl, rfl, rfl, fun hf => ?_, fun k hk => upd_other conv _ _ k hk⟩
    rw [hc.2.2] at hf; cases hf
  · exact ⟨u, (h3 i u hu).2 hc, rfl, rfl, rfl, fun _ => rfl, fun _ _ => rfl⟩

/-- **C149.** The copy can be repeated: a second one changes nothing. -/
theorem C149_twice (conv : String → Option ν) (p : Hdu ν δ) (l : File ν δ) (hp : p.image = true)
    (hstr : ∀ k s, p.header k = some (.str s) → conv s = none) :
    ∃ r, copyWcs conv (p :: l) = .ok r ∧ copyWcs conv r = .ok r := by
  obtain ⟨r, h1, h2, h3⟩ := copyWcs_get conv p l hp
  have hself : upd conv p.header p.header = p.header := by
    funext k
    by_cases hw : IsWcs k
    · cases hv : p.header k with
      | none => rw [upd_other conv _ _ k (Or.inr hv), hv]
      | some v =>
        cases v with
        | num x => exact upd_num conv _ _ k x hw (by unfold getNum; rw [hv])
        | str s => exact upd_str conv _ _ k s hw hv (hstr k s hv)
    · exact upd_other conv _ _ k (Or.inl hw)
  have hfst : r[0]? = some p := by
    have h0 := h3 0 p (by simp)
    by_cases hc : ¬ Reserved p.id ∧ FirstOfName (p :: l) 0 ∧ p.image = true
    · rw [h0.1 hc, hself]
    · exact h0.2 hc
  obtain ⟨q, m, hr⟩ : ∃ q m, r = q :: m := by
    cases r with
    | nil => simp at hfst
    | cons q m => exact ⟨q, m, rfl⟩
  subst hr
  obtain rfl : q = p := by simpa using hfst
  obtain ⟨r2, g1, g2, g3⟩ := copyWcs_get conv q m hp
  refine ⟨q :: m, h1, ?_⟩
  rw [g1]
  refine congrArg Res.ok (List.ext_getElem? (fun i => ?_))
  cases hu : (q :: l)[i]? with
  | none =>
    have e1 : (q :: m)[i]? = none := by
      rw [List.getElem?_eq_none_iff] at hu ⊢; omega
    have e2 : r2[i]? = none := by
      rw [List.getElem?_eq_none_iff] at e1 ⊢; omega
    rw [e1, e2]
  | some u =>
    have hids : ∀ (j : Nat) (v w : Hdu ν δ), (q :: l)[j]? = some v → (q :: m)[j]? = some w → w.id = v.id ∧ w.image = v.image := by
      intro j v w hv hw
      have := h3 j v hv
      by_cases hc : ¬ Reserved v.id ∧ FirstOfName (q :: l) j ∧ v.image = true
      · rw [this.1 hc] at hw; have := Option.some.inj hw; subst this; exact ⟨rfl, rfl⟩
      · rw [this.2 hc] at hw; have := Option.some.inj hw; subst this; exact ⟨rfl, rfl⟩
    have hback : ∀ (j : Nat) (w : Hdu ν δ), (q :: m)[j]? = some w → ∃ v, (q :: l)[j]? = some v := by
      intro j w hw
      have : j < (q :: m).length := by
        by_contra hcon
        rw [List.getElem?_eq_none (by omega)] at hw; cases hw
      exact ⟨_, List.getElem?_eq_getElem (by omega)⟩
    have hfor : ∀ (j : Nat) (v : Hdu ν δ), (q :: l)[j]? = some v → ∃ w, (q :: m)[j]? = some w := by
      intro j w hw
      have : j < (q :: l).length := by
        by_contra hcon
        rw [List.getElem?_eq_none (by omega)] at hw; cases hw
      exact ⟨_, List.getElem?_eq_getElem (by omega)⟩
    have hfirst : FirstOfName (q :: m) i ↔ FirstOfName (q :: l) i := by
      constructor
      · intro h j a b hj ha hb
        obtain ⟨a', ha'⟩ := hfor j a ha
        obtain ⟨b', hb'⟩ := hfor i b hb
        rw [← (hids j a a' ha ha').1, ← (hids i b b' hb hb').1]
        exact h j a' b' hj ha' hb'
      · intro h j a b hj ha hb
        obtain ⟨a', ha'⟩ := hback j a ha
        obtain ⟨b', hb'⟩ := hback i b hb
        rw [(hids j a' a ha' ha).1, (hids i b' b hb' hb).1]
        exact h j a' b' hj ha' hb'
    by_cases hc : ¬ Reserved u.id ∧ FirstOfName (q :: l) i ∧ u.image = true
    · have hm := (h3 i u hu).1 hc
      rw [(g3 i _ hm).1 ⟨hc.1, hfirst.2 hc.2.1, hc.2.2⟩, hm]
      simp only [upd_idem]
    · have hm := (h3 i u hu).2 hc
      rw [(g3 i _ hm).2 (fun h => hc ⟨h.1, hfirst.1 h.2.1, h.2.2⟩), hm]

/-- **C149 (violation).** The map of a source called `EVENTS`, `GTI`, … is taken for a table and keeps
whatever projection it has. -/
theorem C149_reserved_violates (conv : String → Option ν) (p : Hdu ν δ) (l : File ν δ) (hp : p.image = true)
    (i : Nat) (u : Hdu ν δ) (hu : (p :: l)[i]? = some u) (hr : Reserved u.id) :
    ∃ r, copyWcs conv (p :: l) = .ok r ∧ r[i]? = some u := by
  obtain ⟨r, h1, _, h3⟩ := copyWcs_get conv p l hp
  exact ⟨r, h1, (h3 i u hu).2 (fun h => h.1 hr)⟩

/-- **C149 (violation).** Of two parts with the same name the later keeps its projection. -/
theorem C149_duplicate_violates (conv : String → Option ν) (p : Hdu ν δ) (l : File ν δ) (hp : p.image = true)
    (i j : Nat) (u v : Hdu ν δ) (hij : j < i) (hu : (p :: l)[i]? = some u) (hv : (p :: l)[j]? = some v)
    (hid : v.id = u.id) : ∃ r, copyWcs conv (p :: l) = .ok r ∧ r[i]? = some u := by
  obtain ⟨r, h1, _, h3⟩ := copyWcs_get conv p l hp
  exact ⟨r, h1, (h3 i u hu).2 (fun h => h.2.1 j v u hij hv hu hid)⟩

/-- **C149 (violation).** A keyword of the projection which the primary header lacks stays in the image,
which then differs from the primary header. -/
theorem C149_stale_violates (conv : String → Option ν) (p : Hdu ν δ) (l : File ν δ) (hp : p.image = true)
    (i : Nat) (u : Hdu ν δ) (hu : (p :: l)[i]? = some u) (k : String) (hk : p.header k = none)
    (hs : u.header k ≠ none) :
    ∃ r u', copyWcs conv (p :: l) = .ok r ∧ r[i]? = some u' ∧ u'.header k ≠ p.header k := by
  obtain ⟨r, h1, _, h3⟩ := C149_frame conv p l hp
  obtain ⟨u', g1, _, _, _, _, g6⟩ := h3 i u hu
  refine ⟨r, u', h1, g1, ?_⟩
  rw [g6 k (Or.inr hk), hk]
  exact hs

/-- **C149 (violation).** A string that looks like a number is written as a number. -/
theorem C149_number_violates (conv : String → Option ν) (p : Hdu ν δ) (l : File ν δ) (hp : p.image = true)
    (i : Nat) (u : Hdu ν δ) (hu : (p :: l)[i]? = some u) (himg : u.image = true) (hres : ¬ Reserved u.id)
    (hfirst : FirstOfName (p :: l) i) (k : String) (hk : IsWcs k) (s : String) (x : ν)
    (hv : p.header k = some (.str s)) (hc : conv s = some x) :
    ∃ r u', copyWcs conv (p :: l) = .ok r ∧ r[i]? = some u' ∧ u'.header k = some (.num x) := by
  obtain ⟨r, h1, _, h3⟩ := copyWcs_get conv p l hp
  refine ⟨r, _, h1, (h3 i u hu).1 ⟨hres, hfirst, himg⟩, ?_⟩
  exact upd_num conv _ _ k x hk (by unfold getNum; rw [hv]; exact hc)

/-! ### The hypotheses are met -/

/-- A primary image, a source map, a table and a source called EVENTS. -/
def exPrim : Hdu ℕ ℕ := ⟨"", true, fun k => if k = "CTYPE1" then some (.str "RA---AIT") else
  if k = "CRPIX1" then some (.num 50) else none, 0⟩

def exMap : Hdu ℕ ℕ := ⟨"3C 273", true, fun k => if k = "CROTA2" then some (.num 7) else none, 1⟩

def exTab : Hdu ℕ ℕ := ⟨"GTI", false, fun _ => none, 2⟩

def exEvents : Hdu ℕ ℕ := ⟨"EVENTS", true, fun _ => none, 3⟩

def exRest : File ℕ ℕ := [exMap, exTab, exEvents, exMap]

theorem exFirst : FirstOfName (exPrim :: exRest) 1 := by
  intro j u v hj hu hv
  obtain rfl : j = 0 := by omega
  have h1 : u = exPrim := by simpa using hu.symm
  have h2 : v = exMap := by simpa [exRest] using hv.symm
  subst h1; subst h2
  decide

example : ∃ r u', copyWcs (fun _ => none) (exPrim :: exRest) = .ok r ∧ r[1]? = some u' ∧
    u'.header "CRPIX1" = some (.num 50) ∧ u'.header "CTYPE1" = some (.str "RA---AIT") := by
  obtain ⟨r, h1, h2⟩ := C149_copied_partial (fun _ => none) exPrim exRest rfl (fun _ _ _ => rfl)
  obtain ⟨u', g1, g2⟩ := h2 1 exMap rfl rfl (by unfold Reserved; decide) exFirst
  refine ⟨r, u', h1, g1, ?_, ?_⟩
  · rw [g2 "CRPIX1" (by unfold IsWcs; decide) (fun h => by simp [exPrim] at h)]; rfl
  · rw [g2 "CTYPE1" (by unfold IsWcs; decide) (fun h => by simp [exPrim] at h)]; rfl

example : ∃ r, copyWcs (fun _ => none) (exPrim :: exRest) = .ok r ∧ copyWcs (fun _ => none) r = .ok r :=
  C149_twice _ _ _ rfl (fun _ _ _ => rfl)

example : ∃ r, copyWcs (fun _ => none) (exPrim :: exRest) = .ok r ∧ r.length = 5 := by
  obtain ⟨r, h1, h2, _⟩ := C149_frame (fun _ => none) exPrim exRest rfl
  exact ⟨r, h1, h2⟩

example : ∃ r, copyWcs (fun _ => none) (exPrim :: exRest) = .ok r ∧ r[3]? = some exEvents :=
  C149_reserved_violates _ _ _ rfl 3 exEvents rfl (by unfold Reserved; decide)

example : ∃ r, copyWcs (fun _ => none) (exPrim :: exRest) = .ok r ∧ r[4]? = some exMap :=
  C149_duplicate_violates _ _ _ rfl 4 1 exMap exMap (by omega) rfl rfl rfl

example : ∃ r u', copyWcs (fun _ => none) (exPrim :: exRest) = .ok r ∧ r[1]? = some u' ∧
    u'.header "CROTA2" ≠ exPrim.header "CROTA2" :=
  C149_stale_violates _ _ _ rfl 1 exMap rfl "CROTA2" rfl (fun h => by simp [exMap] at h)

example : ∃ r u', copyWcs (fun _ => some 9) (exPrim :: exRest) = .ok r ∧ r[1]? = some u' ∧
    u'.header "CTYPE1" = some (.num 9) :=
  C149_number_violates _ _ _ rfl 1 exMap rfl rfl (by unfold Reserved; decide) exFirst "CTYPE1"
    (by unfold IsWcs; decide) "RA---AIT" 9 rfl rfl

end Verif.WcsCopy
