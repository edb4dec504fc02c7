import Mathlib.Algebra.Order.Field.Basic
import Mathlib.Data.List.Basic
import Mathlib.Data.List.Nodup
import Mathlib.Tactic.Ring
import Verif.Xml.Model
import Verif.Xml.Spec
/-
Lemmas for writing and reading models.
-/
set_option linter.unusedSectionVars false
set_option linter.unusedSimpArgs false
set_option linter.unusedVariables false
namespace Verif.Xml

variable {K : Type}

/-! ### Numbers in names -/

theorem digitChar_eq : ∀ n, n < 10 → Nat.digitChar n = Char.ofNat (48 + n) := by decide

theorem dec_eq (n : Nat) : dec n = Nat.toDigits 10 n := by
  induction n using Nat.strongRecOn with
  | ind n ih =>
    rw [dec]
    by_cases h : n < 10
    · rw [if_pos h, Nat.toDigits_of_lt_base h, digitChar_eq n h]
    · rw [if_neg h, ih (n / 10) (Nat.div_lt_self (by omega) (by omega)),
        Nat.toDigits_of_base_le (n := n) (b := 10) (by omega) (by omega),
        digitChar_eq (n % 10) (Nat.mod_lt _ (by omega))]

theorem digitsVal_eq : ∀ (l : List Char) (acc : Nat), (∀ c ∈ l, c.isDigit = true) →
    digitsVal acc l = Nat.ofDigitChars 10 l acc := by
  intro l
  induction l with
  | nil => intro acc _; rfl
  | cons c l ih =>
    intro acc h
    rw [digitsVal, if_pos (h c (by simp)), ih _ (fun c' hc => h c' (by simp [hc])),
      Nat.ofDigitChars_cons]
    rfl

theorem dec_digits (n : Nat) : ∀ c ∈ dec n, c.isDigit = true := by
  intro c hc
  rw [dec_eq] at hc
  exact Nat.isDigit_of_mem_toDigits (by omega) (by omega) hc

theorem dec_ne (n : Nat) : dec n ≠ [] := by rw [dec_eq]; exact Nat.toDigits_ne_nil

theorem atoi_dec (n : Nat) : atoi (dec n) = n := by
  have hd := dec_digits n
  have hv : digitsVal 0 (dec n) = n := by
    rw [digitsVal_eq _ _ hd, dec_eq, Nat.ofDigitChars_ten_toDigits]
  cases hc : dec n with
  | nil => exact absurd hc (dec_ne n)
  | cons c l =>
    have hcd : c.isDigit = true := hd c (by rw [hc]; simp)
    have hw : c.isWhitespace = false := by
      rcases Bool.eq_false_or_eq_true c.isWhitespace with h | h
      · exfalso
        simp only [Char.isWhitespace, Bool.or_eq_true, decide_eq_true_eq, beq_iff_eq] at h
        rcases h with ((h | h) | h) | h <;> (subst h; exact absurd hcd (by decide))
      · exact h
    have hm : c ≠ '-' := fun e => by subst e; exact absurd hcd (by decide)
    have hp : c ≠ '+' := fun e => by subst e; exact absurd hcd (by decide)
    unfold atoi
    rw [List.dropWhile_cons_of_neg (by simp [hw])]
    rw [hc] at hv
    split
    · rename_i heq; exact absurd (List.cons.inj heq).1 hm
    · rename_i heq; exact absurd (List.cons.inj heq).1 hp
    · rw [hv]

theorem numbered_eq (w : String) (i : Nat) : numbered w.toList i = w ++ toString i := by
  apply String.toList_inj.1
  rw [numbered, String.toList_ofList, String.toList_append]
  change _ = w.toList ++ (Nat.repr i).toList
  rw [Nat.toList_repr, dec_eq]

theorem after_self (w : String) (i : Nat) :
    afterPrefix w.toList (w ++ toString i) = some (dec i) := by
  rw [← numbered_eq]
  simp only [afterPrefix, numbered, String.toList_ofList]
  rw [if_pos (by simp)]
  simp

/-- A name beginning with another letter does not begin with the word. -/
theorem after_other {c d : Char} {p : List Char} {s : String} {r : List Char}
    (hs : s.toList = d :: r) (h : c ≠ d) : afterPrefix (c :: p) s = none := by
  simp only [afterPrefix, hs]
  rw [if_neg]
  simp [List.isPrefixOf, h]

/-! ### Attributes of the elements written -/

theorem par_name (E : Env K) (p : Par K) : attrD (parNode E p) "name" "" = p.name := by
  simp [attrD, attr?, parNode, Node.attrs]

theorem par_value (E : Env K) (p : Par K) : attr? (parNode E p) "value" = some (E.fmt p.value) := by
  simp [attr?, parNode, Node.attrs, List.find?]
theorem par_scale (E : Env K) (p : Par K) : attr? (parNode E p) "scale" = some (E.fmt p.scale) := by
  simp [attr?, parNode, Node.attrs, List.find?]
theorem par_min (E : Env K) (p : Par K) : attr? (parNode E p) "min" = some (E.fmt p.lo) := by
  simp [attr?, parNode, Node.attrs, List.find?]
theorem par_max (E : Env K) (p : Par K) : attr? (parNode E p) "max" = some (E.fmt p.hi) := by
  simp [attr?, parNode, Node.attrs, List.find?]
theorem par_free (E : Env K) (p : Par K) : attrD (parNode E p) "free" "" = flagText p.free := by
  simp [attrD, attr?, parNode, Node.attrs, List.find?]

theorem num_value (E : Env K) (p : Par K) (d : K) (h : Spec.Survives E p.value) :
    attrNum E (parNode E p) "value" d = p.value := by
  rw [attrNum, attrD, par_value, Option.getD_some, if_neg h.2, h.1, Option.getD_some]
theorem num_scale (E : Env K) (p : Par K) (d : K) (h : Spec.Survives E p.scale) :
    attrNum E (parNode E p) "scale" d = p.scale := by
  rw [attrNum, attrD, par_scale, Option.getD_some, if_neg h.2, h.1, Option.getD_some]

theorem extract_par (E : Env K) (p q : Par K) (h : Spec.ParOK E p) :
    extract E (parNode E p) q = .ok { p with name := q.name, err := q.err } := by
  unfold extract
  rw [par_value, par_scale, par_min, par_max]
  simp only [Option.bind_some, h.1.1, h.2.1.1, h.2.2.1.1, h.2.2.2.1, par_free]
  obtain ⟨n, v, s, lo, hi, f, e⟩ := p
  cases f <;> rfl

theorem kidsOf_all (t : String) (ns : List Node) (h : ∀ n ∈ ns, n.tag = t) (tag : String)
    (attrs : List (String × String)) : kidsOf (.mk tag attrs ns) t = ns := by
  simp only [kidsOf, Node.kids]
  rw [List.filter_eq_self.2]
  intro n hn
  simp [h n hn]

theorem kids_pars (E : Env K) (ps : List (Par K)) (tag : String)
    (attrs : List (String × String)) :
    kidsOf (.mk tag attrs (ps.map (parNode E))) "parameter" = ps.map (parNode E) :=
  kidsOf_all _ _ (by
    intro n hn
    obtain ⟨p, _, rfl⟩ := List.mem_map.1 hn
    rfl) _ _

/-! ### Setting parameters -/

theorem setPar_mid [Zero K] (E : Env K) (p : Par K) (hp : Spec.ParOK E p) (q : Par K)
    (hq : q.name = p.name) (he : q.err = 0) (rest : List (Par K)) :
    ∀ done : List (Par K), p.name ∉ done.map (·.name) →
    setPar E (parNode E p) p.name (done ++ q :: rest) = .ok (done ++ Spec.forget p :: rest) := by
  intro done
  induction done with
  | nil =>
    intro _
    rw [List.nil_append, setPar, if_pos hq, extract_par E p q hp]
    simp only [Res.bind_ok, Res.pure_eq, List.nil_append]
    rw [hq, he]; rfl
  | cons d done ih =>
    intro h
    simp only [List.map_cons, List.mem_cons, not_or] at h
    rw [List.cons_append, setPar, if_neg (fun e => h.1 e.symm), ih h.2]
    rfl

theorem setPars_map [Zero K] (E : Env K) : ∀ (l : List (Par K)) (done rest : List (Par K)),
    (∀ p ∈ l, Spec.ParOK E p) → rest.map (·.name) = l.map (·.name) →
    (∀ p ∈ rest, p.err = 0) → (∀ p ∈ done, p.name ∉ l.map (·.name)) →
    (l.map (·.name)).Nodup →
    setPars E (l.map (parNode E)) (done ++ rest) = .ok (done ++ l.map Spec.forget) := by
  intro l
  induction l with
  | nil =>
    intro done rest _ hn _ _ _
    have : rest = [] := by simpa using hn
    subst this
    rfl
  | cons p l ih =>
    intro done rest hok hn he hd hnd
    cases rest with
    | nil => simp at hn
    | cons q rest =>
      simp only [List.map_cons, List.cons.injEq] at hn
      rw [List.map_cons, List.nodup_cons] at hnd
      rw [List.map_cons, setPars, par_name,
        setPar_mid E p (hok p (by simp)) q hn.1 (he q (by simp)) rest done
          (by
            intro hm
            obtain ⟨d, hdm, hdn⟩ := List.mem_map.1 hm
            exact hd d hdm (by rw [hdn]; simp))]
      rw [Res.bind_ok]
      have := ih (done ++ [Spec.forget p]) rest (fun p' h => hok p' (by simp [h])) hn.2
        (fun p' h => he p' (by simp [h]))
        (by
          intro d hdm
          rcases List.mem_append.1 hdm with h | h
          · intro hm; exact hd d h (by rw [List.map_cons]; exact List.mem_cons_of_mem _ hm)
          · rw [List.mem_singleton] at h
            subst h
            exact hnd.1)
        hnd.2
      rw [List.append_assoc] at this
      rw [List.singleton_append] at this
      rw [this]
      simp

theorem setPars_known [Zero K] (E : Env K) (l rest : List (Par K))
    (hok : ∀ p ∈ l, Spec.ParOK E p) (hn : rest.map (·.name) = l.map (·.name))
    (he : ∀ p ∈ rest, p.err = 0) (hnd : (l.map (·.name)).Nodup) :
    setPars E (l.map (parNode E)) rest = .ok (l.map Spec.forget) := by
  have := setPars_map E l [] rest hok hn he (by simp) hnd
  simpa using this

end Verif.Xml
