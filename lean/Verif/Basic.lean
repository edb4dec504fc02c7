/-
Shared vocabulary of the model.

C++ outcomes: a call either returns normally, throws, or runs into undefined
behaviour (out-of-range `operator[]`, reading an uninitialised variable,
dereferencing `end()`).  The three are kept apart.
-/
namespace Verif

/-- Outcome of a C++ call. -/
inductive Res (α : Type _) where
  /-- normal return -/
  | ok (a : α)
  /-- a C++ exception propagates to the caller -/
  | throws
  /-- undefined behaviour -/
  | ub
  deriving Repr, DecidableEq

namespace Res

/-- Sequencing: the first exception / undefined behaviour wins. -/
def bind {α β : Type _} (x : Res α) (f : α → Res β) : Res β :=
  match x with
  | ok a => f a
  | throws => throws
  | ub => ub

instance : Monad Res where
  pure := ok
  bind := bind

@[simp] theorem bind_ok {α β : Type _} (a : α) (f : α → Res β) :
    (ok a >>= f) = f a := rfl
@[simp] theorem bind_throws {α β : Type _} (f : α → Res β) :
    ((throws : Res α) >>= f) = throws := rfl
@[simp] theorem bind_ub {α β : Type _} (f : α → Res β) :
    ((ub : Res α) >>= f) = ub := rfl
@[simp] theorem pure_eq {α : Type _} (a : α) : (pure a : Res α) = ok a := rfl

theorem bind_eq_ok {α β : Type _} {x : Res α} {f : α → Res β} {b : β} :
    (x >>= f) = ok b ↔ ∃ a, x = ok a ∧ f a = ok b := by
  cases x <;> simp

instance : LawfulMonad Res := LawfulMonad.mk' Res
  (id_map := fun x => by cases x <;> rfl)
  (pure_bind := fun _ _ => rfl)
  (bind_assoc := fun x _ _ => by cases x <;> rfl)

end Res

/-- `vect[i]` as an rvalue: undefined behaviour out of range. -/
def vget {α : Type _} (l : List α) (i : Nat) : Res α :=
  match l[i]? with
  | some a => .ok a
  | none => .ub

/-- `vect[i] = a`: undefined behaviour out of range. -/
def vset {α : Type _} (l : List α) (i : Nat) (a : α) : Res (List α) :=
  if i < l.length then .ok (l.set i a) else .ub

/-- `vect.resize(n, d)`: keeps the first `n` elements, pads with `d`. -/
def vresize {α : Type _} (l : List α) (n : Nat) (d : α) : List α :=
  l.take n ++ List.replicate (n - l.length) d

@[simp] theorem vget_lt {α : Type _} (l : List α) (i : Nat) (h : i < l.length) :
    vget l i = .ok l[i] := by
  simp [vget, List.getElem?_eq_getElem h]

theorem vget_ge {α : Type _} (l : List α) (i : Nat) (h : l.length ≤ i) :
    vget l i = .ub := by
  simp [vget, List.getElem?_eq_none h]

theorem vget_eq_ok {α : Type _} {l : List α} {i : Nat} {a : α} :
    vget l i = .ok a ↔ l[i]? = some a := by
  unfold vget; cases l[i]? <;> simp

@[simp] theorem vset_lt {α : Type _} (l : List α) (i : Nat) (a : α) (h : i < l.length) :
    vset l i a = .ok (l.set i a) := by simp [vset, h]

theorem vset_ge {α : Type _} (l : List α) (i : Nat) (a : α) (h : l.length ≤ i) :
    vset l i a = .ub := by simp [vset]; omega

@[simp] theorem vresize_length {α : Type _} (l : List α) (n : Nat) (d : α) :
    (vresize l n d).length = n := by simp [vresize]; omega

/-- `for (i = lo; i < lo + n; i++) body`, the state being all variables the body
changes. -/
def loop {σ : Type _} (body : Nat → σ → Res σ) : Nat → Nat → σ → Res σ
  | _, 0, s => .ok s
  | lo, n + 1, s => do
    let s' ← body lo s
    loop body (lo + 1) n s'

/-- Loop invariant rule. -/
theorem loop_inv {σ : Type _} {body : Nat → σ → Res σ} (P : Nat → σ → Prop) {lo n : Nat} {s : σ}
    (h0 : P lo s)
    (hstep : ∀ i s, lo ≤ i → i < lo + n → P i s → ∃ s', body i s = .ok s' ∧ P (i + 1) s') :
    ∃ s', loop body lo n s = .ok s' ∧ P (lo + n) s' := by
  induction n generalizing lo s with
  | zero => exact ⟨s, rfl, h0⟩
  | succ n ih =>
    obtain ⟨s1, h1, h2⟩ := hstep lo s (Nat.le_refl _) (by omega) h0
    obtain ⟨s2, h3, h4⟩ := ih (lo := lo + 1) h2 (fun i s hi hi' => hstep i s (by omega) (by omega))
    refine ⟨s2, by simp [loop, h1, h3], ?_⟩
    have : lo + 1 + n = lo + (n + 1) := by omega
    rwa [this] at h4

/-- Loop whose state is determined at each index. -/
theorem loop_eq {σ : Type _} {body : Nat → σ → Res σ} (f : Nat → σ) {lo n : Nat}
    (hstep : ∀ i, lo ≤ i → i < lo + n → body i (f i) = .ok (f (i + 1))) :
    loop body lo n (f lo) = .ok (f (lo + n)) := by
  obtain ⟨s', h1, h2⟩ := loop_inv (fun i s => s = f i) (lo := lo) (n := n) rfl
    (fun i s hi hi' hs => ⟨f (i + 1), by rw [hs]; exact hstep i hi hi', rfl⟩)
  rw [h1, h2]

end Verif
