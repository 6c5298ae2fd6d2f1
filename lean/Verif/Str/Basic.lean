import Verif.Machine.Basic

/-!
# Outcomes of functions on contents

The value-level functions (`Str/Model.lean` and the modules for base64, C strings, streams, ...) work on
element lists.  Outcome of a call: a result, an exception, undefined behaviour, or `more`: the loop bound
given to the model ran out before the loop of the program ended.
-/

namespace Bdlib

inductive Eff (α : Type) where
  | ret (a : α)
  | exc (e : Exc)
  | ub
  | more
  deriving DecidableEq, Repr

namespace Eff

variable {α β : Type}

def bind : Eff α → (α → Eff β) → Eff β
  | ret a, f => f a
  | exc e, _ => exc e
  | ub, _ => ub
  | more, _ => more

instance : Monad Eff where
  pure := ret
  bind := bind

@[simp] theorem ret_bind (a : α) (f : α → Eff β) : (ret a >>= f) = f a := rfl
@[simp] theorem exc_bind (e : Exc) (f : α → Eff β) : (exc e >>= f) = exc e := rfl
@[simp] theorem ub_bind (f : α → Eff β) : ((ub : Eff α) >>= f) = ub := rfl
@[simp] theorem more_bind (f : α → Eff β) : ((more : Eff α) >>= f) = more := rfl
@[simp] theorem pure_eq (a : α) : (pure a : Eff α) = ret a := rfl

end Eff

/-- Reading element `i` of a sequence: outside of it, undefined. -/
def rd {α : Type} (v : List α) (i : Nat) : Eff α :=
  match v[i]? with
  | some x => .ret x
  | none => .ub

/-- Reading `n` elements from index `i` on (`memcmp`, `memcpy`, `memmem` arguments). -/
def rdN {α : Type} (v : List α) (i n : Nat) : Eff (List α) :=
  if i + n ≤ v.length then .ret ((v.drop i).take n) else .ub

/-- `for (i = i0; k more times; ++i) if (p(i)) return i;` -/
def scanUp (p : Nat → Eff Bool) (i : Nat) : Nat → Eff (Option Nat)
  | 0 => .ret none
  | k + 1 => do
    if ← p i then return some i
    scanUp p (i + 1) k

/-- `for (i = e - 1; i + 1 > lo; --i) if (p(i)) return i;` with `size_t` arithmetic: the loop ends when
`i + 1` has come down to `lo` (to 0 if `lo` is 0). -/
def scanDown (p : Nat → Eff Bool) (lo : Nat) : Nat → Eff (Option Nat)
  | 0 => .ret none
  | e + 1 => if e + 1 > lo then do
      if ← p e then return some e
      scanDown p lo e
    else .ret none

/-! ## What the scans return -/

variable {α : Type}

theorem rd_lt {v : List α} {i : Nat} (h : i < v.length) : rd v i = .ret v[i] := by
  unfold rd; rw [List.getElem?_eq_getElem h]

theorem rdN_le {v : List α} {i n : Nat} (h : i + n ≤ v.length) : rdN v i n = .ret ((v.drop i).take n) := by
  unfold rdN; rw [if_pos h]

theorem scanUp_spec {p : Nat → Eff Bool} {P : Nat → Prop} [DecidablePred P] (k : Nat) : ∀ i,
    (∀ j, i ≤ j → j < i + k → p j = .ret (decide (P j))) →
    (∃ m, i ≤ m ∧ m < i + k ∧ P m ∧ (∀ j, i ≤ j → j < m → ¬ P j) ∧ scanUp p i k = .ret (some m)) ∨
    ((∀ j, i ≤ j → j < i + k → ¬ P j) ∧ scanUp p i k = .ret none) := by
  induction k with
  | zero => intro i _; exact Or.inr ⟨fun j h1 h2 => by omega, rfl⟩
  | succ k ih =>
    intro i h
    have hi := h i (Nat.le_refl _) (by omega)
    unfold scanUp
    rw [hi]
    by_cases hP : P i
    · left
      refine ⟨i, Nat.le_refl _, by omega, hP, fun j h1 h2 => by omega, ?_⟩
      simp [hP]
    · simp only [hP, decide_false, Eff.ret_bind, Bool.false_eq_true, if_false]
      rcases ih (i + 1) (fun j h1 h2 => h j (by omega) (by omega)) with ⟨m, h1, h2, h3, h4, h5⟩ | ⟨h1, h2⟩
      · left
        refine ⟨m, by omega, by omega, h3, fun j hj1 hj2 => ?_, h5⟩
        by_cases hji : j = i
        · subst hji; exact hP
        · exact h4 j (by omega) hj2
      · right
        refine ⟨fun j hj1 hj2 => ?_, h2⟩
        by_cases hji : j = i
        · subst hji; exact hP
        · exact h1 j (by omega) (by omega)

theorem scanDown_spec {p : Nat → Eff Bool} {P : Nat → Prop} [DecidablePred P] {lo : Nat} : ∀ e,
    (∀ j, lo ≤ j → j < e → p j = .ret (decide (P j))) →
    (∃ m, lo ≤ m ∧ m < e ∧ P m ∧ (∀ j, m < j → j < e → ¬ P j) ∧ scanDown p lo e = .ret (some m)) ∨
    ((∀ j, lo ≤ j → j < e → ¬ P j) ∧ scanDown p lo e = .ret none) := by
  intro e
  induction e with
  | zero => intro _; exact Or.inr ⟨fun j h1 h2 => by omega, rfl⟩
  | succ e ih =>
    intro h
    unfold scanDown
    by_cases hlo : e + 1 > lo
    · rw [if_pos hlo]
      have hi := h e (by omega) (by omega)
      rw [hi]
      by_cases hP : P e
      · left
        refine ⟨e, by omega, by omega, hP, fun j h1 h2 => by omega, ?_⟩
        simp [hP]
      · simp only [hP, decide_false, Eff.ret_bind, Bool.false_eq_true, if_false]
        rcases ih (fun j h1 h2 => h j h1 (by omega)) with ⟨m, h1, h2, h3, h4, h5⟩ | ⟨h1, h2⟩
        · left
          refine ⟨m, by omega, by omega, h3, fun j hj1 hj2 => ?_, h5⟩
          by_cases hji : j = e
          · subst hji; exact hP
          · exact h4 j hj1 (by omega)
        · right
          refine ⟨fun j hj1 hj2 => ?_, h2⟩
          by_cases hji : j = e
          · subst hji; exact hP
          · exact h1 j hj1 (by omega)
    · rw [if_neg hlo]
      exact Or.inr ⟨fun j h1 h2 => by omega, rfl⟩

end Bdlib
