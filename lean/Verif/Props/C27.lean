import Verif.Str.Model

/-!
# C27: Array equality

`eq` is the element type's `==`.  Where it is used, it is assumed reflexive, because arrays starting at
the same address are not compared element by element.
-/

namespace Bdlib.Str
open Bdlib

variable {α : Type} {eq : α → α → Bool}

/-- Corresponding elements below index `n` are equal. -/
def PairwiseEq (eq : α → α → Bool) (v w : List α) (n : Nat) : Prop :=
  ∀ i a b, i < n → v[i]? = some a → w[i]? = some b → eq a b = true

/-- `equals(b, n)`: same length and the first `n` elements equal. -/
theorem c27_equals (hrefl : ∀ a, eq a a = true) {same : Bool} {v w : List α}
    (hs : same = true → v.length = w.length → v = w) (n : Nat) :
    ∃ r, equalsN eq same v w n = .ret r ∧ (r = true ↔ v.length = w.length ∧ PairwiseEq eq v w n) := by
  unfold equalsN
  by_cases hsame : same = true ∧ v.length = w.length
  · rw [if_pos hsame]
    have := hs hsame.1 hsame.2
    subst this
    refine ⟨true, rfl, fun _ => ⟨rfl, fun i a b _ ha hb => ?_⟩, fun _ => rfl⟩
    rw [ha] at hb; cases hb; exact hrefl a
  · rw [if_neg hsame]
    by_cases hl : v.length = w.length
    · rw [if_neg (by simpa using hl)]
      dsimp only
      have : DecidablePred fun i : Nat => ∃ a b, v[i]? = some a ∧ w[i]? = some b ∧ eq a b = false :=
        fun i => Classical.propDecidable _
      have hsc := scanUp_spec (p := fun i => do return !(eq (← rd v i) (← rd w i)))
        (P := fun i : Nat => ∃ a b, v[i]? = some a ∧ w[i]? = some b ∧ eq a b = false)
        (min v.length (min w.length n)) 0 ?_
      · rcases hsc with ⟨m, _, h2, ⟨a, b, h3, h4, h5⟩, _, h6⟩ | ⟨h1, h2⟩
        · rw [h6]
          refine ⟨false, rfl, fun h => (by cases h), fun h => ?_⟩
          have := h.2 m a b (by omega) h3 h4
          rw [h5] at this; cases this
        · rw [h2]
          refine ⟨true, rfl, fun _ => ⟨hl, fun i a b hi ha hb => ?_⟩, fun _ => rfl⟩
          have hiv : i < v.length := by
            rcases Nat.lt_or_ge i v.length with h | h
            · exact h
            · rw [List.getElem?_eq_none h] at ha; cases ha
          cases he : eq a b with
          | true => rfl
          | false => exact absurd ⟨a, b, ha, hb, he⟩ (h1 i (Nat.zero_le _) (by omega))
      · intro i _ hi
        have h1 : i < v.length := by omega
        have h2 : i < w.length := by omega
        rw [rd_lt h1, rd_lt h2]
        simp only [Eff.ret_bind, Eff.pure_eq, Eff.ret.injEq, List.getElem?_eq_getElem h1, List.getElem?_eq_getElem h2,
          Option.some.injEq]
        cases he : eq v[i] w[i] with
        | true =>
          simp only [Bool.not_true]
          symm
          rw [decide_eq_false_iff_not]
          rintro ⟨a, b, ha, hb, h⟩
          rw [List.getElem?_eq_getElem h1] at ha
          rw [List.getElem?_eq_getElem h2] at hb
          cases ha; cases hb
          rw [he] at h; cases h
        | false =>
          simp only [Bool.not_false]
          symm
          rw [decide_eq_true_iff]
          exact ⟨_, _, List.getElem?_eq_getElem h1, List.getElem?_eq_getElem h2, he⟩
    · rw [if_pos hl]
      exact ⟨false, rfl, fun h => (by cases h), fun h => absurd h.1 hl⟩

/-- `a == b` iff the lengths are equal and all corresponding elements are. -/
theorem c27_eq (hrefl : ∀ a, eq a a = true) {same : Bool} {v w : List α}
    (hs : same = true → v.length = w.length → v = w) :
    ∃ r, arrayEq eq same v w = .ret r ∧
      (r = true ↔ v.length = w.length ∧ ∀ (i : Nat) a b, v[i]? = some a → w[i]? = some b → eq a b = true) := by
  unfold arrayEq
  by_cases hl : v.length = w.length
  · rw [if_pos hl]
    obtain ⟨r, h1, h2⟩ := c27_equals hrefl hs w.length
    refine ⟨r, h1, h2.trans ⟨fun h => ⟨h.1, fun i a b ha hb => h.2 i a b ?_ ha hb⟩, fun h => ⟨h.1, fun i a b _ ha hb => h.2 i a b ha hb⟩⟩⟩
    rcases Nat.lt_or_ge i w.length with h | h
    · exact h
    · rw [List.getElem?_eq_none h] at hb; cases hb
  · rw [if_neg hl]
    exact ⟨false, rfl, fun h => (by cases h), fun h => absurd h.1 hl⟩

/-- For an element type whose `==` is identity, `a == b` iff the contents are identical. -/
theorem c27_eq_identical [DecidableEq α] {same : Bool} {v w : List α}
    (hs : same = true → v.length = w.length → v = w) :
    arrayEq (fun a b => decide (a = b)) same v w = .ret (decide (v = w)) := by
  obtain ⟨r, h1, h2⟩ := c27_eq (eq := fun a b => decide (a = b)) (fun a => by simp) hs
  rw [h1]
  have : r = true ↔ v = w := by
    rw [h2]
    constructor
    · rintro ⟨hl, h⟩
      apply List.ext_getElem hl
      intro i h1 h2
      simpa using h i v[i] w[i] (List.getElem?_eq_getElem h1) (List.getElem?_eq_getElem h2)
    · rintro rfl
      refine ⟨rfl, fun i a b ha hb => ?_⟩
      rw [ha] at hb; cases hb; simp
  cases r with
  | true => simp [this.mp rfl]
  | false => simp [show v ≠ w from fun h => by have := this.mpr h; cases this]

example : arrayEq (fun a b : Nat => decide (a = b)) false [1, 2, 3] [1, 2, 4] = .ret false := by decide
example : equalsN (fun a b : Nat => decide (a = b)) false [1, 2, 3] [1, 2, 4] 2 = .ret true := by decide
example : equalsN (fun a b : Nat => decide (a = b)) false [1, 2] [1, 2, 4] 2 = .ret false := by decide

end Bdlib.Str
