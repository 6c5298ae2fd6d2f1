import Verif.Str.Model
import Verif.Spec.Strings

/-!
# Lemmas on searching
-/

namespace Bdlib.Str
open Bdlib Bdlib.Spec

variable {α : Type}

theorem occursAt_iff {w v : List α} {i : Nat} : OccursAt w v i ↔ i ≤ v.length ∧ w <+: v.drop i := by
  constructor
  · rintro ⟨b, a, rfl, rfl⟩
    refine ⟨by simp, a, ?_⟩
    rw [List.append_assoc, List.drop_left]
  · rintro ⟨h, t, ht⟩
    refine ⟨v.take i, t, ?_, by simp [h]⟩
    rw [List.append_assoc, ht, List.take_append_drop]

theorem _root_.Bdlib.Spec.OccursAt.le {w v : List α} {i : Nat} (h : OccursAt w v i) : i + w.length ≤ v.length := by
  obtain ⟨b, a, rfl, rfl⟩ := h
  simp

theorem prefix_iff_take {w v : List α} : w <+: v ↔ v.take w.length = w := by
  constructor
  · rintro ⟨t, rfl⟩; simp
  · intro h; rw [← h]; exact List.take_prefix _ _

theorem occursAt_take {w v : List α} {i : Nat} (h : i + w.length ≤ v.length) :
    OccursAt w v i ↔ (v.drop i).take w.length = w := by
  rw [occursAt_iff, prefix_iff_take]
  exact ⟨fun h => h.2, fun h' => ⟨by omega, h'⟩⟩

/-- An occurrence in the tail from `pos` on is one in the whole. -/
theorem occursAt_drop {w v : List α} {pos i : Nat} (hp : pos ≤ v.length) :
    OccursAt w (v.drop pos) i ↔ OccursAt w v (pos + i) := by
  rw [occursAt_iff, occursAt_iff, List.drop_drop, List.length_drop]
  constructor
  · rintro ⟨h1, h2⟩; exact ⟨by omega, h2⟩
  · rintro ⟨h1, h2⟩; exact ⟨by omega, h2⟩

theorem findItem_spec_ [DecidableEq α] {v : List α} (x : α) {pos : Nat} (hp : pos ≤ v.length) :
    (∃ m, pos ≤ m ∧ v[m]? = some x ∧ (∀ j, pos ≤ j → v[j]? = some x → m ≤ j) ∧ findItem_ v x pos = .ret (m - pos)) ∨
    ((∀ j, pos ≤ j → v[j]? ≠ some x) ∧ findItem_ v x pos = .ret npos) := by
  unfold findItem_
  rw [if_neg (by omega)]
  have hs := scanUp_spec (p := fun i => do return decide ((← rd v i) = x)) (P := fun i => v[i]? = some x)
    (v.length - pos) pos ?_
  · rcases hs with ⟨m, h1, h2, h3, h4, h5⟩ | ⟨h1, h2⟩
    · left
      refine ⟨m, h1, h3, fun j hj1 hj2 => ?_, by rw [h5]; rfl⟩
      rcases Nat.lt_or_ge j m with h | h
      · exact absurd hj2 (h4 j hj1 h)
      · exact h
    · right
      refine ⟨fun j hj1 hj2 => ?_, by rw [h2]; rfl⟩
      have : j < v.length := by
        rcases Nat.lt_or_ge j v.length with h | h
        · exact h
        · rw [List.getElem?_eq_none h] at hj2; cases hj2
      exact h1 j hj1 (by omega) hj2
  · intro j h1 h2
    have hj : j < v.length := by omega
    rw [rd_lt hj, List.getElem?_eq_getElem hj]
    simp

theorem rfindItem_spec_ [DecidableEq α] (v : List α) (x : α) :
    (∃ m : Nat, v[m]? = some x ∧ (∀ j : Nat, v[j]? = some x → j ≤ m) ∧ rfindItem v x = .ret m) ∨
    ((∀ j : Nat, v[j]? ≠ some x) ∧ rfindItem v x = .ret npos) := by
  have hlt : ∀ j : Nat, v[j]? = some x → j < v.length := by
    intro j h
    rcases Nat.lt_or_ge j v.length with h' | h'
    · exact h'
    · rw [List.getElem?_eq_none h'] at h; cases h
  unfold rfindItem
  have hs := scanDown_spec (p := fun i => do return decide ((← rd v i) = x)) (P := fun i => v[i]? = some x)
    (lo := 0) v.length ?_
  · rcases hs with ⟨m, h1, h2, h3, h4, h5⟩ | ⟨h1, h2⟩
    · left
      refine ⟨m, h3, fun j hj => ?_, by rw [h5]; rfl⟩
      rcases Nat.lt_or_ge m j with h | h
      · exact absurd hj (h4 j h (hlt j hj))
      · exact h
    · right
      exact ⟨fun j hj => h1 j (by omega) (hlt j hj) hj, by rw [h2]; rfl⟩
  · intro j _ hj
    rw [rd_lt hj, List.getElem?_eq_getElem hj]
    simp

theorem matchAt_spec {L : Libc} (hL : L.Ok) {v str : Bytes} (hs : str ≠ []) {i k : Nat} (hi : i + str.length ≤ v.length)
    (hk : k = str.length) : matchAt L v str i k = .ret (decide ((v.drop i).take str.length = str)) := by
  subst hk
  obtain ⟨c, t, rfl⟩ : ∃ c t, str = c :: t := by
    cases str with
    | nil => exact absurd rfl hs
    | cons c t => exact ⟨c, t, rfl⟩
  simp only [List.length_cons] at hi
  have hlt : i < v.length := by omega
  unfold matchAt
  rw [rd_lt (v := c :: t) (by simp), rd_lt hlt, rdN_le (by simp; omega), rdN_le (v := c :: t) (by simp)]
  simp only [Eff.ret_bind, List.getElem_cons_zero, List.drop_zero, List.take_length]
  have hd : v.drop i = v[i] :: v.drop (i + 1) := List.drop_eq_getElem_cons hlt
  by_cases hc : c = v[i]
  · rw [if_pos hc]
    have := hL.zero ((v.drop i).take (c :: t).length) (c :: t) (by simp; omega)
    simp only [Eff.pure_eq, Eff.ret.injEq]
    exact decide_eq_decide.mpr this
  · rw [if_neg hc]
    have : ¬ (v.drop i).take (c :: t).length = c :: t := by
      rw [hd]
      intro h
      simp only [List.length_cons, List.take_succ_cons, List.cons.injEq] at h
      exact hc h.1.symm
    rw [decide_eq_false this]
    rfl

theorem memmem_spec (h n : Bytes) :
    (∃ m, memmem h n = some m ∧ Smallest (OccursAt n h) m) ∨ (memmem h n = none ∧ ∀ i, ¬ OccursAt n h i) := by
  unfold memmem
  have hle : ∀ i, OccursAt n h i → i < h.length + 1 := fun i hi => by have := hi.le; omega
  cases hf : (List.range (h.length + 1)).find? (fun i => n.isPrefixOf (h.drop i)) with
  | none =>
    right
    refine ⟨rfl, fun i hi => ?_⟩
    rw [List.find?_eq_none] at hf
    have := hf i (List.mem_range.mpr (hle i hi))
    rw [List.isPrefixOf_iff_prefix] at this
    exact this (occursAt_iff.mp hi).2
  | some m =>
    left
    rw [List.find?_range_eq_some] at hf
    obtain ⟨h1, h2, h3⟩ := hf
    rw [List.isPrefixOf_iff_prefix] at h1
    refine ⟨m, rfl, occursAt_iff.mpr ⟨by have := List.mem_range.mp h2; omega, h1⟩, fun j hj => ?_⟩
    rcases Nat.lt_or_ge j m with hlt | hge
    · have := h3 j hlt
      rw [Bool.not_eq_true', ← Bool.not_eq_true, List.isPrefixOf_iff_prefix] at this
      exact absurd (occursAt_iff.mp hj).2 this
    · exact hge

end Bdlib.Str
