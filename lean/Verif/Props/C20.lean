import Verif.Str.Search

/-!
# C20: `find`/`rfind` of an element return the first/last occurrence

`v` is what the array holds; a search that fails returns `npos`.
-/

namespace Bdlib.Str
open Bdlib Bdlib.Spec

variable {α : Type} [DecidableEq α]

/-- Index `i` of `v` holds `x`. -/
def HoldsAt (v : List α) (x : α) (i : Nat) : Prop := v[i]? = some x

omit [DecidableEq α] in
theorem HoldsAt.lt {v : List α} {x : α} {i : Nat} (h : HoldsAt v x i) : i < v.length := by
  rcases Nat.lt_or_ge i v.length with h' | h'
  · exact h'
  · unfold HoldsAt at h; rw [List.getElem?_eq_none h'] at h; cases h

/-- `find(x)`: the smallest index holding `x`. -/
theorem c20_find {v : List α} (hv : v.length ≤ npos) (x : α) :
    ∃ r, findItem v x = .ret r ∧ Finds Smallest (HoldsAt v x) npos r := by
  rcases findItem_spec_ (v := v) x (Nat.zero_le _) with ⟨m, _, h2, h3, h4⟩ | ⟨h1, h2⟩
  · have hlt : m < v.length := HoldsAt.lt h2
    exact ⟨m, h4, Or.inl ⟨⟨h2, fun j hj => h3 j (Nat.zero_le _) hj⟩, by omega⟩⟩
  · exact ⟨npos, h2, Or.inr ⟨fun i => h1 i (Nat.zero_le _), rfl⟩⟩

/-- `rfind(x)`: the largest index holding `x`. -/
theorem c20_rfind {v : List α} (hv : v.length ≤ npos) (x : α) :
    ∃ r, rfindItem v x = .ret r ∧ Finds Largest (HoldsAt v x) npos r := by
  rcases rfindItem_spec_ v x with ⟨m, h2, h3, h4⟩ | ⟨h1, h2⟩
  · have hlt : m < v.length := HoldsAt.lt h2
    exact ⟨m, h4, Or.inl ⟨⟨h2, h3⟩, by omega⟩⟩
  · exact ⟨npos, h2, Or.inr ⟨h1, rfl⟩⟩

/-- `find(x, pos)` with `pos <= length()`: the distance from `pos` of the first occurrence at or after
it. -/
theorem c20_find_from {v : List α} (hv : v.length ≤ npos) (x : α) {pos : Nat} (hp : pos ≤ v.length) :
    ∃ r, findItemFrom v x pos = .ret r ∧ Finds Smallest (fun d => HoldsAt v x (pos + d)) npos r := by
  have hval : findItemFrom v x pos = findItem_ v x pos := by
    unfold findItemFrom
    by_cases h0 : pos = 0
    · simp [h0]
    · simp only [h0, ne_eq, not_false_eq_true, if_true]
      unfold validate
      rw [if_neg (by omega)]
      rfl
  rw [hval]
  rcases findItem_spec_ (v := v) x hp with ⟨m, h1, h2, h3, h4⟩ | ⟨h1, h2⟩
  · have hlt : m < v.length := HoldsAt.lt h2
    refine ⟨m - pos, h4, Or.inl ⟨⟨?_, fun j hj => ?_⟩, by omega⟩⟩
    · show v[pos + (m - pos)]? = some x
      rw [show pos + (m - pos) = m by omega]; exact h2
    · have := h3 (pos + j) (by omega) hj
      omega
  · exact ⟨npos, h2, Or.inr ⟨fun i => h1 (pos + i) (by omega), rfl⟩⟩

/-- `find(x, pos)` with `pos > length()` throws. -/
theorem c20_find_range {v : List α} (x : α) {pos : Nat} (hp : v.length < pos) :
    findItemFrom v x pos = .exc .outOfRange := by
  unfold findItemFrom
  simp only [show pos ≠ 0 by omega, ne_eq, not_false_eq_true, if_true]
  unfold validate
  rw [if_pos (by omega)]
  rfl

example : findItem [5, 7, 9, 7] 7 = .ret 1 := rfl
example : rfindItem [5, 7, 9, 7] 7 = .ret 3 := rfl
example : findItemFrom [5, 7, 9, 7] 7 2 = .ret 1 := rfl
example : findItemFrom [5, 7, 9, 7] 8 2 = .ret npos := rfl
example : rfindItem ([] : List Nat) 7 = .ret npos := rfl

end Bdlib.Str
