import Verif.Machine.Basic

/-!
# List lemmas about `window` and `overwrite`
-/

namespace Bdlib

variable {T : Type}

theorem getElem?_window (cells : List T) (i n j : Nat) :
    (window cells i n)[j]? = if j < n then cells[i + j]? else none := by
  unfold window
  rw [List.getElem?_take]
  split
  · rw [List.getElem?_drop]
  · rfl

theorem getElem?_overwrite {cells vs : List T} {i : Nat} (h : i ≤ cells.length) (j : Nat) :
    (overwrite cells i vs)[j]? =
      if j < i then cells[j]? else if j < i + vs.length then vs[j - i]? else cells[j]? := by
  unfold overwrite
  have hl : (cells.take i).length = i := by simp; omega
  by_cases h1 : j < i
  · rw [if_pos h1, List.append_assoc, List.getElem?_append_left (by omega), List.getElem?_take,
      if_pos h1]
  · rw [if_neg h1, List.append_assoc, List.getElem?_append_right (by omega), hl]
    by_cases h2 : j < i + vs.length
    · rw [if_pos h2, List.getElem?_append_left (by omega)]
    · rw [if_neg h2, List.getElem?_append_right (by omega), List.getElem?_drop]
      congr 1
      omega

theorem overwrite_length {cells vs : List T} {i : Nat} (h : i + vs.length ≤ cells.length) :
    (overwrite cells i vs).length = cells.length := by
  simp [overwrite]; omega

theorem overwrite_nil (cells : List T) (i : Nat) : overwrite cells i [] = cells := by
  simp [overwrite]

theorem window_len {cells : List T} {i n : Nat} (h : i + n ≤ cells.length) :
    (window cells i n).length = n := by
  simp [window]; omega

theorem window_zero (cells : List T) (i : Nat) : window cells i 0 = [] := by simp [window]

/-- Writing inside a window is writing into the window's contents. -/
theorem window_overwrite {cells vs : List T} {off i n : Nat} (h1 : i + vs.length ≤ n)
    (h2 : off + n ≤ cells.length) :
    window (overwrite cells (off + i) vs) off n = overwrite (window cells off n) i vs := by
  have hw := window_len h2
  apply List.ext_getElem?
  intro j
  rw [getElem?_window, getElem?_overwrite (by omega), getElem?_overwrite (by omega), getElem?_window]
  split
  · have e1 : (off + j < off + i) ↔ (j < i) := by omega
    have e2 : (off + j < off + i + vs.length) ↔ (j < i + vs.length) := by omega
    have e3 : off + j - (off + i) = j - i := by omega
    simp only [e1, e2, e3]
  · rw [if_neg (by omega), if_neg (by omega)]

/-- Writing past the end of a window does not change it. -/
theorem window_overwrite_after {cells vs : List T} {off i n : Nat} (h1 : off + n ≤ i)
    (h2 : i ≤ cells.length) :
    window (overwrite cells i vs) off n = window cells off n := by
  apply List.ext_getElem?
  intro j
  rw [getElem?_window, getElem?_window]
  split
  · rw [getElem?_overwrite h2, if_pos (by omega)]
  · rfl

theorem window_overwrite_self {cells vs : List T} {i : Nat} (h : i + vs.length ≤ cells.length) :
    window (overwrite cells i vs) i vs.length = vs := by
  apply List.ext_getElem?
  intro j
  rw [getElem?_window]
  split
  · rw [getElem?_overwrite (by omega), if_neg (by omega), if_pos (by omega)]
    congr 1; omega
  · rw [List.getElem?_eq_none (by omega)]

theorem window_prefix {cells : List T} {i n m : Nat} (h : m ≤ n) :
    (window cells i n).take m = window cells i m := by
  apply List.ext_getElem?
  intro j
  rw [List.getElem?_take, getElem?_window, getElem?_window]
  by_cases hm : j < m
  · rw [if_pos hm, if_pos hm, if_pos (by omega)]
  · rw [if_neg hm, if_neg hm]

theorem window_window {cells : List T} {i n k m : Nat} (h : k + m ≤ n) :
    window (window cells i n) k m = window cells (i + k) m := by
  apply List.ext_getElem?
  intro j
  rw [getElem?_window, getElem?_window, getElem?_window]
  by_cases hm : j < m
  · rw [if_pos hm, if_pos hm, if_pos (by omega), Nat.add_assoc]
  · rw [if_neg hm, if_neg hm]

theorem window_append_left {l r : List T} : window (l ++ r) 0 l.length = l := by
  simp [window]

theorem window_all {l : List T} {n : Nat} (h : l.length ≤ n) : window l 0 n = l := by
  simp [window, List.take_of_length_le h]

/-- What an insertion does to a window that has room: the shift and the write leave the spliced list. -/
theorem splice_window {w : List T} {v xs : List T} {pos : Nat}
    (hw : w.length = v.length + xs.length) (hv : w.take v.length = v) (hp : pos ≤ v.length) :
    overwrite (overwrite w (pos + xs.length) (v.drop pos)) pos xs = v.take pos ++ xs ++ v.drop pos := by
  have hd : (v.drop pos).length = v.length - pos := by simp
  have l2 : (overwrite w (pos + xs.length) (v.drop pos)).length = w.length := overwrite_length (by omega)
  have hvj : ∀ j, j < v.length → w[j]? = v[j]? := by
    intro j hj
    have e : (w.take v.length)[j]? = w[j]? := by rw [List.getElem?_take, if_pos hj]
    rw [hv] at e
    exact e.symm
  apply List.ext_getElem?
  intro j
  rw [getElem?_overwrite (by omega), getElem?_overwrite (by omega)]
  have ht : (v.take pos).length = pos := by simp; omega
  by_cases h1 : j < pos
  · rw [if_pos h1, if_pos (by omega), List.append_assoc,
      List.getElem?_append_left (by omega), List.getElem?_take, if_pos h1]
    exact hvj j (by omega)
  · rw [if_neg h1]
    by_cases h2 : j < pos + xs.length
    · rw [if_pos h2, List.getElem?_append_left (by simp; omega),
        List.getElem?_append_right (by omega), ht]
    · rw [if_neg h2, if_neg h2, List.getElem?_append_right (by simp; omega)]
      have e : j - (v.take pos ++ xs).length = j - (pos + xs.length) := by
        rw [List.length_append, ht]
      rw [e]
      by_cases h3 : j < pos + xs.length + (v.drop pos).length
      · rw [if_pos h3]
      · rw [if_neg h3, List.getElem?_eq_none (by omega), List.getElem?_eq_none (by omega)]

end Bdlib
