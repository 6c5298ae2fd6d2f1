import Verif.Str.Cut

/-!
# C36: `printf`

`text` is what the format and arguments produce.
-/

namespace Bdlib.Str
open Bdlib

/-- Texts of fewer than 4096 characters are returned exactly. -/
theorem c36_printf_partial (text : Bytes) (h : text.length < 4096) : printf text = .ret text := by
  unfold printf
  have htake : text.take 4095 = text := List.take_of_length_le (by omega)
  rw [htake, if_pos (by omega), rdN_le (by simp)]
  simp

/-- The last character of a text of exactly 4096 characters is lost: NUL comes instead. -/
theorem c36_refuted_4096 (u : Bytes) (c : UInt8) (h : u.length = 4095) : printf (u ++ [c]) = .ret (u ++ [0]) := by
  unfold printf
  have htake : (u ++ [c]).take 4095 = u := by rw [← h]; simp
  have hl : (u ++ [c]).length = 4096 := by simp; omega
  rw [htake, if_pos (by omega), hl, rdN_le (by simp; omega), h]
  congr 1
  exact List.take_of_length_le (by simp; omega)

/-- Longer texts are read past the end of the buffer. -/
theorem c36_refuted_long (text : Bytes) (h : 4096 < text.length) : printf text = .ub := by
  unfold printf
  split
  · unfold rdN
    rw [if_neg (by simp; omega)]
  · rfl

example : printf [104, 105] = .ret [104, 105] := c36_printf_partial _ (by decide)

end Bdlib.Str
