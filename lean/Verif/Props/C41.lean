import Verif.Cstr.Lemmas

/-!
# C41: `strlcpy`

`Holds mem txt` (`Cstr/Lemmas.lean`): `mem` starts with the characters `txt`, none of them NUL, and a NUL.
-/

namespace Bdlib.Cstr
open Bdlib Bdlib.Str

/-- The loop copies `n` characters, or the rest of the string with its terminator. -/
theorem cpyLoop_spec {src txt : Bytes} (h : Holds src txt) (dst : Bytes) : ∀ n i, i ≤ txt.length → i + n ≤ dst.length →
    cpyLoop src n i (txt.take i ++ dst.drop i) =
      if i + n ≤ txt.length then .ret (0, i + n, txt.take (i + n) ++ dst.drop (i + n))
      else .ret (n - (txt.length - i), txt.length + 1, txt ++ [0] ++ dst.drop (txt.length + 1)) := by
  intro n
  induction n with
  | zero =>
    intro i hi hd
    rw [if_pos (by omega)]
    rfl
  | succ n ih =>
    intro i hi hd
    have htl : (txt.take i).length = i := by simp; omega
    unfold cpyLoop
    by_cases he : i = txt.length
    · rw [if_neg (by omega)]
      have e1 : rd src i = .ret 0 := by rw [he]; exact rd_nul h
      rw [e1]
      simp only [Eff.ret_bind]
      rw [wr_lt (by simp; omega), take_set_drop htl (by omega)]
      simp only [Eff.ret_bind, if_true]
      subst he
      simp
    · obtain ⟨e1, e2⟩ := rd_txt h (show i < txt.length by omega)
      rw [e1]
      simp only [Eff.ret_bind]
      rw [wr_lt (by simp; omega), take_set_drop htl (by omega), take_append_getElem (by omega)]
      simp only [Eff.ret_bind]
      rw [if_neg e2, ih (i + 1) (by omega) (by omega)]
      by_cases hn : i + (n + 1) ≤ txt.length
      · rw [if_pos (by omega), if_pos hn, show i + 1 + n = i + (n + 1) by omega]
      · rw [if_neg (by omega), if_neg hn, show n - (txt.length - (i + 1)) = n + 1 - (txt.length - i) by omega]

/-- `strlcpy(dst, src, siz)`: `dst` then holds the first `siz - 1` characters of `src` and a NUL, its other
bytes are unchanged, and the length of `src` is returned. -/
theorem c41_strlcpy {dst src txt : Bytes} {siz : Nat} (h : Holds src txt) (h0 : siz ≠ 0) (hd : siz ≤ dst.length) :
    strlcpy dst src siz =
      .ret (txt.length, txt.take (siz - 1) ++ [0] ++ dst.drop ((txt.take (siz - 1)).length + 1)) := by
  have hlt := h.lt
  unfold strlcpy
  have hl := cpyLoop_spec h dst (siz - 1) 0 (Nat.zero_le _) (by omega)
  simp only [List.take_zero, List.nil_append, List.drop_zero, Nat.zero_add, Nat.sub_zero] at hl
  rw [hl]
  by_cases hc : siz - 1 ≤ txt.length
  · rw [if_pos hc]
    simp only [Eff.ret_bind, if_true]
    rw [if_pos h0, wr_lt (by simp; omega)]
    simp only [Eff.ret_bind]
    rw [nulFrom_spec h _ _ hc (by omega)]
    simp only [Eff.ret_bind, Eff.pure_eq, Nat.add_sub_cancel]
    rw [take_set_drop (by simp; omega) (by omega)]
    congr 3
    simp; omega
  · rw [if_neg hc]
    simp only [Eff.ret_bind]
    rw [if_neg (by omega)]
    have : txt.take (siz - 1) = txt := List.take_of_length_le (by omega)
    rw [this]
    simp

/-- With `siz == 0` nothing is written. -/
theorem c41_zero {dst src txt : Bytes} (h : Holds src txt) : strlcpy dst src 0 = .ret (txt.length, dst) := by
  have hlt := h.lt
  unfold strlcpy
  simp only [Nat.zero_sub, cpyLoop, Eff.ret_bind, if_true]
  rw [if_neg (by simp)]
  rw [nulFrom_spec h _ _ (Nat.zero_le _) (by omega)]
  rfl

/-- Consequences: bytes from `siz` on are untouched, and `dst` is terminated within `siz`. -/
theorem c41_bounds {dst src txt : Bytes} {siz : Nat} (h : Holds src txt) (h0 : siz ≠ 0) (hd : siz ≤ dst.length) :
    ∃ dst', strlcpy dst src siz = .ret (txt.length, dst') ∧ dst'.drop siz = dst.drop siz ∧
      dst'.length = dst.length ∧ Holds dst' (txt.take (siz - 1)) := by
  refine ⟨_, c41_strlcpy h h0 hd, ?_, ?_, ?_⟩
  · have : (txt.take (siz - 1) ++ [0]).length ≤ siz := by simp; omega
    rw [List.drop_append, List.drop_eq_nil_of_le this, List.nil_append, List.drop_drop]
    congr 1
    simp only [List.length_append, List.length_cons, List.length_nil] at this ⊢
    omega
  · simp; omega
  · exact ⟨fun hm => h.1 (List.mem_of_mem_take hm), _, by rw [List.append_assoc]; rfl⟩

/-- "abc" into four bytes, of which three may be used. -/
example : strlcpy [9, 9, 9, 9] [97, 98, 99, 0] 3 = .ret (3, [97, 98, 0, 9]) := by decide
example : Holds [97, 98, 99, 0] [97, 98, 99] := ⟨by decide, [], rfl⟩

end Bdlib.Cstr
