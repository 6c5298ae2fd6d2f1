import Verif.Props.C41

/-!
# C42: `strlcat`

Partial: when `dst` has no NUL among its first `siz` bytes, the code also reads `dst[siz]`
(`c42_refuted_overread`); the call is correct if that byte may be read (`c42_unterminated_partial`).
-/

namespace Bdlib.Cstr
open Bdlib Bdlib.Str

theorem catEnd_spec {dst old : Bytes} (h : Holds dst old) : ∀ n d, d ≤ old.length → old.length ≤ d + n →
    catEnd dst n d = .ret old.length := by
  intro n
  induction n with
  | zero =>
    intro d h1 h2
    have : d = old.length := by omega
    unfold catEnd
    rw [this, rd_nul h]
    rfl
  | succ n ih =>
    intro d h1 h2
    unfold catEnd
    by_cases hd : d = old.length
    · rw [hd, rd_nul h]
      rfl
    · obtain ⟨e1, e2⟩ := rd_txt h (show d < old.length by omega)
      rw [e1]
      simp only [Eff.ret_bind]
      rw [if_neg e2]
      exact ih (d + 1) (by omega) (by omega)

theorem catLoop_spec {src txt : Bytes} (h : Holds src txt) (dst old : Bytes) (room : Nat)
    (hd : old.length + room < dst.length) : ∀ k s, s ≤ txt.length → txt.length < s + k →
    catLoop src k s (old.length + min s room) (room + 1 - min s room)
        (old ++ txt.take (min s room) ++ dst.drop (old.length + min s room)) =
      .ret (old.length + min txt.length room, txt.length,
        old ++ txt.take room ++ dst.drop (old.length + min txt.length room)) := by
  intro k
  induction k with
  | zero => intro s h1 h2; omega
  | succ k ih =>
    intro s h1 h2
    unfold catLoop
    by_cases hs : s = txt.length
    · subst hs
      rw [rd_nul h]
      simp only [Eff.ret_bind, if_true, Eff.pure_eq]
      have : txt.take (min txt.length room) = txt.take room := by
        rw [Nat.min_comm, ← List.take_take, List.take_length]
      rw [this]
    · obtain ⟨e1, e2⟩ := rd_txt h (show s < txt.length by omega)
      rw [e1]
      simp only [Eff.ret_bind]
      rw [if_neg e2]
      by_cases hr : s < room
      · have m1 : min s room = s := by omega
        have m2 : min (s + 1) room = s + 1 := by omega
        have hi := ih (s + 1) (by omega) (by omega)
        rw [m2] at hi
        rw [m1, if_pos (by omega), wr_lt (by simp; omega), take_set_drop (by simp; omega) (by omega)]
        simp only [Eff.ret_bind]
        rw [List.append_assoc old, take_append_getElem (by omega), show room + 1 - s - 1 = room + 1 - (s + 1) by omega]
        exact hi
      · have m1 : min s room = room := by omega
        have m2 : min (s + 1) room = room := by omega
        have hi := ih (s + 1) (by omega) (by omega)
        rw [m2] at hi
        rw [m1, if_neg (by omega)]
        exact hi

/-- `strlcat(dst, src, siz)` with `dst` terminated within `siz`: as much of `src` as fits into `siz` bytes
with the NUL is appended, the bytes behind are unchanged, and the length the full text would have had is
returned. -/
theorem c42_strlcat_partial {dst old src txt : Bytes} {siz : Nat} (ho : Holds dst old) (h : Holds src txt)
    (hlt : old.length < siz) (hd : siz ≤ dst.length) :
    strlcat dst src siz =
      .ret (old.length + txt.length,
        old ++ txt.take (siz - 1 - old.length) ++ [0] ++
          dst.drop (old.length + (txt.take (siz - 1 - old.length)).length + 1)) := by
  unfold strlcat
  rw [catEnd_spec ho siz 0 (Nat.zero_le _) (by omega)]
  simp only [Eff.ret_bind]
  rw [if_neg (by omega)]
  have hl := catLoop_spec h dst old (siz - 1 - old.length) (by omega) src.length 0 (Nat.zero_le _)
    (by have := h.lt; omega)
  simp only [Nat.zero_min, List.take_zero, List.append_nil, Nat.add_zero, Nat.sub_zero] at hl
  rw [← holds_txt_set ho, show siz - 1 - old.length + 1 = siz - old.length by omega] at hl
  rw [hl]
  simp only [Eff.ret_bind]
  rw [wr_lt (by simp; omega), take_set_drop (by simp; omega) (by omega)]
  simp only [Eff.ret_bind, Eff.pure_eq]
  have : (txt.take (siz - 1 - old.length)).length = min txt.length (siz - 1 - old.length) := by simp; omega
  rw [this]

/-- Nothing at or behind `dst[siz]` changes, and `dst` stays terminated within `siz`. -/
theorem c42_bounds_partial {dst old src txt : Bytes} {siz : Nat} (ho : Holds dst old) (h : Holds src txt)
    (hlt : old.length < siz) (hd : siz ≤ dst.length) :
    ∃ dst', strlcat dst src siz = .ret (old.length + txt.length, dst') ∧ dst'.drop siz = dst.drop siz ∧
      dst'.length = dst.length ∧ Holds dst' (old ++ txt.take (siz - 1 - old.length)) := by
  refine ⟨_, c42_strlcat_partial ho h hlt hd, ?_, ?_, ?_⟩
  · have : (old ++ txt.take (siz - 1 - old.length) ++ [0]).length ≤ siz := by simp; omega
    rw [List.drop_append, List.drop_eq_nil_of_le this, List.nil_append, List.drop_drop]
    congr 1
    simp only [List.length_append, List.length_cons, List.length_nil] at this ⊢
    omega
  · simp; omega
  · refine ⟨fun hm => ?_, _, by rw [List.append_assoc _ [0]]; rfl⟩
    rcases List.mem_append.1 hm with hm | hm
    · exact ho.1 hm
    · exact h.1 (List.mem_of_mem_take hm)

theorem catEnd_full {dst : Bytes} {siz : Nat} (hn : 0 ∉ dst.take siz) : ∀ n d, d + n = siz →
    catEnd dst n d = if siz < dst.length then .ret siz else .ub := by
  intro n
  induction n with
  | zero =>
    intro d hd
    have : d = siz := by omega
    subst this
    unfold catEnd
    by_cases hl : d < dst.length
    · rw [if_pos hl, rd_lt hl]
      simp only [Eff.ret_bind]
      split <;> rfl
    · rw [if_neg hl, rd_ge (by omega)]
      rfl
  | succ n ih =>
    intro d hd
    unfold catEnd
    by_cases hl : d < dst.length
    · rw [rd_lt hl]
      simp only [Eff.ret_bind]
      have : dst[d] ≠ 0 := by
        intro he
        apply hn
        rw [← he, List.mem_take_iff_getElem]
        exact ⟨d, by omega, rfl⟩
      rw [if_neg this]
      exact ih (d + 1) (by omega)
    · rw [rd_ge (by omega), if_neg (by omega)]
      rfl

/-- No NUL within `siz`, and one more readable byte: `dst` is left alone and `siz + strlen(src)` returned. -/
theorem c42_unterminated_partial {dst src txt : Bytes} {siz : Nat} (h : Holds src txt) (hn : 0 ∉ dst.take siz)
    (hd : siz < dst.length) : strlcat dst src siz = .ret (siz + txt.length, dst) := by
  unfold strlcat
  rw [catEnd_full hn siz 0 (by omega), if_pos hd]
  simp only [Eff.ret_bind, Nat.sub_self, if_true]
  rw [strlen_spec h]
  rfl

/-- If there is no such byte the code reads out of bounds. -/
theorem c42_overread {dst src : Bytes} {siz : Nat} (hn : 0 ∉ dst.take siz) (hd : dst.length ≤ siz) :
    strlcat dst src siz = .ub := by
  unfold strlcat
  rw [catEnd_full hn siz 0 (by omega), if_neg (by omega)]
  rfl

/-- Refutation of "touches only `dst[0..siz)`": a full two-byte buffer without terminator. -/
theorem c42_refuted_overread : strlcat [97, 98] [99, 0] 2 = .ub := c42_overread (by decide) (by decide)

example : strlcat [97, 0, 9, 9, 9] [98, 99, 100, 0] 4 = .ret (4, [97, 98, 99, 0, 9]) := by decide
example : Holds [97, 0, 9, 9, 9] [97] := ⟨by decide, _, rfl⟩

end Bdlib.Cstr
