import Verif.Stm.History

/-!
# C47: `truncate`, `clear`, `peek`

Partial: fewer than 2^31 bytes; longer contents are lost by `truncate` (`c47_refuted_long`).
-/

namespace Bdlib.Stm
open Bdlib Bdlib.Str Bdlib.Spec

/-- `truncate()` keeps exactly the first `tell()` bytes (all of them if the position is behind the end). -/
theorem c47_truncate_partial {s : Stream} (hm : s.str.length ≤ maxInt) (hp : s.pos < 9223372036854775808) (cap : Nat) :
    truncate s cap = .ret { s with str := s.str.take s.pos, cap := cap } := by
  unfold truncate toSsize
  rw [if_pos hp]
  rcases Nat.lt_or_ge s.str.length s.pos with h | h
  · have e : slice s.str 0 s.pos = .ret s.str := by
      unfold slice
      rw [toInt32_le hm]
      dsimp only
      rw [if_neg (by omega : ¬ ((s.pos : Int) = -1))]
      by_cases he : s.str.length = 0
      · rw [if_pos (by omega), List.length_eq_zero_iff.1 he]
      · unfold maxInt at hm
        rw [if_neg (by omega), if_neg (by omega), if_neg (by omega), if_neg (by omega), if_pos (by omega)]
        have : ((((s.str.length : Int) - 0) % (two64 : Int)).toNat) = s.str.length := by unfold two64; omega
        rw [this, rdN_le (by simp)]
        simp
    rw [e, List.take_of_length_le (by omega)]
    rfl
  · have := slice_in (i := 0) (k := s.pos) hm (by omega)
    simp only [Int.ofNat_zero, List.drop_zero] at this
    erw [this]
    rfl

/-- `peek()` returns the rest and moves nothing. -/
theorem c47_peek_partial {s : Stream} (hm : s.str.length ≤ maxInt) (hp : s.pos < 9223372036854775808) :
    peek s = .ret (s.str.drop s.pos) := by
  unfold peek toSsize
  rw [if_pos hp, slice_rest hm]

/-- `clear()` empties and rewinds. -/
theorem c47_clear (s : Stream) (cap : Nat) : (clear s cap).str = [] ∧ (clear s cap).pos = 0 := ⟨rfl, rfl⟩

/-- What follows a truncation: reading gives nothing, writing appends. -/
theorem c47_truncate_then_puts_partial {s : Stream} (h : Inside s) (x : Bytes) (c1 c2 : Nat) :
    (do puts (← truncate s c1) x c2) =
      .ret ⟨s.str.take s.pos ++ x, c2, s.pos + x.length, s.loading⟩ := by
  have h1 := h.pos
  have h3 := h.max
  unfold maxInt at h3
  rw [c47_truncate_partial h.max (by omega)]
  simp only [Eff.ret_bind]
  unfold puts
  rw [replace_ok (by simp; omega)]
  simp only [Eff.ret_bind, Eff.pure_eq]
  rw [List.take_take, Nat.min_self, List.drop_eq_nil_of_le (as := s.str.take s.pos) (by simp; omega), List.append_nil]

/-- Refutation for all lengths: truncating a stream of exactly 2^31 bytes anywhere empties it. -/
theorem c47_refuted_long {s : Stream} (hl : s.str.length = 2147483648) (cap : Nat) (hp : s.pos ≤ s.str.length) :
    truncate s cap = .ret { s with str := [], cap := cap } := by
  unfold truncate toSsize
  rw [if_pos (by omega)]
  unfold slice
  have : Rca.toInt32 s.str.length = -2147483648 := by
    rw [hl]; decide
  rw [this]
  dsimp only
  rw [if_neg (by omega : ¬ ((s.pos : Int) = -1)), if_pos (by decide)]
  rfl

/-- There are such streams. -/
example : ∃ s : Stream, s.str.length = 2147483648 ∧ s.pos ≤ s.str.length ∧ s.pos ≠ 0 :=
  have key : ∀ n, 5 ≤ n → ∃ s : Stream, s.str.length = n ∧ s.pos ≤ s.str.length ∧ s.pos ≠ 0 := fun n hn =>
    ⟨⟨List.replicate n 0, n, 5, false⟩, List.length_replicate .., by rw [List.length_replicate]; exact hn, show (5 : Nat) ≠ 0 by decide⟩
  key _ (by decide)
example : truncate ⟨[97, 98, 99], 16, 1, false⟩ 16 = .ret ⟨[97], 16, 1, false⟩ := by decide
example : peek ⟨[97, 98, 99], 16, 1, false⟩ = .ret [98, 99] := by decide

end Bdlib.Stm
