import Verif.Stm.History

/-!
# C46: `seek`

Partial: the position is clamped to the capacity of the buffer instead of the contents, and `SEEK_END`
counts from the capacity; positions behind the contents make the next call throw or read out of bounds.
-/

namespace Bdlib.Stm
open Bdlib Bdlib.Str Bdlib.Spec

/-- `seek` returns the new position, which is between 0 and the capacity, and changes nothing else. -/
theorem c46_range (s : Stream) {offset : Int} (h : -2147483648 ≤ offset ∧ offset ≤ 2147483647) (w : Whence) :
    0 ≤ (seek s offset w).1 ∧ (seek s offset w).1 ≤ s.cap ∧ ((seek s offset w).2.pos : Int) = (seek s offset w).1 ∧
      (seek s offset w).2.str = s.str ∧ (seek s offset w).2.cap = s.cap := by
  have hr : -2147483648 ≤ newpos s offset w ∧ newpos s offset w ≤ 2147483647 := by
    cases w
    · exact h
    · exact toInt_range _
    · exact toInt_range _
    · exact toInt_range _
  unfold seek clampPos
  generalize newpos s offset w = p at hr ⊢
  dsimp only
  by_cases h0 : p < 0
  · rw [if_pos h0]
    refine ⟨by omega, by omega, by unfold two64; omega, rfl, rfl⟩
  · rw [if_neg h0]
    by_cases hc : p > s.cap
    · rw [if_pos hc, toInt_small (by omega) (by unfold maxInt; omega)]
      refine ⟨by omega, by omega, by unfold two64; omega, rfl, rfl⟩
    · rw [if_neg hc]
      refine ⟨by omega, by omega, by unfold two64; omega, rfl, rfl⟩

/-- The position a call asks for, `size` being what `SEEK_END` counts from. -/
def target (s : Stream) (size : Nat) (offset : Int) : Whence → Int
  | .set => offset
  | .cur => s.pos + offset
  | .fromEnd => size - offset
  | .other => s.pos

/-- The position asked for, clamped to the buffer. -/
theorem c46_clamp {s : Stream} {offset : Int} {w : Whence}
    (h : -2147483648 ≤ target s s.cap offset w ∧ target s s.cap offset w ≤ 2147483647) :
    (seek s offset w).1 = max 0 (min (target s s.cap offset w) s.cap) := by
  have key : ∀ i : Int, -2147483648 ≤ i → i ≤ 2147483647 → toInt i = i := by
    intro i h1 h2
    unfold toInt Rca.toInt32
    dsimp only
    unfold two64
    split <;> omega
  have hp : newpos s offset w = target s s.cap offset w := by
    cases w
    · rfl
    · exact key _ h.1 h.2
    · exact key _ h.1 h.2
    · exact key _ h.1 h.2
  unfold seek clampPos
  dsimp only
  rw [hp]
  generalize target s s.cap offset w = p at h ⊢
  by_cases h0 : p < 0
  · rw [if_pos h0]; omega
  · rw [if_neg h0]
    by_cases hc : p > s.cap
    · rw [if_pos hc, key _ (by omega) (by omega)]; omega
    · rw [if_neg hc]; omega

/-- Seeking from the beginning or the position to a place inside the contents, or before their beginning,
goes there and keeps the stream usable: every later call allowed by `C44` is safe. -/
theorem c46_seek_partial {s : Stream} (h : Inside s) {offset : Int} {w : Whence} (hw : w ≠ .fromEnd)
    (hlo : -2147483648 ≤ target s s.str.length offset w) (hhi : target s s.str.length offset w ≤ s.str.length) :
    (seek s offset w).1 = max 0 (target s s.str.length offset w) ∧
      ((seek s offset w).2.pos : Int) = max 0 (target s s.str.length offset w) ∧ Inside (seek s offset w).2 := by
  have h2 := h.cap
  have h3 := h.max
  unfold maxInt at h3
  have ht : target s s.str.length offset w = target s s.cap offset w := by
    cases w
    · rfl
    · rfl
    · exact absurd rfl hw
    · rfl
  rw [ht] at hlo hhi ⊢
  have e := c46_clamp (s := s) (offset := offset) (w := w) ⟨hlo, by omega⟩
  have e1 : (seek s offset w).1 = max 0 (target s s.cap offset w) := by rw [e]; omega
  have e2 : ((seek s offset w).2.pos : Int) = (seek s offset w).1 := by
    unfold seek at e1 ⊢
    dsimp only at e1 ⊢
    rw [e1]
    unfold two64
    omega
  refine ⟨e1, e2.trans e1, ?_, ?_, ?_⟩
  · rw [show (seek s offset w).2.str = s.str from rfl]; omega
  · exact h2
  · exact h.max

/-- `SEEK_END` goes to the contents' end only if the buffer is full. -/
theorem c46_end_partial {s : Stream} (h : Inside s) (hf : s.cap = s.str.length) :
    (seek s 0 .fromEnd).1 = s.str.length := by
  have h3 := h.max
  unfold maxInt at h3
  have ht : target s s.cap 0 .fromEnd = s.cap := by simp [target]
  rw [c46_clamp (by rw [ht]; omega), ht]
  omega

/-- Refutation: with room left in the buffer, `seek(0, SEEK_END)` goes behind the contents; then `puts`
throws, `getline` fails to allocate and reading up to a delimiter reads behind the contents. -/
theorem c46_refuted_end {s : Stream} (h : s.str.length < s.cap) (hm : s.cap ≤ maxInt) :
    (seek s 0 .fromEnd).1 > s.str.length ∧
    (∀ x cap, puts (seek s 0 .fromEnd).2 x cap = .exc .outOfRange) ∧
    getline (seek s 0 .fromEnd).2 none = .exc .badAlloc ∧
    getline (seek s 0 .fromEnd).2 (some 1) = .ub := by
  unfold maxInt at hm
  have e : seek s 0 .fromEnd = ((s.cap : Int), { s with pos := s.cap }) := by
    unfold seek newpos clampPos
    dsimp only
    rw [Int.sub_zero, toInt_small (by omega) (by unfold maxInt; omega), if_neg (by omega), if_neg (by omega)]
    congr 2
    unfold two64
    omega
  rw [e]
  have hs : sub64 s.str.length s.cap = two64 + s.str.length - s.cap := by
    unfold sub64; rw [if_neg (by omega)]
  refine ⟨by dsimp only; omega, ?_, ?_, ?_⟩
  · intro x cap
    unfold puts replace
    dsimp only
    rw [if_pos h]
    rfl
  · unfold getline read
    simp only [Option.getD_none, if_true, Nat.min_self]
    rw [hs, if_neg (by decide)]
    unfold Str.alloc
    rw [if_neg (by unfold Rca.maxCells two64; omega)]
    rfl
  · unfold getline read
    simp only [Option.getD_some]
    rw [if_neg (by decide : ¬ ((1 : Nat) = 99999999)), hs, if_neg (by decide), show min 1 (two64 + s.str.length - s.cap) = 1 by unfold two64; omega]
    rw [alloc_ok (by decide)]
    simp only [Eff.ret_bind, readLoop]
    have : rd s.str s.cap = .ub := by unfold rd; rw [List.getElem?_eq_none (by omega)]
    rw [this]
    rfl

/-- Such streams exist: "ab" in a buffer of 16 bytes; the end is reported as 16. -/
theorem c46_refuted_concrete : Inside ⟨[97, 98], 16, 0, false⟩ ∧ (seek ⟨[97, 98], 16, 0, false⟩ 0 .fromEnd).1 = 16 :=
  ⟨⟨by decide, by decide, by decide⟩, by decide⟩

example : seek ⟨[97, 98], 16, 1, false⟩ (-5) .cur = (0, ⟨[97, 98], 16, 0, false⟩) := by decide

end Bdlib.Stm
