import Verif.Stm.History

/-!
# C44: stream writes overwrite at the position, reads return what was written

Partial: positions behind the contents, which `seek` can produce, make `puts` throw (`c44_refuted_gap`),
and contents are limited to 2^31 - 1 bytes.
-/

namespace Bdlib.Stm
open Bdlib Bdlib.Str Bdlib.Spec

/-- Every history of allowed calls returns what the specified tape returns (`Spec/Stream.lean`). -/
theorem c44_history_partial {s : Stream} {t : Tape} (h : Run s t) {op : TapeOp} (ha : Allowed t op) {cap : Nat}
    (hcap : (t.step op).2.content.length ≤ cap) :
    ∃ s', apply s cap op = .ret ((t.step op).1, s') ∧ Run s' (t.step op).2 ∧
      s'.str = (t.step op).2.content ∧ s'.pos = (t.step op).2.pos ∧ s'.loading = false := by
  obtain ⟨s', e1, e2⟩ := step h.is ha hcap
  exact ⟨s', e1, .step h ha hcap e1, e2.content, e2.pos, e2.idle⟩

/-- `puts(x)` makes the bytes from the position on equal to `x`, keeps all others and advances. -/
theorem c44_puts {s : Stream} (h : s.pos ≤ s.str.length) (x : Bytes) (cap : Nat) :
    ∃ s', puts s x cap = .ret s' ∧ s'.pos = s.pos + x.length ∧
      s'.str.length = max s.str.length (s.pos + x.length) ∧
      (∀ i (hi : i < x.length), s'.str[s.pos + i]? = some x[i]) ∧
      (∀ i, i < s.pos ∨ s.pos + x.length ≤ i → s'.str[i]? = s.str[i]?) := by
  refine ⟨_, by unfold puts; rw [replace_ok h]; rfl, rfl, ?_, ?_, ?_⟩
  · simp; omega
  · intro i hi
    dsimp only
    have hl : (s.str.take s.pos).length = s.pos := by simp; omega
    rw [List.append_assoc, List.getElem?_append_right (by omega), hl, Nat.add_sub_cancel_left,
      List.getElem?_append_left hi, List.getElem?_eq_getElem hi]
  · intro i hi
    dsimp only
    have hl : (s.str.take s.pos).length = s.pos := by simp; omega
    rcases hi with hi | hi
    · rw [List.append_assoc, List.getElem?_append_left (by omega), List.getElem?_take_of_lt hi]
    · rw [List.getElem?_append_right (by simp; omega), List.getElem?_drop]
      congr 1
      simp
      omega

/-- `read(n)` returns the next `min(n, remaining)` bytes and advances by as many. -/
theorem c44_read_partial {s : Stream} (h : Inside s) (n : Nat) :
    ∃ x s', read s n 0 = .ret (x, s') ∧ x = (s.str.drop s.pos).take n ∧ x.length = min n (s.str.length - s.pos) ∧
      s'.str = s.str ∧ s'.pos = s.pos + x.length := by
  refine ⟨_, _, read_plain h n, rfl, by simp, rfl, by simp⟩

/-- Writing, going back and reading returns what was written. -/
theorem c44_read_back_partial {s : Stream} (h : Inside s) (x : Bytes) {cap : Nat}
    (hcap : max s.str.length (s.pos + x.length) ≤ cap) (hm : s.pos + x.length ≤ maxInt) :
    ∃ s' s'', puts s x cap = .ret s' ∧ read (seek s' s.pos .set).2 x.length 0 = .ret (x, s'') ∧
      s''.pos = s.pos + x.length := by
  have hp := h.pos
  have h3 := h.max
  have hl : (s.str.take s.pos ++ x ++ s.str.drop (s.pos + x.length)).length = max s.str.length (s.pos + x.length) := by
    simp; omega
  have hi : Inside ⟨s.str.take s.pos ++ x ++ s.str.drop (s.pos + x.length), cap, s.pos + x.length, s.loading⟩ :=
    ⟨by dsimp only; rw [hl]; omega, by dsimp only; rw [hl]; exact hcap, by dsimp only; rw [hl]; omega⟩
  refine ⟨_, ⟨s.str.take s.pos ++ x ++ s.str.drop (s.pos + x.length), cap, s.pos + x.length, s.loading⟩,
    by unfold puts; rw [replace_ok hp]; rfl, ?_, rfl⟩
  have := seek_set hi (p := s.pos) (by dsimp only; rw [hl]; omega)
  dsimp only at this ⊢
  rw [this]
  have hi' : Inside ⟨s.str.take s.pos ++ x ++ s.str.drop (s.pos + x.length), cap, s.pos, s.loading⟩ :=
    ⟨by dsimp only; rw [hl]; omega, hi.cap, hi.max⟩
  rw [read_plain hi']
  dsimp only
  rw [hl]
  have e1 : min x.length (max s.str.length (s.pos + x.length) - s.pos) = x.length := by omega
  have e2 : ((s.str.take s.pos ++ x ++ s.str.drop (s.pos + x.length)).drop s.pos).take x.length = x := by
    rw [List.append_assoc, List.drop_append]
    simp [Nat.min_eq_left hp]
  rw [e1, e2]

/-- `operator<<` several times: everything is appended in order. -/
theorem c44_appends (xs : List Bytes) (caps : Bytes → Nat) : ∀ {s : Stream}, s.pos = s.str.length →
    ∃ s', xs.foldlM (fun s x => puts s x (caps x)) s = Eff.ret s' ∧ s'.str = s.str ++ xs.flatten ∧ s'.pos = s'.str.length := by
  induction xs with
  | nil => intro s h; exact ⟨s, rfl, by simp, h⟩
  | cons x xs ih =>
    intro s h
    have e : puts s x (caps x) = .ret { s with str := s.str ++ x, cap := caps x, pos := s.pos + x.length } := by
      unfold puts
      rw [replace_ok (by omega), List.take_of_length_le (by omega), List.drop_eq_nil_of_le (by omega), List.append_nil]
      rfl
    obtain ⟨s', e1, e2, e3⟩ := ih (s := { s with str := s.str ++ x, cap := caps x, pos := s.pos + x.length }) (by simp [h])
    refine ⟨s', ?_, ?_, e3⟩
    · rw [List.foldlM_cons, e]
      exact e1
    · rw [e2]; simp

/-- Refutation for all positions: whenever the buffer is larger than the contents, `seek` accepts a position
behind them and the next `puts` throws. -/
theorem c44_refuted_gap {s : Stream} (h : s.str.length < s.cap) (hm : s.cap ≤ maxInt) (x : Bytes) (cap : Nat) :
    (seek s s.cap .set).1 = s.cap ∧ puts (seek s s.cap .set).2 x cap = .exc .outOfRange := by
  unfold maxInt at hm
  have e : seek s s.cap .set = ((s.cap : Int), { s with pos := s.cap }) := by
    unfold seek newpos clampPos
    dsimp only
    rw [if_neg (by omega), if_neg (by omega)]
    congr 2
    unfold two64
    omega
  rw [e]
  refine ⟨rfl, ?_⟩
  unfold puts replace
  dsimp only
  rw [if_pos h]
  rfl

example : Run (ofString [97, 98] 16) ⟨[97, 98], 0⟩ := .start _ _ (by decide) (by decide)
example : puts ⟨[97, 98, 99], 16, 1, false⟩ [120, 121, 122] 16 = .ret ⟨[97, 120, 121, 122], 16, 4, false⟩ := by decide
example : Inside ⟨[97, 98, 99], 16, 1, false⟩ := ⟨by decide, by decide, by decide⟩

end Bdlib.Stm
