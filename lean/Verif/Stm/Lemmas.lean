import Verif.Stm.Model
import Verif.Spec.Stream

/-!
# Lemmas on `Stream`
-/

namespace Bdlib.Stm
open Bdlib Bdlib.Str Bdlib.Spec

/-- The position is inside the contents, which are inside the buffer and have fewer than 2^31 bytes. -/
structure Inside (s : Stream) : Prop where
  pos : s.pos ≤ s.str.length
  cap : s.str.length ≤ s.cap
  max : s.str.length ≤ maxInt

theorem toSsize_small {n : Nat} (h : n ≤ maxInt) : toSsize n = n := by
  unfold toSsize
  unfold maxInt at h
  rw [if_pos (by omega)]

theorem toInt_small {i : Int} (h0 : 0 ≤ i) (h : i ≤ maxInt) : toInt i = i := by
  unfold toInt
  unfold maxInt at h
  have : (i % (two64 : Int)).toNat = i.toNat := by unfold two64; omega
  rw [this, toInt32_le (by unfold maxInt; omega)]
  omega

theorem toInt_range (i : Int) : -2147483648 ≤ toInt i ∧ toInt i ≤ 2147483647 := by
  unfold toInt Rca.toInt32
  dsimp only
  split <;> omega

theorem sub64_le {a b : Nat} (h : b ≤ a) : sub64 a b = a - b := by unfold sub64; rw [if_pos h]

theorem replace_ok {v w : Bytes} {pos : Nat} (h : pos ≤ v.length) :
    replace v pos w = .ret (v.take pos ++ w ++ v.drop (pos + w.length)) := by
  unfold replace; rw [if_neg (by omega)]

/-- What the delimiter loop returns: the bytes before the delimiter, at most `k`. -/
theorem readLoop_spec (v : Bytes) (delim : UInt8) : ∀ k pos ret, pos + k ≤ v.length →
    readLoop v delim k pos ret =
      .ret (pos + (((v.drop pos).take k).takeWhile (· ≠ delim)).length,
        ret ++ ((v.drop pos).take k).takeWhile (· ≠ delim)) := by
  intro k
  induction k with
  | zero => intro pos ret h; simp [readLoop]
  | succ k ih =>
    intro pos ret h
    unfold readLoop
    rw [rd_lt (by omega)]
    simp only [Eff.ret_bind]
    rw [List.drop_eq_getElem_cons (by omega : pos < v.length), List.take_succ_cons]
    by_cases hc : v[pos] = delim
    · rw [if_neg (by simpa using hc)]
      simp [hc]
    · rw [if_pos hc, ih _ _ (by omega)]
      simp [hc]
      omega

/-- What `read` with a delimiter returns. -/
def upTo (rest : Bytes) (n : Nat) (delim : UInt8) : Bytes :=
  let p := (rest.take n).takeWhile (· ≠ delim)
  if rest[p.length]? = some delim then p ++ [delim] else p

theorem alloc_ok {n : Nat} (h : n ≤ maxInt) : Str.alloc n = .ret () := by
  unfold Str.alloc
  unfold maxInt at h
  rw [if_pos (by unfold Rca.maxCells; omega)]

theorem read_delim {s : Stream} (h : Inside s) (n : Nat) {delim : UInt8} (hd : delim ≠ 0) :
    read s n delim = .ret (upTo (s.str.drop s.pos) n delim,
      { s with pos := s.pos + (upTo (s.str.drop s.pos) n delim).length }) := by
  have hp := h.pos
  have hm := h.max
  unfold read
  rw [sub64_le hp]
  dsimp only
  rw [if_neg hd, alloc_ok (by omega)]
  simp only [Eff.ret_bind]
  rw [readLoop_spec _ _ _ _ _ (by omega)]
  simp only [Eff.ret_bind, List.nil_append]
  have ht : (s.str.drop s.pos).take (min n (s.str.length - s.pos)) = (s.str.drop s.pos).take n := by
    rw [← List.take_take]
    rw [List.take_of_length_le (l := s.str.drop s.pos) (by simp)]
  rw [ht]
  generalize hpp : ((s.str.drop s.pos).take n).takeWhile (· ≠ delim) = p
  have hlen : p.length ≤ s.str.length - s.pos := by
    rw [← hpp]
    refine Nat.le_trans (List.takeWhile_sublist _).length_le ?_
    simp
    omega
  unfold upTo
  rw [hpp]
  dsimp only
  by_cases hlt : s.pos + p.length < s.str.length
  · rw [if_pos hlt, rd_lt hlt]
    simp only [Eff.ret_bind]
    have he : (s.str.drop s.pos)[p.length]? = some s.str[s.pos + p.length] := by
      rw [List.getElem?_drop, List.getElem?_eq_getElem hlt]
    rw [he]
    by_cases hc : s.str[s.pos + p.length] = delim
    · rw [if_pos hc, if_pos (by rw [hc])]
      simp [Nat.add_assoc]
    · rw [if_neg hc, if_neg (by simpa using hc)]
      simp
  · rw [if_neg hlt, if_neg]
    · rfl
    · rw [List.getElem?_eq_none (by simp; omega)]
      simp

theorem read_plain {s : Stream} (h : Inside s) (n : Nat) :
    read s n 0 = .ret ((s.str.drop s.pos).take n, { s with pos := s.pos + min n (s.str.length - s.pos) }) := by
  have hp := h.pos
  have hm := h.max
  unfold read
  rw [sub64_le hp]
  dsimp only
  rw [if_pos rfl, toSsize_small (by omega), toSsize_small (by omega), slice_in hm (by omega)]
  simp only [Eff.ret_bind, Eff.pure_eq]
  have ht : (s.str.drop s.pos).take (min n (s.str.length - s.pos)) = (s.str.drop s.pos).take n := by
    rw [← List.take_take]
    rw [List.take_of_length_le (l := s.str.drop s.pos) (by simp)]
  rw [ht, Nat.mod_eq_of_lt (by unfold maxInt at hm; unfold two64; omega)]

theorem until_all (rest : Bytes) {n : Nat} (hn : rest.length ≤ n) : upTo rest n 10 = firstLine rest := by
  unfold upTo
  rw [List.take_of_length_le hn]
  dsimp only
  clear hn
  induction rest with
  | nil => simp [firstLine]
  | cons c r ih =>
    unfold firstLine
    by_cases hc : c = 10
    · simp [hc]
    · simp only [hc, if_false]
      rw [List.takeWhile_cons_of_pos (by simpa using hc)]
      simp only [List.length_cons, List.getElem?_cons_succ]
      rw [← ih]
      split <;> simp

theorem getline_line {s : Stream} (h : Inside s) :
    getline s none = .ret (firstLine (s.str.drop s.pos),
      { s with pos := s.pos + (firstLine (s.str.drop s.pos)).length }) := by
  unfold getline
  simp only [Option.getD_none, if_true]
  rw [read_delim h _ (by decide), sub64_le h.pos, until_all _ (by simp)]

theorem firstLine_le (v : Bytes) : (firstLine v).length ≤ v.length := by
  induction v with
  | nil => simp [firstLine]
  | cons c r ih =>
    unfold firstLine
    split
    · simp
    · simp; omega

end Bdlib.Stm
