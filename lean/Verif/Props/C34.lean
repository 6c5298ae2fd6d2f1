import Verif.Str.Cut

/-!
# C34: `operator*` repeats a string
-/

namespace Bdlib.Str
open Bdlib

theorem mulLoop_eq (v : Bytes) : ∀ k acc, mulLoop v k acc = acc ++ (List.replicate k v).flatten
  | 0, acc => by simp [mulLoop]
  | k + 1, acc => by
    unfold mulLoop
    rw [mulLoop_eq v k]
    simp [List.replicate_succ]

/-- `s * k` is `k` copies of `s`, whenever the result fits in memory. -/
theorem c34_mul (v : Bytes) (k : Nat) (h : v.length * k < Rca.maxCells) :
    mul v k = .ret (List.replicate k v).flatten := by
  unfold mul
  have h64 : v.length * k < two64 := Nat.lt_trans h (by decide)
  have : (((v.length : Int) * (k : Int)) % (two64 : Int)).toNat = v.length * k := by
    have : ((v.length : Int) * (k : Int)) = ((v.length * k : Nat) : Int) := by simp
    rw [this, ← Int.natCast_emod, Nat.mod_eq_of_lt h64]
    rfl
  rw [this]
  unfold alloc
  rw [if_pos h]
  simp [mulLoop_eq]

/-- Zero copies, or copies of the empty string, are the empty string. -/
theorem c34_zero (v : Bytes) : mul v 0 = .ret [] := by simpa using c34_mul v 0 (by simp; decide)
theorem c34_empty (k : Nat) : mul [] k = .ret [] := by simpa using c34_mul [] k (by simp; decide)

/-- A negative count with a non-empty string is refused with `bad_alloc`, as long as the request is not
absurd: the size asked for is the product modulo 2^64. -/
theorem c34_negative (v : Bytes) (k : Nat) (hk : 0 < k) (hv : 0 < v.length) (h : v.length * k ≤ Rca.maxCells) :
    mul v (-k) = .exc .badAlloc := by
  unfold mul
  have hpos : 0 < v.length * k := Nat.mul_pos hv hk
  have e : ((v.length : Int) * (-(k : Int))) = -((v.length * k : Nat) : Int) := by simp [Int.mul_neg]
  have hM : Rca.maxCells = 9223372036854775808 := by decide
  have : (((v.length : Int) * (-(k : Int))) % (two64 : Int)).toNat = two64 - v.length * k := by
    rw [e]
    unfold two64
    omega
  rw [this]
  unfold alloc
  rw [if_neg (by unfold two64; omega)]
  rfl

example : mul [97, 98] 3 = .ret [97, 98, 97, 98, 97, 98] := by decide
example : mul [97, 98] (-1) = .exc .badAlloc := by decide

end Bdlib.Str
