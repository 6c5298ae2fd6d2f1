/-!
# Specification: what the operations mean on plain sequences

Nothing here refers to the model of the code.
-/

namespace Bdlib.Spec

variable {T : Type}

/-- The position a slice starts at: a negative start counts from the end and stops at the
beginning. -/
def sliceFrom (n : Nat) (start : Int) : Nat := if start < 0 then n - start.natAbs else start.toNat

/-- What `slice(start, len)` is documented to leave: a negative start counts from the end (stopping
at the beginning), a start behind the end gives nothing, `len = -1` means the rest, any other negative
`len` stops that many elements before the end, and a `len` too long is cut at the end. -/
def sliceSpec (v : List T) (start len : Int) : List T :=
  let rest := v.drop (sliceFrom v.length start)
  if len = -1 then rest
  else if len < 0 then rest.take (rest.length - len.natAbs)
  else rest.take len.toNat

/-- The part of the argument space where `slice` is defined and does what it says (`C08` proves that it is exactly this
part): the length fits an `int`, and the start is behind the end, or the length is -1 (and the distance from the start to
the end fits an `ssize_t`), or nonnegative (and the end fits an `ssize_t`), or a negative length that does not reach
before the start. -/
def SliceOk (n : Nat) (start len : Int) : Prop :=
  n < 2147483648 ∧
    ((n : Int) ≤ start ∨ (len = -1 ∧ n - start < 9223372036854775808) ∨
      (0 ≤ len ∧ sliceFrom n start + len < 9223372036854775808) ∨ (len < -1 ∧ len.natAbs ≤ n - sliceFrom n start))

instance (n : Nat) (start len : Int) : Decidable (SliceOk n start len) := by
  unfold SliceOk; infer_instance

/-- `insert(pos, x, n)`: the first `n` elements of `w` between the first `pos` elements of `v` and the
rest. -/
def insertAt (v : List T) (pos : Nat) (w : List T) : List T := v.take pos ++ w ++ v.drop pos

/-- `replace(pos, x)`: elements of `v` from `pos` on are overwritten by `w`, which may run past the
end of `v`. -/
def replaceAt (v : List T) (pos : Nat) (w : List T) : List T :=
  v.take pos ++ w ++ v.drop (pos + w.length)

/-- DJB's hash over the element hashes, reduced to 31 bits. -/
def djb (hasher : T → Nat) (v : List T) : Nat :=
  v.foldl (fun h x => h * 33 + hasher x) 5381 % 2147483648

end Bdlib.Spec
