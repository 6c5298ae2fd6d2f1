import Verif.Deep.Model

/-!
# Comparing, searching and hashing arrays of objects

These functions of `Array<T>` call the ones of the elements: `eq` is `operator==` of the elements, `hash` their
`std::hash`.
-/

namespace Bdlib.Deep
open Bdlib Bdlib.Spec Bdlib.Rca Bdlib.Str
open Pg (undef)

section
variable (c : Conf) (eq : Nat → Nat → Pg c.elt.Mem Bool) (hash : Nat → Pg c.elt.Mem UInt64)

/-- The loop of `equals` (`Array.h` 202-205); `!=` of the elements is the negation of their `==`. -/
def equalsLoop (a b : Nat) : Nat → Nat → P c Bool
  | _, 0 => return true
  | i, k + 1 => do
    let x ← cell c a i
    let y ← cell c b i
    if ← elts (eq x y) then equalsLoop a b (i + 1) k else return false

/-- `equals(array, n)` (`Array.h` 187-207). -/
def equalsN (a b n : Nat) : P c Bool := do
  let la ← arrs (Rca.length a)
  let lb ← arrs (Rca.length b)
  let same ← arrs (sameStart a b)
  if same = true ∧ la = lb then return true
  else if la ≠ lb then return false
  else equalsLoop c eq a b 0 (min la (min lb n))

/-- `operator==(const Array&, const Array&)` (`Array.h` 178-180, 209-212). -/
def equals (a b : Nat) : P c Bool := do
  let la ← arrs (Rca.length a)
  let lb ← arrs (Rca.length b)
  if la = lb then equalsN c eq a b lb else return false

/-- The loop of `std::find` (`ReferenceCountedArray.h` 792): the first of `k` elements from `i` on that is equal to
the object `h`. -/
def findLoop (a h : Nat) : Nat → Nat → P c (Option Nat)
  | _, 0 => return none
  | i, k + 1 => do
    let t ← cell c a i
    if ← elts (eq t h) then return some i else findLoop a h (i + 1) k

/-- `_find(item, pos)` (`ReferenceCountedArray.h` 791-796): the result counts from `pos`. -/
def find_ (a h pos : Nat) : P c Nat := do
  let n ← arrs (Rca.length a)
  if n < pos then undef
  else
    match ← findLoop c eq a h pos (n - pos) with
    | some i => return i - pos
    | none => return npos

/-- `find(item)` (`ReferenceCountedArray.h` 802-804). -/
def find (a h : Nat) : P c Nat := find_ c eq a h 0

/-- `find(item, pos)` (`ReferenceCountedArray.h` 811-815). -/
def findFrom (a h pos : Nat) : P c Nat := do
  if pos ≠ 0 then arrs (Rca.validateIndex a (pos - 1)) else pure ()
  find_ c eq a h pos

/-- The loop of `rfind` (`ReferenceCountedArray.h` 822-824), with `k` elements left to look at. -/
def rfindLoop (a h : Nat) : Nat → P c Nat
  | 0 => return npos
  | k + 1 => do
    let t ← cell c a k
    if ← elts (eq t h) then return k else rfindLoop a h k

/-- `rfind(item)` (`ReferenceCountedArray.h` 821-826). -/
def rfind (a h : Nat) : P c Nat := do
  let n ← arrs (Rca.length a)
  rfindLoop c eq a h n

/-- The loop of `hash` (`ReferenceCountedArray.h` 785-786). -/
def hashLoop (a : Nat) : Nat → Nat → UInt64 → P c UInt64
  | _, 0, acc => return acc
  | i, k + 1, acc => do
    let t ← cell c a i
    let x ← elts (hash t)
    hashLoop a (i + 1) k (((acc <<< 5) + acc) + x)

/-- `hash` (`ReferenceCountedArray.h` 780-788) -/
def hashArr (a : Nat) : P c UInt64 := do
  let ob ← arrs (getObj a)
  if ob.hash ≠ 0 then return ob.hash
  else
    let x ← hashLoop c hash a 0 ob.sublen 5381
    arrs (putObj a { ob with hash := x &&& 0x7FFFFFFF })
    return x &&& 0x7FFFFFFF

end

/-- `operator==` of the objects of depth `n`: of `String`s (`String.h` 543-547) or of arrays. -/
def eqAt (p : Params) : (n : Nat) → Nat → Nat → Pg (tower p n).Mem Bool
  | 0 => fun a b => .ofM (eqP p.libc a b)
  | n + 1 => fun a b => equals (level p n) (eqAt p n) a b

/-- `std::hash` of the objects of depth `n`: `String::hash` (`String.h` 654-662) or `Array::hash`
(`Array.h` 353-360), which remember their results. -/
def hashAt (p : Params) : (n : Nat) → Nat → Pg (tower p n).Mem UInt64
  | 0 => fun a => .ofM (Rca.hash p.str a)
  | n + 1 => fun a => hashArr (level p n) (hashAt p n) a

/-- A use of the element `a[i]` of a `const` array as a `const` object (`ReferenceCountedArray.h` 834-839, 927-930):
`f` is the code, given the element. -/
def look {α : Type} (c : Conf) (o i : Nat) (f : Nat → Pg c.elt.Mem α) : P c α := do
  let h ← cell c o i
  elts (f h)

end Bdlib.Deep
