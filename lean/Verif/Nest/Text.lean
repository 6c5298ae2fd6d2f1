import Verif.Nest.Model
import Verif.Prog.Model

/-!
# Model of the functions between `String` and `Array<String>`

`split` makes an array of strings out of a string, `join` a string out of an array; the searching, comparing and
hashing functions of `Array<String>` call those of its elements.
-/

namespace Bdlib.Nest
open Bdlib Bdlib.Spec Bdlib.Rca Bdlib.Str
open P (strs arrs undef)

variable {α : Type}

/-- A local `String`: destroyed at the end of the scope or when an exception leaves it. -/
def withString (c : Conf) (mk : P Nat) (body : Nat → P α) : P α := do
  let t ← mk
  let a ← (body t).onThrow (delete c t)
  delete c t
  return a

/-- A local `Array<String>` that is returned: destroyed only if an exception leaves its scope. -/
def buildArray (c : Conf) (body : Nat → P Unit) : P Nat := do
  let a ← arrs Rca.ctor
  (body a).onThrow (destroy c a)
  return a

/-- `array << (*this)(start, len)` (`String.cpp` 217, 228): the slice is a temporary `const String`, so the
overload for `const` references is chosen. -/
def putPiece (c : Conf) (o a : Nat) (start len : Int) : P Unit :=
  withString c (strs (Rca.substring o start len)) fun t => append c a t

/-- The loop of `split` (`String.cpp` 207-221), after `it` has been moved over spaces if the delimiter is a space;
returns `it`. -/
def splitLoop (c : Conf) (L : Libc) (o delim a cap : Nat) : Nat → Nat → P Nat
  | 0, _ => undef
  | fuel + 1, it => do
    let n ← arrs (Rca.length a)
    if ¬ n < cap then return it
    else do
      let v ← strs (contents o)
      let d ← strs (contents delim)
      let it := trimIt v d it
      if it ≥ v.length then return it
      else do
        let pos ← strs (liftE (find_ L v d it))
        let pos := if pos = npos then v.length - it else pos
        putPiece c o a it pos
        splitLoop c L o delim a cap fuel (it + pos + d.length)

/-- "Add on extra" (`String.cpp` 223-230). -/
def splitRest (c : Conf) (o delim a limit it : Nat) : P Unit := do
  if limit ≠ npos then do
    let v ← strs (contents o)
    let d ← strs (contents delim)
    putPiece c o a (trimIt v d it) (-1)
  else return ()

/-- `split(delim, limit)` (`String.cpp` 192-238).  The assertions are in `Debug.lean`.  For `limit == 1` the
initializer list holds a copy of the string. -/
def split (c : Conf) (L : Libc) (fuel o delim limit : Nat) : P Nat := do
  let n ← strs (Rca.length o)
  if n = 0 then arrs Rca.ctor
  else if limit = 1 then withString c (newCopy o) fun t => listCtor c [t]
  else withString c (strs (charCtor c.str 0 32)) fun _ =>
    buildArray c fun a => do
      let it ← splitLoop c L o delim a (sub64 limit 1) fuel 0
      splitRest c o delim a limit it

/-- The strings in the `k` cells from `Buf(i)` on. -/
def cells (o : Nat) : Nat → Nat → P (List Nat)
  | _, 0 => return []
  | i, k + 1 => do
    let h ← cell o i
    let hs ← cells o (i + 1) k
    return h :: hs

/-- `join(delim, quoted)` (`Array.h` 153-176): the elements stay where they are, so they are found once. -/
def join (c : Conf) (a delim : Nat) (quoted : Bool) : P Nat := do
  let n ← arrs (Rca.length a)
  let hs ← cells a 0 n
  strs (joinP c.str hs delim quoted)

/-- `operator>>(array, item)` (`Array.h` 144-148): `item = std::move(array.pop())`; the string that `pop` returns is
a temporary. -/
def popTo (c : Conf) (a h : Nat) : P Unit := do
  let t ← pop c a
  strs (Rca.moveAssign c.str h t)
  delete c t

/-- The loop of `std::find` (`ReferenceCountedArray.h` 792): the first of `k` elements from `i` on that is equal to
the string `h`. -/
def findLoop (L : Libc) (a h : Nat) : Nat → Nat → P (Option Nat)
  | _, 0 => return none
  | i, k + 1 => do
    let t ← cell a i
    if ← strs (eqP L t h) then return some i else findLoop L a h (i + 1) k

/-- `_find(item, pos)` (`ReferenceCountedArray.h` 791-796): the result counts from `pos`. -/
def find_ (L : Libc) (a h pos : Nat) : P Nat := do
  let n ← arrs (Rca.length a)
  if n < pos then undef
  else
    match ← findLoop L a h pos (n - pos) with
    | some i => return i - pos
    | none => return npos

/-- `find(item)` (`ReferenceCountedArray.h` 802-804). -/
def find (L : Libc) (a h : Nat) : P Nat := find_ L a h 0

/-- `find(item, pos)` (`ReferenceCountedArray.h` 811-815). -/
def findFrom (L : Libc) (a h pos : Nat) : P Nat := do
  if pos ≠ 0 then arrs (Rca.validateIndex a (pos - 1)) else pure ()
  find_ L a h pos

/-- The loop of `rfind` (`ReferenceCountedArray.h` 822-824), with `k` elements left to look at. -/
def rfindLoop (L : Libc) (a h : Nat) : Nat → P Nat
  | 0 => return npos
  | k + 1 => do
    let t ← cell a k
    if ← strs (eqP L t h) then return k else rfindLoop L a h k

/-- `rfind(item)` (`ReferenceCountedArray.h` 821-826). -/
def rfind (L : Libc) (a h : Nat) : P Nat := do
  let n ← arrs (Rca.length a)
  rfindLoop L a h n

/-- The loop of `equals` (`Array.h` 202-205). -/
def equalsLoop (L : Libc) (a b : Nat) : Nat → Nat → P Bool
  | _, 0 => return true
  | i, k + 1 => do
    let x ← cell a i
    let y ← cell b i
    if ← strs (eqP L x y) then equalsLoop L a b (i + 1) k else return false

/-- `equals(array, n)` (`Array.h` 187-207). -/
def equalsN (L : Libc) (a b n : Nat) : P Bool := do
  let la ← arrs (Rca.length a)
  let lb ← arrs (Rca.length b)
  let same ← arrs (sameStart a b)
  if same = true ∧ la = lb then return true
  else if la ≠ lb then return false
  else equalsLoop L a b 0 (min la (min lb n))

/-- `operator==(const Array&, const Array&)` (`Array.h` 178-180, 209-212). -/
def eq (L : Libc) (a b : Nat) : P Bool := do
  let la ← arrs (Rca.length a)
  let lb ← arrs (Rca.length b)
  if la = lb then equalsN L a b lb else return false

/-- `operator!=` (`Array.h` 213-216). -/
def ne (L : Libc) (a b : Nat) : P Bool := do
  let r ← eq L a b
  return !r

/-- The loop of `hash` (`ReferenceCountedArray.h` 785-786); `std::hash<String>` is `String::hash`
(`String.h` 654-662), which remembers its result. -/
def hashLoop (c : Conf) (a : Nat) : Nat → Nat → UInt64 → P UInt64
  | _, 0, acc => return acc
  | i, k + 1, acc => do
    let t ← cell a i
    let x ← strs (Rca.hash c.str t)
    hashLoop c a (i + 1) k (((acc <<< 5) + acc) + x)

/-- `hash` (`ReferenceCountedArray.h` 780-788) -/
def hash (c : Conf) (a : Nat) : P UInt64 := do
  let ob ← arrs (getObj a)
  if ob.hash ≠ 0 then return ob.hash
  else
    let x ← hashLoop c a 0 ob.sublen 5381
    arrs (putObj a { ob with hash := x &&& 0x7FFFFFFF })
    return x &&& 0x7FFFFFFF

end Bdlib.Nest
