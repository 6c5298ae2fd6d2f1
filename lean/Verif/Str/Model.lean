import Verif.Str.Basic
import Verif.Rca.Caps

/-!
# `String` and `Array` functions on contents

Functions of `String.cpp`, `String.h`, `Array.h` and the searches of `ReferenceCountedArray.h`, on the
list of elements an object holds.  That an object holds exactly such a list, and that `+=`, `substring`,
`++`, `--` ... act on it as the list operations used here do, is what the properties C01-C19 establish for
the memory model.

Simplifications common to all of them:
* An element read outside the contents is undefined here, although the buffer may be longer.
* Memory exhaustion is not an outcome, except for absurd sizes computed by the functions themselves
  (`alloc`).  What happens on `bad_alloc` is the subject of C13.
* Iterators are offsets; comparing or advancing an iterator beyond one-past-the-end is integer
  arithmetic.
-/

namespace Bdlib.Str
open Bdlib

abbrev Bytes := List UInt8

/-- The C library and build configuration.
* `memcmp a b`: result of `memcmp` on two arrays of equal length; only its sign is specified.
* `memmem`: is `HAVE_MEMMEM` defined (`String.cpp` 274)?
* `isspace`, `toupper`: the functions of the current locale.  They are called with a plain `char`
  (`String.cpp` 167, 264-266, 294-302), which for bytes from 0x80 on is negative where `char` is signed:
  undefined in ISO C, but defined by the C libraries the code is used with. -/
structure Libc where
  memcmp : Bytes → Bytes → Int
  memmem : Bool
  isspace : UInt8 → Bool
  toupper : UInt8 → UInt8

/-- What the C standard says about `memcmp`: the sign is that of the lexicographic comparison of unsigned
bytes. -/
structure Libc.Ok (L : Libc) : Prop where
  neg : ∀ a b : Bytes, a.length = b.length → (L.memcmp a b < 0 ↔ a < b)
  zero : ∀ a b : Bytes, a.length = b.length → (L.memcmp a b = 0 ↔ a = b)

section generic
variable {α : Type}

/-- `_find(item, pos)` (`ReferenceCountedArray.h` 791-796): `std::find` on `[pos, length)`; the result
counts from `pos`. -/
def findItem_ [DecidableEq α] (v : List α) (x : α) (pos : Nat) : Eff Nat :=
  if v.length < pos then .ub
  else do
    match ← scanUp (fun i => do return decide ((← rd v i) = x)) pos (v.length - pos) with
    | some i => return i - pos
    | none => return npos

/-- `find(item)` (`ReferenceCountedArray.h` 802-804). -/
def findItem [DecidableEq α] (v : List α) (x : α) : Eff Nat := findItem_ v x 0

/-- `validateIndex` (`ReferenceCountedArray.h` 419-422). -/
def validate (v : List α) (i : Nat) : Eff Unit := if i ≥ v.length then .exc .outOfRange else .ret ()

/-- `find(item, pos)` (`ReferenceCountedArray.h` 811-815). -/
def findItemFrom [DecidableEq α] (v : List α) (x : α) (pos : Nat) : Eff Nat := do
  if pos ≠ 0 then validate v (pos - 1) else pure ()
  findItem_ v x pos

/-- `rfind(item)` (`ReferenceCountedArray.h` 821-826). -/
def rfindItem [DecidableEq α] (v : List α) (x : α) : Eff Nat := do
  match ← scanDown (fun i => do return decide ((← rd v i) = x)) 0 v.length with
  | some i => return i
  | none => return npos

/-- `slice(start, len)` on contents (`ReferenceCountedArray.h` 956-980; the memory model's `Rca.slice`
has the same text).  A window that is not inside the contents has no value: undefined. -/
def slice (v : List α) (start len : Int) : Eff (List α) :=
  let n : Int := v.length
  let len := if len = -1 then Rca.toInt32 v.length - start else len
  if start ≥ Rca.toInt32 v.length then .ret []
  else
    let start := if start < 0 then n + start else start
    let start := if start < 0 then 0 else start
    if start + len ≥ 9223372036854775808 ∨ start + len < -9223372036854775808 then .ub
    else
      let len' := if start + len ≥ Rca.toInt32 v.length then n - start
                  else if len < 0 then n - start + len else len
      rdN v start.toNat (len' % (two64 : Int)).toNat

/-- `operator+=(size_t n)` (`String.h` 453-464): drops `n` elements from the front. -/
def plusEq (v : List α) (n : Nat) : List α :=
  if v.length = 0 then v else if n > v.length then [] else v.drop n

/-- `Array::equals(array, n)` (`Array.h` 178-207).  `same`: do both arrays start at the same address? -/
def equalsN (eq : α → α → Bool) (same : Bool) (v w : List α) (n : Nat) : Eff Bool := do
  if same = true ∧ v.length = w.length then return true
  if v.length ≠ w.length then return false
  let len := min v.length (min w.length n)
  match ← scanUp (fun i => do return !(eq (← rd v i) (← rd w i))) 0 len with
  | some _ => return false
  | none => return true

/-- `operator==(const Array&, const Array&)` (`Array.h` 209-212). -/
def arrayEq (eq : α → α → Bool) (same : Bool) (v w : List α) : Eff Bool :=
  if v.length = w.length then equalsN eq same v w w.length else .ret false

end generic

/-! ## Searching -/

/-- `memmem(3)`: offset of the first occurrence of a (non-empty) needle. -/
def memmem (h n : Bytes) : Option Nat := (List.range (h.length + 1)).find? fun i => n.isPrefixOf (h.drop i)

/-- The test in the fallback loops (`String.cpp` 284-286, 312-314):
`str[0] == (*this)[i] && !memcmp(cbegin() + i, str.cbegin(), k)`. -/
def matchAt (L : Libc) (v str : Bytes) (i k : Nat) : Eff Bool := do
  if (← rd str 0) = (← rd v i) then
    let a ← rdN v i k
    let b ← rdN str 0 k
    return decide (L.memcmp a b = 0)
  else return false

/-- `_find(str, pos)` (`String.cpp` 270-290), called with `pos <= length()` only. -/
def find_ (L : Libc) (v str : Bytes) (pos : Nat) : Eff Nat :=
  if str.length = 0 then .ret 0
  else if v.length < pos then .ub
  else
    let mylen := v.length - pos
    if L.memmem then
      match memmem (v.drop pos) str with
      | some i => .ret i
      | none => .ret npos
    else if mylen ≥ str.length then do
      let lastPos := mylen - str.length
      match ← scanUp (fun i => matchAt L v str i (min str.length (mylen - i))) pos (lastPos + 1 - pos) with
      | some i => return i
      | none => return npos
    else .ret npos

/-- `find(str)` (`String.h` 181-183). -/
def find (L : Libc) (v str : Bytes) : Eff Nat := find_ L v str 0

/-- `find(str, pos)` (`String.h` 190-194). -/
def findFrom (L : Libc) (v str : Bytes) (pos : Nat) : Eff Nat := do
  if pos ≠ 0 then validate v (pos - 1) else pure ()
  find_ L v str pos

/-- `rfind(str, lpos)` (`String.cpp` 306-317). -/
def rfind (L : Libc) (v str : Bytes) (lpos : Nat) : Eff Nat :=
  if str.length = 0 then .ret (sub64 v.length 1)
  else if v.length ≥ str.length then do
    let lastPos := v.length - str.length
    match ← scanDown (fun i => matchAt L v str i (min str.length (v.length - i))) lpos (lastPos + 1) with
    | some i => return i
    | none => return npos
  else .ret npos

/-- `ifind(str)` (`String.cpp` 292-297). -/
def ifind (L : Libc) (v str : Bytes) : Eff Nat := find L (v.map L.toupper) (str.map L.toupper)

/-- `rifind(str, lpos)` (`String.cpp` 299-304): `lpos` is not used. -/
def rifind (L : Libc) (v str : Bytes) (_lpos : Nat) : Eff Nat := rfind L (v.map L.toupper) (str.map L.toupper) 0

/-! ## Comparing -/

/-- `compare(str)` (`String.cpp` 42-56).  `same`: do both strings start at the same address?  The
`size_t` difference is converted to `int`. -/
def compare (L : Libc) (same : Bool) (v w : Bytes) : Eff Int := do
  if same = true ∧ v.length = w.length then return 0
  let len := min v.length w.length
  let a ← rdN v 0 len
  let b ← rdN w 0 len
  let diff := L.memcmp a b
  if diff ≠ 0 then return diff
  else return Rca.toInt32 (sub64 v.length w.length)

/-- `compare(str, n)` (`String.cpp` 58-76). -/
def compareN (L : Libc) (same : Bool) (v w : Bytes) (n : Nat) : Eff Int := do
  if n = 0 then return 0
  if same = true ∧ v.length = w.length then return 0
  let slen := min w.length n
  let len := min v.length slen
  let a ← rdN v 0 len
  let b ← rdN w 0 len
  let diff := L.memcmp a b
  if diff ≠ 0 then return diff
  else return Rca.toInt32 (sub64 (min v.length n) slen)

/-- `compare(const char*)` (`String.cpp` 78-85).  `m` is the memory the pointer may be used to read: the
characters and their terminating NUL. -/
def compareC : Bytes → Bytes → Eff Int
  | [], m => do
    let c ← rd m 0
    return 0 - (c.toNat : Int)
  | x :: v, m => do
    let c ← rd m 0
    if x ≠ c then return (x.toNat : Int) - c.toNat
    compareC v (m.drop 1)

/-- The loop of `compare(const char*, n)` (`String.cpp` 91-95), `n > 0`. -/
def compareCLoop : Bytes → Bytes → Nat → Eff Int
  | [], m, _ => do
    let c ← rd m 0
    return 0 - (c.toNat : Int)
  | x :: v, m, n => do
    let c ← rd m 0
    if x ≠ c ∨ n - 1 = 0 then return (x.toNat : Int) - c.toNat
    compareCLoop v (m.drop 1) (n - 1)

/-- `compare(const char*, n)` (`String.cpp` 87-96). -/
def compareCN (v m : Bytes) (n : Nat) : Eff Int := if n = 0 then .ret 0 else compareCLoop v m n

/-- `operator==(String, String)` (`String.h` 543-547). -/
def eqS (L : Libc) (same : Bool) (v w : Bytes) : Eff Bool :=
  if v.length = w.length then do return decide ((← compare L same v w) = 0) else .ret false
/-- `operator<(String, String)` (`String.h` 563-566). -/
def ltS (L : Libc) (same : Bool) (v w : Bytes) : Eff Bool := do return decide ((← compare L same v w) < 0)
/-- `operator<=(String, String)` (`String.h` 573-576). -/
def leS (L : Libc) (same : Bool) (v w : Bytes) : Eff Bool := do return !(← ltS L same w v)
/-- `operator>(String, String)` (`String.h` 583-586). -/
def gtS (L : Libc) (same : Bool) (v w : Bytes) : Eff Bool := ltS L same w v
/-- `operator>=(String, String)` (`String.h` 593-596). -/
def geS (L : Libc) (same : Bool) (v w : Bytes) : Eff Bool := do return !(← ltS L same v w)

/-- `operator==(String, const char*)` (`String.h` 548-551). -/
def eqC (v m : Bytes) : Eff Bool := do return decide ((← compareC v m) = 0)
/-- `operator<(String, const char*)` (`String.h` 568-571). -/
def ltC (v m : Bytes) : Eff Bool := do return decide ((← compareC v m) < 0)
/-- `operator>(String, const char*)` (`String.h` 588-591). -/
def gtC (v m : Bytes) : Eff Bool := do return decide ((← compareC v m) > 0)
/-- `operator>=(String, const char*)` (`String.h` 598-601). -/
def geC (v m : Bytes) : Eff Bool := do return !(← ltC v m)
/-- `operator<=(String, const char*)` (`String.h` 578-581): `!(rhs < lhs)` with the C string converted to
a `String` (its characters up to the NUL). -/
def leC (L : Libc) (v m : Bytes) : Eff Bool := do return !(← ltS L false (m.takeWhile (· ≠ 0)) v)

/-! ## Cutting and building -/

/-- `while (it < cend() && *it == ' ') ++it;` (`String.cpp` 209, 225) -/
def skipSpaces (v : Bytes) (it : Nat) : Nat → Nat
  | 0 => it
  | k + 1 => if v[it]? = some 32 then skipSpaces v (it + 1) k else it

/-- The trimming step of `split` (`String.cpp` 208-209, 224-225). -/
def trimIt (v delim : Bytes) (it : Nat) : Nat := if delim = [32] then skipSpaces v it (v.length - it) else it

/-- The loop of `split` (`String.cpp` 205-220): `fuel` iterations at most. -/
def splitLoop (L : Libc) (v delim : Bytes) (cap : Nat) : Nat → Nat → List Bytes → Eff (Nat × List Bytes)
  | 0, _, _ => .more
  | fuel + 1, it, acc =>
    if ¬ acc.length < cap then .ret (it, acc)
    else
      let it := trimIt v delim it
      if it ≥ v.length then .ret (it, acc)
      else do
        let pos ← find_ L v delim it
        let pos := if pos = npos then v.length - it else pos
        let piece ← slice v it pos
        splitLoop L v delim cap fuel (it + pos + delim.length) (acc ++ [piece])

/-- `split(delim, limit)` (`String.cpp` 192-236).  The reference-count assertions are left out. -/
def split (L : Libc) (fuel : Nat) (v delim : Bytes) (limit : Nat) : Eff (List Bytes) :=
  if v.length = 0 then .ret []
  else if limit = 1 then .ret [v]
  else do
    let (it, acc) ← splitLoop L v delim (sub64 limit 1) fuel 0 []
    if limit ≠ npos then
      let rest ← slice v (trimIt v delim it) (-1)
      return acc ++ [rest]
    else return acc

/-- An allocation of `n` elements: refused if no machine could satisfy it. -/
def alloc (n : Nat) : Eff Unit := if n < Rca.maxCells then .ret () else .exc .badAlloc

/-- Appending `v` to `acc` `k` times (`String.cpp` 240-241). -/
def mulLoop (v : Bytes) : Nat → Bytes → Bytes
  | 0, acc => acc
  | k + 1, acc => mulLoop v k (acc ++ v)

/-- `operator*(times)` (`String.cpp` 238-243).  `length() * times` is computed in `size_t`. -/
def mul (v : Bytes) (times : Int) : Eff Bytes := do
  alloc ((v.length * times) % (two64 : Int)).toNat
  return mulLoop v times.toNat []

/-- `printf` (`String.cpp` 245-254).  `text` is the formatted text; `vsnprintf` stores at most 4095 bytes
of it and a NUL in the 4096-byte buffer, which was zeroed, and returns its length, or -1 if that exceeds
`INT_MAX`; then `len` bytes are copied out of the buffer. -/
def printf (text : Bytes) : Eff Bytes :=
  let buf := text.take 4095 ++ List.replicate (4096 - (text.take 4095).length) 0
  if text.length < 2147483648 then rdN buf 0 text.length else .ub

/-- One step of `chomp`: `if (length() && (*this)[length() - 1] == c) --(*this);` (`String.cpp` 257) -/
def chompOne (v : Bytes) (c : UInt8) : Eff Bytes :=
  if v.length ≠ 0 then do
    if (← rd v (v.length - 1)) = c then return v.take (v.length - 1) else return v
  else .ret v

/-- `chomp` (`String.cpp` 256-260): first `\n`, then `\r`. -/
def chomp (v : Bytes) : Eff Bytes := do
  let v ← chompOne v 10
  chompOne v 13

/-- `while (length() && isspace((*this)[0])) { ++offset; subLength(1); }` (`String.cpp` 264) -/
def ltrim (L : Libc) : Bytes → Bytes
  | [] => []
  | x :: v => if L.isspace x then ltrim L v else x :: v

/-- `while (length() && isspace((*this)[length() - 1])) subLength(1);` (`String.cpp` 266); the second
argument is the current length. -/
def rtrim (L : Libc) (v : Bytes) : Nat → Eff Bytes
  | 0 => .ret []
  | n + 1 => do
    if L.isspace (← rd v n) then rtrim L v n else return v.take (n + 1)

/-- `trim` (`String.cpp` 262-268). -/
def trim (L : Libc) (v : Bytes) : Eff Bytes := rtrim L (ltrim L v) (ltrim L v).length

/-- The loop of `sub` (`String.cpp` 323-328), at most `fuel` iterations: remaining text and result. -/
def subLoop (L : Libc) (search repl : Bytes) (limit : Int) : Nat → Bytes → Bytes → Int → Eff (Bytes × Bytes)
  | 0, _, _, _ => .more
  | fuel + 1, str, new, cnt => do
    let pos ← find L str search
    if pos = npos then return (str, new)
    else
      let p ← slice str 0 pos
      let new := new ++ p ++ repl
      let str := plusEq str (pos + search.length)
      if limit ≠ -1 ∧ cnt + 1 = limit then return (str, new)
      else subLoop L search repl limit fuel str new (if limit ≠ -1 then cnt + 1 else cnt)

/-- `sub(search, replacement, limit)` (`String.cpp` 319-334). -/
def sub (L : Libc) (fuel : Nat) (v search repl : Bytes) (limit : Int) : Eff Bytes := do
  let (str, new) ← subLoop L search repl limit fuel v [] 0
  if str.length ≠ 0 then return new ++ str else return new

/-- `subst(hashes)` (`String.cpp` 336-342); `kvs` lists the map in its iteration order. -/
def subst (L : Libc) (fuel : Nat) : List (Bytes × Bytes) → Bytes → Eff Bytes
  | [], v => .ret v
  | (k, r) :: kvs, v => do
    let v ← sub L fuel v k r (-1)
    subst L fuel kvs v

/-- `while ((str.cbegin() + pos + 1) < str.cend() && str[pos + 1] == ' ') ++pos;` (`String.cpp` 362-363) -/
def skipRun (v : Bytes) (pos : Nat) : Nat → Nat
  | 0 => pos
  | k + 1 => if v[pos + 1]? = some 32 then skipRun v (pos + 1) k else pos

/-- `newsplit(str, delim)` (`String.cpp` 351-369): the token returned and what is left in `str`. -/
def newsplit (v : Bytes) (delim : UInt8) : Eff (Bytes × Bytes) :=
  if v.length = 0 then .ret ([], v)
  else do
    let pos ← findItem v delim
    let pos := if pos = npos then v.length else pos
    let first ← slice v 0 pos
    let pos := if delim = 32 then skipRun v pos (v.length - pos) else pos
    return (first, plusEq v (pos + 1))

/-- Sum of the lengths (`Array.h` 161-162). -/
def totalLength (a : List Bytes) : Nat := (a.map List.length).sum

/-- What `join` appends for one element (`Array.h` 167-173). -/
def joinPiece (quoted : Bool) (x : Bytes) : Bytes := if quoted then [34] ++ x ++ [34] else x

/-- The loop of `join` (`Array.h` 166-174); `first` is `i == 0`. -/
def joinLoop (delim : Bytes) (quoted : Bool) : List Bytes → Bool → Bytes → Bytes
  | [], _, str => str
  | x :: a, first, str => joinLoop delim quoted a false ((if first then str else str ++ delim) ++ joinPiece quoted x)

/-- `join(delim, quoted)` (`Array.h` 153-176). -/
def join (a : List Bytes) (delim : Bytes) (quoted : Bool) : Eff Bytes :=
  if a.length = 0 then .ret []
  else do
    let size := sub64 (a.length * delim.length) 1 + (if quoted then a.length * 2 else 0) + totalLength a
    alloc (size % two64)
    return joinLoop delim quoted a true []

end Bdlib.Str
