import Verif.Machine.Basic

/-!
# Model of `ReferenceCountedArray`, and of the parts of `String` and `Array` that touch
its members

Every definition is a program of the memory machine and cites the C++ it models.
`size_t` sums are taken in `Nat`: lengths never exceed a capacity that was really
allocated, hence stay below `2^63` elements, so no sum of two of them wraps.
Differences, which do wrap in the code, use `sub64`.  The allocator object (`alloc`
member) is not modelled: `std::allocator` is stateless.
-/

namespace Bdlib.Rca
open Bdlib

variable {T : Type}

/-- Run-time type inside the base class constructors: virtual calls made there resolve to
`ReferenceCountedArray::reserve`, not to the `String` override. -/
def _root_.Bdlib.Cfg.base (cfg : Cfg T) : Cfg T := { cfg with nul := none, slack := 0 }

/-- Freshly allocated cells `[i, n)` of buffer `g`. -/
def junkFrom (cfg : Cfg T) (g i n : Nat) : List T :=
  (List.range (n - i)).map (fun k => cfg.junk g (i + k))

/-- `FreeBuf` (`ReferenceCountedArray.h` 126-133), called by `~ArrayRef` (68-70) and on growth:
the buffer goes back to the allocator with its current contents. -/
def freeBuf (cells : List T) : M T Unit := fun s => .ok () { s with freed := cells :: s.freed }

/-- `ArrayRef::reserve` (`ReferenceCountedArray.h` 76-118) on block `a`; returns the new
`offset` (a reference parameter in the code).  `scale` is `fun n => size_t(n * scaling_factor)`. -/
def arefReserve (cfg : Cfg T) (a newSize : Nat) (scale : Nat → Nat) (offset sublen : Nat) :
    M T Nat := do
  let b ← getBlk a
  let size := b.cells.length
  if size < newSize then
    let newSize := max (scale size) newSize
    let g ← alloc cfg newSize
    if size = 0 then
      -- `buf == nullptr`: nothing to move
      putBlk a { b with gen := g, cells := junkFrom cfg g 0 newSize }
      return 0
    else if offset + sublen ≤ size then
      freeBuf (window b.cells 0 offset ++ (window b.cells offset sublen).map cfg.moved
        ++ b.cells.drop (offset + sublen))
      putBlk a { b with gen := g, cells := window b.cells offset sublen ++ junkFrom cfg g sublen newSize }
      return 0
    else M.undef
  else if sub64 size offset < newSize then
    -- shift to the beginning: `std::move(buf + offset, buf + offset + sublen, buf)`
    if offset + sublen ≤ size then
      let w := window b.cells offset sublen
      let src := overwrite b.cells offset (w.map cfg.moved)
      putBlk a { b with cells := overwrite src 0 w }
      return 0
    else M.undef
  else return offset

/-- `new ArrayRef` (`ReferenceCountedArray.h` 61-62, 609): refs = 1, no buffer. -/
def newRef (cfg : Cfg T) : M T Nat := do
  let _ ← alloc cfg 1
  fun s => .ok s.heap.length { s with heap := s.heap ++ [some { gen := 0, cells := [], refs := 1 }] }

/-- `ReferenceCountedArray::reserve` (`ReferenceCountedArray.h` 606-612). -/
def rcaReserve (cfg : Cfg T) (o newSize : Nat) (scale : Nat → Nat) : M T Unit := do
  let ob ← getObj o
  let a ← match ob.ref with
    | some a => pure a
    | none => do
        let a ← newRef cfg
        putObj o { ob with ref := some a }
        pure a
  let off ← arefReserve cfg a newSize scale ob.offset ob.sublen
  let ob ← getObj o
  putObj o { ob with offset := off }

/-- `String::reserve` (`String.h` 137-144): one more cell, then a NUL in the last cell of the
buffer.  `constBuf() != nullptr` fails only for a null buffer with `offset == 0`. -/
def strReserve (cfg : Cfg T) (nul : T) (o newSize : Nat) (scale : Nat → Nat) : M T Unit := do
  let realSize := if newSize > 0 then newSize + 1 else newSize
  rcaReserve cfg o realSize scale
  let ob ← getObj o
  match ob.ref with
  | none => M.undef
  | some a =>
    let b ← getBlk a
    if b.cells.length = 0 then
      if ob.offset = 0 then return () else M.undef
    else putBlk a { b with cells := overwrite b.cells (b.cells.length - 1) [nul] }

/-- The virtual call `reserve(newSize, scaling_factor)`. -/
def reserve (cfg : Cfg T) (o newSize : Nat) (scale : Nat → Nat) : M T Unit :=
  match cfg.nul with
  | some c => strReserve cfg c o newSize scale
  | none => rcaReserve cfg o newSize scale

/-- The public call `reserve(n)`: `scaling_factor = 1` (`ReferenceCountedArray.h` 606-607).  In
`String::reserve` (`String.h` 139) `newSize + 1` wraps to 0 for `n == npos`, which then is the same as
`reserve(0)`.  The other calls of `reserve` pass sums of lengths of existing sequences, which do not
reach `npos`; there the addition is not wrapped. -/
def reservePub (cfg : Cfg T) (o n : Nat) : M T Unit :=
  reserve cfg o (if cfg.nul.isSome ∧ n = npos then 0 else n) id

/-- `isShared` (`ReferenceCountedArray.h` 138-140, 596-598). -/
def isShared (o : Nat) : M T Bool := do
  let ob ← getObj o
  match ob.ref with
  | none => return false
  | some a => let b ← getBlk a; return decide (b.refs > 1)

/-- `rcount` (`ReferenceCountedArray.h` 588). -/
def rcount (o : Nat) : M T Int := do
  let ob ← getObj o
  match ob.ref with
  | none => return 0
  | some a => let b ← getBlk a; return b.refs

/-- `capacity` (`ReferenceCountedArray.h` 623-625). -/
def capacity (o : Nat) : M T Nat := do
  let ob ← getObj o
  match ob.ref with
  | none => return 0
  | some a => let b ← getBlk a; return b.cells.length

/-- `length`/`size` (`ReferenceCountedArray.h` 667-675). -/
def length (o : Nat) : M T Nat := do
  let ob ← getObj o
  return ob.sublen

/-- `incRef` (`ReferenceCountedArray.h` 269). -/
def incRef (r : Option Nat) : M T Unit :=
  match r with
  | none => return ()
  | some a => do let b ← getBlk a; putBlk a { b with refs := b.refs + 1 }

/-- `decRef` (`ReferenceCountedArray.h` 274). -/
def decRef (r : Option Nat) : M T Unit :=
  match r with
  | none => return ()
  | some a => do let b ← getBlk a; putBlk a { b with refs := b.refs - 1 }

/-- `doDetach` (`ReferenceCountedArray.h` 259-265). -/
def doDetach (o : Nat) : M T Unit := do
  let ob ← getObj o
  decRef ob.ref
  putObj o {}

/-- `Detach`, and `clear` which only calls it (`ReferenceCountedArray.h` 346-354, 617). -/
def clear (o : Nat) : M T Unit := do
  if ← isShared o then doDetach o
  else
    let ob ← getObj o
    putObj o { ob with offset := 0, sublen := 0, hash := 0 }

/-- `CheckDeallocRef` (`ReferenceCountedArray.h` 363-368). -/
def checkDeallocRef (o : Nat) : M T Unit := do
  let ob ← getObj o
  match ob.ref with
  | none => return ()
  | some a =>
    decRef (some a)
    let b ← getBlk a
    if b.refs < 1 then
      freeBuf b.cells
      fun s => .ok () (s.setBlk a none)
      putObj o { ob with ref := none }
    else return ()

/-- `COW` (`ReferenceCountedArray.h` 383-392).  The old buffer is read after the reference to
it was given up. -/
def cow (cfg : Cfg T) (o n : Nat) : M T Unit := do
  let ob ← getObj o
  doDetach o
  reserve cfg o n cfg.scale
  let len := min ob.sublen n
  let ob' ← getObj o
  putObj o { ob' with sublen := len }
  if len = 0 then return ()
  match ob.ref with
  | none => M.undef
  | some a =>
    let b ← getBlk a
    if ob.offset + len ≤ b.cells.length then
      writeRange o 0 (window b.cells ob.offset len)
    else M.undef

/-- `AboutToModify` (`ReferenceCountedArray.h` 405-413). -/
def aboutToModify (cfg : Cfg T) (o n : Nat) : M T Unit := do
  let ob ← getObj o
  putObj o { ob with hash := 0 }
  if ← isShared o then cow cfg o n else reserve cfg o n cfg.scale

/-- `AboutToModify(n)` with a size chosen by the user (`ReferenceCountedArray.h` 405-413 called from
631-660).  For a `String` and `n == npos` the addition in `String::reserve` (`String.h` 139) wraps, so
nothing is reserved: the second branch is `AboutToModify(npos)` with `reserve(0)` for `reserve(npos)`. -/
def growTo (cfg : Cfg T) (o n : Nat) : M T Unit :=
  if ¬ (cfg.nul.isSome ∧ n = npos) then aboutToModify cfg o n
  else do
    let ob ← getObj o
    putObj o { ob with hash := 0 }
    if ← isShared o then
      doDetach o
      reserve cfg o 0 cfg.scale
      let ob' ← getObj o
      putObj o { ob' with sublen := ob.sublen }
      if ob.sublen = 0 then pure ()
      else match ob.ref with
        | none => M.undef
        | some a =>
          let b ← getBlk a
          if ob.offset + ob.sublen ≤ b.cells.length then writeRange o 0 (window b.cells ob.offset ob.sublen)
          else M.undef
    else reserve cfg o 0 cfg.scale

/-- `getOwnCopy` (`ReferenceCountedArray.h` 399), the effect of `begin()`, `mdata()`, `end()`,
`rbegin()`, `rend()` and `Cref::mget()` (707-774, 893-896). -/
def getOwnCopy (cfg : Cfg T) (o : Nat) : M T Unit := do
  let n ← length o
  aboutToModify cfg o n

/-- `validateIndex` (`ReferenceCountedArray.h` 419-422). -/
def validateIndex (o pos : Nat) : M T Unit := do
  let n ← length o
  if pos ≥ n then M.raise .outOfRange else return ()

/-- `if (pos != 0) validateIndex(pos - 1)`: the position check of find/insert/replace. -/
def validatePos (o pos : Nat) : M T Unit :=
  if pos ≠ 0 then validateIndex o (pos - 1) else return ()

/-! ## Construction and destruction -/

/-- A new object with the given members comes to life. -/
def newObj (ob : Obj) : M T Nat := fun s =>
  .ok s.objs.length { s with objs := s.objs ++ [some ob] }

/-- Default constructor (`ReferenceCountedArray.h` 431-433, `String.h` 88, `Array.h` 61). -/
def ctor : M T Nat := newObj {}

/-- `String::cleanse` (`String.h` 71-84), called by `~String` when `rcount() == 1`
(`String.h` 148-153). -/
def cleanse (cfg : Cfg T) (o : Nat) : M T Unit := do
  let ob ← getObj o
  match ob.ref with
  | none => return ()
  | some a =>
    let b ← getBlk a
    if b.refs = 1 then
      putBlk a { b with cells := (List.range b.cells.length).map (cfg.wipe b.gen) }
    else return ()

/-- Body of `~String` (`String.h` 148-153); `~Array` has none. -/
def dtorBody (cfg : Cfg T) (o : Nat) : M T Unit :=
  if cfg.nul.isSome then cleanse cfg o else pure ()

/-- The storage of object `o` ceases to exist. -/
def dropObj (o : Nat) : M T Unit := fun s => .ok () (s.setObj o none)

/-- Destructor: `~String` (`String.h` 148-153) wipes the last reference's buffer, then
`~ReferenceCountedArray` (`ReferenceCountedArray.h` 429). -/
def destroy (cfg : Cfg T) (o : Nat) : M T Unit := do
  dtorBody cfg o
  checkDeallocRef o
  dropObj o

/-- Copy constructor (`ReferenceCountedArray.h` 434-440). -/
def copyCtor (r : Nat) : M T Nat := do
  let rb ← getObj r
  let o ← newObj rb
  incRef rb.ref
  return o

/-- What a move leaves in the source (`ReferenceCountedArray.h` 445-450, 551-557): `Ref` is
nulled; the other members are reset only if `CPPUNIT_VERSION` is defined. -/
def movedFrom (cfg : Cfg T) (rb : Obj) : Obj :=
  if cfg.resetMoved then {} else { rb with ref := none }

/-- Move constructor (`ReferenceCountedArray.h` 441-451). -/
def moveCtor (cfg : Cfg T) (r : Nat) : M T Nat := do
  let rb ← getObj r
  let o ← newObj rb
  putObj r (movedFrom cfg rb)
  return o

/-- Copy assignment (`ReferenceCountedArray.h` 527-536). -/
def copyAssign (o r : Nat) : M T Unit := do
  let rb ← getObj r
  incRef rb.ref
  let ob ← getObj o
  putObj o { ob with offset := rb.offset, sublen := rb.sublen, hash := rb.hash }
  checkDeallocRef o
  let rb' ← getObj r
  let ob' ← getObj o
  putObj o { ob' with ref := rb'.ref }

/-- Move assignment (`ReferenceCountedArray.h` 542-560). -/
def moveAssign (cfg : Cfg T) (o r : Nat) : M T Unit := do
  if o = r then return ()
  else
    checkDeallocRef o
    let rb ← getObj r
    putObj o rb
    putObj r (movedFrom cfg rb)

/-- `swap` (`ReferenceCountedArray.h` 508-516). -/
def swap (o r : Nat) : M T Unit := do
  let ob ← getObj o
  let rb ← getObj r
  putObj o rb
  putObj r ob

/-! ## Length changes -/

/-- `setLength` (`ReferenceCountedArray.h` 281). -/
def setLength (o n : Nat) : M T Unit := do
  let ob ← getObj o
  putObj o { ob with sublen := n, hash := 0 }

/-- `resize(len)` (`ReferenceCountedArray.h` 631-638). -/
def resize (cfg : Cfg T) (o len : Nat) : M T Unit := do
  let n ← length o
  if len < n then setLength o len
  else
    growTo cfg o len
    let ob ← getObj o
    putObj o { ob with sublen := len }

/-- `resize(len, value)` (`ReferenceCountedArray.h` 645-660); `length()` in the fill is the length
before `sublen` is updated. -/
def resizeFill (cfg : Cfg T) (o len : Nat) (v : T) : M T Unit := do
  let n ← length o
  if len < n then setLength o len
  else
    growTo cfg o len
    let ob ← getObj o
    writeRange o ob.sublen (List.replicate (len - ob.sublen) v)
    let ob ← getObj o
    putObj o { ob with sublen := len }

/-! ## More constructors

The delegated-to constructor has completed when the body runs, so an exception in the body
runs the destructor of what exists so far. -/

/-- Size constructor (`ReferenceCountedArray.h` 462-468). -/
def sizeCtor (cfg : Cfg T) (n : Nat) : M T Nat := do
  let o ← newObj {}
  (if n ≠ 0 then reservePub cfg.base o n else pure ()).onThrow (destroy cfg.base o)
  return o

/-- Fill constructor (`ReferenceCountedArray.h` 477-481). -/
def fillCtor (cfg : Cfg T) (n : Nat) (v : T) : M T Nat := do
  let o ← newObj {}
  (resizeFill cfg.base o n v).onThrow (destroy cfg.base o)
  return o

/-- Constructor from an initializer list or from (pointer, length)
(`ReferenceCountedArray.h` 487-490, 500-503). -/
def listCtor (cfg : Cfg T) (xs : List T) : M T Nat := do
  let o ← sizeCtor cfg xs.length
  (do writeRange o 0 xs
      let ob ← getObj o
      putObj o { ob with sublen := xs.length }).onThrow (destroy cfg.base o)
  return o

/-- `String(const char*, size_t)` (`String.h` 117-122) and `String(const std::string&)` (92). -/
def strCtor (cfg : Cfg T) (nul : T) (xs : List T) : M T Nat := do
  let o ← sizeCtor cfg (xs.length + 1)
  writeRange o 0 xs
  writeRange o xs.length [nul]
  let ob ← getObj o
  putObj o { ob with sublen := xs.length }
  return o

/-- `String(const char*)` (`String.h` 100-107) on a C string with bytes `xs` (no NUL among them,
terminated). -/
def cstrCtor (cfg : Cfg T) (nul : T) (xs : List T) : M T Nat := do
  let o ← newObj {}
  if xs.isEmpty then return o
  else
    let ob ← getObj o
    putObj o { ob with sublen := xs.length }
    (rcaReserve cfg o (xs.length + 1) id).onThrow (destroy cfg o)
    writeRange o 0 (xs ++ [nul])
    return o

/-- `String(char)` (`String.h` 131-135). -/
def charCtor (cfg : Cfg T) (nul c : T) : M T Nat := do
  let o ← newObj {}
  (rcaReserve cfg o 2 id).onThrow (destroy cfg o)
  writeRange o 0 [c]
  let ob ← getObj o
  putObj o { ob with sublen := ob.sublen + 1 }
  writeRange o 1 [nul]
  return o

/-- `operator=(initializer_list)` (`ReferenceCountedArray.h` 577-583). -/
def assignList (cfg : Cfg T) (o : Nat) (xs : List T) : M T Unit := do
  clear o
  reserve cfg o xs.length id
  writeRange o 0 xs
  let ob ← getObj o
  putObj o { ob with sublen := xs.length }

/-- `String::operator=(std::string)` (`String.h` 164-171). -/
def assignStd (cfg : Cfg T) (nul : T) (o : Nat) (xs : List T) : M T Unit := do
  clear o
  rcaReserve cfg o (xs.length + 1) id
  let ob ← getObj o
  putObj o { ob with sublen := xs.length }
  writeRange o 0 (xs ++ [nul])

/-- `String::operator=(const char*)` (`String.h` 159-162): a temporary is move-assigned and
destroyed. -/
def assignCstr (cfg : Cfg T) (nul : T) (o : Nat) (xs : List T) : M T Unit := do
  let t ← strCtor cfg nul xs
  moveAssign cfg o t
  destroy cfg t

/-! ## Element access -/

/-- `read`/`operator[] const`/`front`/`back` as a read (`ReferenceCountedArray.h` 834-839, 927-930). -/
def read (o i : Nat) : M T (Option T) := do
  let xs ← readRange o i 1
  return xs.head?

/-- `at` (`ReferenceCountedArray.h` 946-949). -/
def at' (o i : Nat) : M T (Option T) := do
  validateIndex o i
  read o i

/-- `write`, `Cref::operator=` (`ReferenceCountedArray.h` 844-851, 908-915). -/
def write (cfg : Cfg T) (o i : Nat) (v : T) : M T Unit := do
  getOwnCopy cfg o
  writeRange o i [v]

/-- Writing through the reference returned by non-const `read(i)`, `front()`, `back()`
(`ReferenceCountedArray.h` 834-836, 994-1006): no detach, no hash reset. -/
def writeThrough (o i : Nat) (v : T) : M T Unit := writeRange o i [v]

/-- DJB hash loop (`ReferenceCountedArray.h` 783-787). -/
def hashLoop (h : T → UInt64) (acc : UInt64) : List T → UInt64
  | [] => acc
  | x :: xs => hashLoop h (((acc <<< 5) + acc) + h x) xs

/-- `hash` (`ReferenceCountedArray.h` 780-788). -/
def hash (cfg : Cfg T) (o : Nat) : M T UInt64 := do
  let ob ← getObj o
  if ob.hash ≠ 0 then return ob.hash
  else
    let xs ← readRange o 0 ob.sublen
    let h := hashLoop cfg.hasher 5381 xs &&& 0x7FFFFFFF
    putObj o { ob with hash := h }
    return h

/-! ## Slicing -/

/-- `static_cast<signed>(n)` of a `size_t`: the low 32 bits as two's complement. -/
def toInt32 (n : Nat) : Int :=
  let m := n % 4294967296
  if m < 2147483648 then (m : Int) else (m : Int) - 4294967296

/-- `slice(start, len)` (`ReferenceCountedArray.h` 956-980).  `ssize_t` overflow in
`start + len` is undefined. -/
def slice (o : Nat) (start len : Int) : M T Unit := do
  let ob ← getObj o
  let n : Int := ob.sublen
  let len := if len = -1 then toInt32 ob.sublen - start else len
  if start ≥ toInt32 ob.sublen then
    putObj o { ob with offset := ob.sublen, sublen := 0, hash := 0 }
  else
    let start := if start < 0 then n + start else start
    let start := if start < 0 then 0 else start
    if start + len ≥ 9223372036854775808 ∨ start + len < -9223372036854775808 then M.undef
    else
      let len' := if start + len ≥ toInt32 ob.sublen then n - start
                  else if len < 0 then n - start + len else len
      putObj o { ob with offset := ob.offset + start.toNat,
                         sublen := (len' % (two64 : Int)).toNat, hash := 0 }

/-- `substring`/`subarray`/`Slice::operator T` (`String.h` 323-327, `Array.h` 222-226,
`ReferenceCountedArray.h` 173-177): copy, then slice the copy. -/
def substring (r : Nat) (start len : Int) : M T Nat := do
  let o ← copyCtor r
  slice o start len
  return o

/-! ## Insertion -/

/-- `std::move_backward(constBuf(pos), constBuf(length()), Buf(length() + k))`
(`ReferenceCountedArray.h` 1079, 1104, 1134, 1159, 1180, 1200): elements `[pos, len)` go up by `k`.  The source
iterators are pointers to `const`, so the elements are copied, not moved: the cells they leave keep their
contents. -/
def shiftRight (o pos k : Nat) : M T Unit := do
  let ob ← getObj o
  let xs ← readRange o pos (ob.sublen - pos)
  writeRange o (pos + k) xs

/-- `std::copy(rca.cbegin(), rca.cbegin() + n, Buf(pos))`.  `std::copy` is undefined if the
destination starts inside the source range; starting exactly at it is taken as harmless. -/
def copyRange (r n o pos : Nat) : M T Unit := do
  let rb ← getObj r
  let ob ← getObj o
  if rb.ref = ob.ref ∧ rb.offset < ob.offset + pos ∧ ob.offset + pos < rb.offset + n then M.undef
  else
    let xs ← readRange r 0 n
    writeRange o pos xs

/-- `sublen += k` (also `++sublen`). -/
def bumpLength (o k : Nat) : M T Unit := do
  let ob ← getObj o
  putObj o { ob with sublen := ob.sublen + k }

/-- `insert(pos, item)` (`ReferenceCountedArray.h` 1173-1203) with an item outside the buffer. -/
def insertItem (cfg : Cfg T) (o pos : Nat) (v : T) : M T Unit := do
  validatePos o pos
  let n ← length o
  aboutToModify cfg o (n + 1)
  shiftRight o pos 1
  writeRange o pos [v]
  bumpLength o 1

/-- `append(item)`, `push_back`, `operator+=(char)`, `Array::operator<<`
(`ReferenceCountedArray.h` 989-992, `String.h` 428-431, `Array.h` 92-101). -/
def append (cfg : Cfg T) (o : Nat) (v : T) : M T Unit := do
  let n ← length o
  insertItem cfg o n v

/-- The common tail of the array inserts (`ReferenceCountedArray.h` 1075-1081, 1102-1106). -/
def insertBody (cfg : Cfg T) (o pos r slen : Nat) : M T Unit := do
  let n ← length o
  aboutToModify cfg o (n + slen)
  shiftRight o pos slen
  copyRange r slen o pos
  bumpLength o slen

/-- `insert(pos, const rca&, n)` (`ReferenceCountedArray.h` 1061-1082). -/
def insertRcaN (cfg : Cfg T) (o pos r n : Nat) : M T Unit := do
  if n = 0 then return ()
  else
    validatePos o pos
    let slen ← length r
    let len ← length o
    if pos = 0 ∧ slen > len ∧ n = slen then copyAssign o r
    else insertBody cfg o pos r (min n slen)

/-- `insert(pos, const rca&)` (`ReferenceCountedArray.h` 1090-1107). -/
def insertRca (cfg : Cfg T) (o pos r : Nat) : M T Unit := do
  validatePos o pos
  let slen ← length r
  let len ← length o
  if pos = 0 ∧ slen > len then copyAssign o r
  else insertBody cfg o pos r slen

/-- `insert(pos, rca&&, n)` (`ReferenceCountedArray.h` 1116-1137).  `std::move` over const
iterators copies. -/
def insertMoveN (cfg : Cfg T) (o pos r n : Nat) : M T Unit := do
  if n = 0 then return ()
  else
    validatePos o pos
    let slen ← length r
    let len ← length o
    if pos = 0 ∧ slen > len ∧ n = slen then moveAssign cfg o r
    else insertBody cfg o pos r (min n slen)

/-- `insert(pos, rca&&)` (`ReferenceCountedArray.h` 1145-1162). -/
def insertMove (cfg : Cfg T) (o pos r : Nat) : M T Unit := do
  validatePos o pos
  let slen ← length r
  let len ← length o
  if pos = 0 ∧ slen > len then moveAssign cfg o r
  else insertBody cfg o pos r slen

/-- `append(const rca&, n = npos)` (`ReferenceCountedArray.h` 1022-1024), also `operator+=`. -/
def appendRca (cfg : Cfg T) (o r n : Nat) : M T Unit := do
  let len ← length o
  insertRcaN cfg o len r n

/-- `append(rca&&, n = npos)` (`ReferenceCountedArray.h` 1025-1027). -/
def appendMove (cfg : Cfg T) (o r n : Nat) : M T Unit := do
  let len ← length o
  insertMoveN cfg o len r n

/-- One step of the iterator-range insert: `insert(std::next(begin(), index++), *first++)`
(`ReferenceCountedArray.h` 1029-1033, 1048-1049): `begin()` for the argument, then the item
insert, then `begin()` for the result. -/
def insertIter (cfg : Cfg T) (o index : Nat) (v : T) : M T Unit := do
  getOwnCopy cfg o
  insertItem cfg o index v
  getOwnCopy cfg o

/-- The loop of the iterator-range insert. -/
def insertLoop (cfg : Cfg T) (o index : Nat) : List T → M T Unit
  | [] => return ()
  | x :: xs => do
    insertIter cfg o index x
    insertLoop cfg o (index + 1) xs

/-- `insert(const_iterator, first, last)` (`ReferenceCountedArray.h` 1041-1052), values from outside. -/
def insertRange (cfg : Cfg T) (o index : Nat) (xs : List T) : M T Unit := do
  let n ← length o
  aboutToModify cfg o (n + xs.length)
  insertLoop cfg o index xs
  getOwnCopy cfg o

/-- Iterator-range constructor (`ReferenceCountedArray.h` 563-571). -/
def rangeCtor (cfg : Cfg T) (xs : List T) : M T Nat := do
  let o ← sizeCtor cfg xs.length
  (insertRange cfg.base o 0 xs).onThrow (destroy cfg.base o)
  return o

/-- `String::insert(pos, const char*, n)` (`String.cpp` 117-130) with the `slen` bytes `xs` it
will copy; `n == 0` corresponds to `early = true`. -/
def insertC (cfg : Cfg T) (o pos : Nat) (xs : List T) (early : Bool) : M T Unit := do
  if early then return ()
  else
    validatePos o pos
    let n ← length o
    aboutToModify cfg o (n + xs.length)
    shiftRight o pos xs.length
    bumpLength o xs.length
    writeRange o pos xs

/-! ## Replacement -/

/-- `replace(pos, item)` (`ReferenceCountedArray.h` 1212-1233). -/
def replaceItem (cfg : Cfg T) (o pos : Nat) (v : T) : M T Unit := do
  validatePos o pos
  getOwnCopy cfg o
  writeRange o pos [v]

/-- The common tail of the array replaces (`ReferenceCountedArray.h` 1254-1263). -/
def replaceBody (cfg : Cfg T) (o pos r slen : Nat) : M T Unit := do
  let len ← length o
  let newlen := if pos + slen < len then len else pos + slen
  aboutToModify cfg o newlen
  copyRange r slen o pos
  let ob ← getObj o
  putObj o { ob with sublen := newlen }

/-- `replace(pos, const rca&, n = npos)` (`ReferenceCountedArray.h` 1241-1265). -/
def replaceRca (cfg : Cfg T) (o pos r n : Nat) : M T Unit := do
  if n = 0 then return ()
  else
    validatePos o pos
    let slen ← length r
    let len ← length o
    if pos = 0 ∧ slen > len ∧ (n = npos ∨ n = slen) then copyAssign o r
    else replaceBody cfg o pos r (if n = npos ∨ n > slen then slen else n)

/-- `replace(pos, rca&&, n = npos)` (`ReferenceCountedArray.h` 1273-1297). -/
def replaceMove (cfg : Cfg T) (o pos r n : Nat) : M T Unit := do
  if n = 0 then return ()
  else
    validatePos o pos
    let slen ← length r
    let len ← length o
    if pos = 0 ∧ slen > len ∧ (n = npos ∨ n = slen) then moveAssign cfg o r
    else replaceBody cfg o pos r (if n = npos ∨ n > slen then slen else n)

/-- `String::replace(pos, const char*, n)` (`String.cpp` 138-152); `xs` are the `slen` bytes. -/
def replaceC (cfg : Cfg T) (o pos : Nat) (xs : List T) (early : Bool) : M T Unit := do
  if early then return ()
  else
    validatePos o pos
    let len ← length o
    let newlen := if pos + xs.length < len then len else pos + xs.length
    aboutToModify cfg o newlen
    let ob ← getObj o
    putObj o { ob with sublen := newlen }
    writeRange o pos xs

/-! ## Dropping elements -/

/-- `pop_back`, `operator--` (`ReferenceCountedArray.h` 1010-1013); the assert is off. -/
def popBack (o : Nat) : M T Unit := do
  let ob ← getObj o
  putObj o { ob with sublen := sub64 ob.sublen 1, hash := 0 }

/-- `String::operator+=(size_t)` (`String.h` 453-464). -/
def dropFront (o n : Nat) : M T Unit := do
  let ob ← getObj o
  if ob.sublen = 0 then return ()
  else if n > ob.sublen then putObj o { ob with offset := ob.sublen, sublen := 0, hash := 0 }
  else putObj o { ob with offset := ob.offset + n, sublen := ob.sublen - n, hash := 0 }

/-- `String::operator-=(size_t)` (`String.h` 466-475). -/
def dropBack (o n : Nat) : M T Unit := do
  let ob ← getObj o
  if ob.sublen = 0 then return ()
  else if n > ob.sublen then putObj o { ob with offset := ob.sublen, sublen := 0, hash := 0 }
  else putObj o { ob with sublen := ob.sublen - n, hash := 0 }

/-- `Array::operator+=(int)` (`Array.h` 327-338): members are updated modulo `2^64`. -/
def arrDropFront (o : Nat) (n : Int) : M T Unit := do
  let ob ← getObj o
  if ob.sublen = 0 then return ()
  else if toInt32 ob.sublen - n < 0 then
    putObj o { ob with offset := ob.sublen, sublen := 0, hash := 0 }
  else putObj o { ob with offset := ((ob.offset + n) % (two64 : Int)).toNat,
                          sublen := ((ob.sublen - n) % (two64 : Int)).toNat, hash := 0 }

/-- `Array::operator-=(int)` (`Array.h` 340-349). -/
def arrDropBack (o : Nat) (n : Int) : M T Unit := do
  let ob ← getObj o
  if ob.sublen = 0 then return ()
  else if toInt32 ob.sublen - n < 0 then
    putObj o { ob with offset := ob.sublen, sublen := 0, hash := 0 }
  else putObj o { ob with sublen := ((ob.sublen - n) % (two64 : Int)).toNat, hash := 0 }

/-- `Array::shift` (`Array.h` 107-116): copies the element if shared, moves it out otherwise. -/
def shift (cfg : Cfg T) (o : Nat) : M T (Option T) := do
  let xs ← readRange o 0 1
  if ← isShared o then pure () else writeRange o 0 (xs.map cfg.moved)
  let ob ← getObj o
  putObj o { ob with offset := ob.offset + 1, sublen := sub64 ob.sublen 1, hash := 0 }
  return xs.head?

/-- `Array::pop` (`Array.h` 128-133). -/
def pop (cfg : Cfg T) (o : Nat) : M T (Option T) := do
  let ob ← getObj o
  let last := sub64 ob.sublen 1
  let xs ← readRange o last 1
  if ← isShared o then pure () else writeRange o last (xs.map cfg.moved)
  popBack o
  return xs.head?

/-! ## Raw pointers -/

/-- A raw pointer/reference to cell `idx` of the buffer `gen` of block `addr`. -/
structure Ptr where
  addr : Nat
  gen : Nat
  idx : Nat
  deriving DecidableEq, Repr

/-- The reference/pointer `Buf(i)` of object `o`, as returned by `data()`, `cbegin()`, `read(i)`,
`operator[] const`, and (after `getOwnCopy`) by `begin()` (`ReferenceCountedArray.h` 301-310). -/
def ptrTo (o i : Nat) : M T Ptr := do
  let ob ← getObj o
  match ob.ref with
  | none => M.undef
  | some a => let b ← getBlk a; return { addr := a, gen := b.gen, idx := ob.offset + i }

/-- Dereference for reading: undefined if the buffer was released or replaced, or out of bounds. -/
def loadPtr (p : Ptr) : M T T := do
  let b ← getBlk p.addr
  if b.gen = p.gen then
    match b.cells[p.idx]? with
    | some x => return x
    | none => M.undef
  else M.undef

/-- Dereference for writing. -/
def storePtr (p : Ptr) (v : T) : M T Unit := do
  let b ← getBlk p.addr
  if b.gen = p.gen ∧ p.idx < b.cells.length then
    putBlk p.addr { b with cells := b.cells.set p.idx v }
  else M.undef

/-- `insert(pos, const T& item)` (`ReferenceCountedArray.h` 1173-1183) where `item` is a reference
into some buffer: it is read after the receiver was grown and shifted. -/
def insertRef (cfg : Cfg T) (o pos : Nat) (p : Ptr) : M T Unit := do
  validatePos o pos
  let n ← length o
  aboutToModify cfg o (n + 1)
  shiftRight o pos 1
  let v ← loadPtr p
  writeRange o pos [v]
  bumpLength o 1

/-- Read `k` consecutive cells through a raw pointer (the source of a `memcpy`). -/
def loadPtrs (p : Ptr) (k : Nat) : M T (List T) := do
  let b ← getBlk p.addr
  if b.gen = p.gen ∧ p.idx + k ≤ b.cells.length then return window b.cells p.idx k
  else M.undef

/-- `::memcpy(Buf(pos), string, k)` with `string` pointing into some buffer (`String.cpp` 129, 151).  `memcpy` is undefined if
the two ranges overlap; copying a range onto itself is taken as harmless. -/
def memcpyPtr (o pos : Nat) (p : Ptr) (k : Nat) : M T Unit := do
  let ob ← getObj o
  if ob.ref = some p.addr ∧ p.idx ≠ ob.offset + pos ∧ p.idx < ob.offset + pos + k ∧ ob.offset + pos < p.idx + k then M.undef
  else
    let xs ← loadPtrs p k
    writeRange o pos xs

/-- `String::insert(pos, const char* string, n)` (`String.cpp` 117-130) where `string` points into some
buffer and `k` characters are taken: they are copied after the receiver was grown and shifted.
Simplified: `k` is the number of characters, so the `strlen` of `n == npos` is done by the caller. -/
def insertPtrC (cfg : Cfg T) (o pos : Nat) (p : Ptr) (k : Nat) : M T Unit := do
  validatePos o pos
  let n ← length o
  aboutToModify cfg o (n + k)
  shiftRight o pos k
  bumpLength o k
  memcpyPtr o pos p k

/-- `String::replace(pos, const char* string, n)` (`String.cpp` 138-152) where `string` points into some buffer and `k`
characters are taken: they are copied after the receiver was grown.  Simplified as `insertPtrC`. -/
def replacePtrC (cfg : Cfg T) (o pos : Nat) (p : Ptr) (k : Nat) : M T Unit := do
  validatePos o pos
  let len ← length o
  let newlen := if pos + k < len then len else pos + k
  aboutToModify cfg o newlen
  let ob ← getObj o
  putObj o { ob with sublen := newlen }
  memcpyPtr o pos p k

/-! ## c_str -/

/-- `String::c_str` (`String.h` 232-244): the bytes from the returned pointer up to and including
position `length()`; the empty string returns a pointer to the literal `""`. -/
def cStr [DecidableEq T] (cfg : Cfg T) (nul : T) (o : Nat) : M T (List T) := do
  let ob ← getObj o
  if ob.sublen = 0 then return [nul]
  else
    let t ← readRange o ob.sublen 1
    if t ≠ [nul] then
      aboutToModify cfg o (ob.sublen + 1)
      writeRange o ob.sublen [nul]
      readRange o 0 (ob.sublen + 1)
    else readRange o 0 (ob.sublen + 1)

end Bdlib.Rca
