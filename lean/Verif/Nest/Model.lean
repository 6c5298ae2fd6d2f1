import Verif.Rca.Reach

/-!
# Model of `Array<String>`: arrays whose elements are objects with a life of their own

In `Rca/Model.lean` the elements of an array are values: copying, moving and destroying one has no effect of
its own.  Here the elements are `String` objects.  A program state has two memories: `strs`, the memory of all
`String` objects (those in the cells of arrays, those named by the user, temporaries), and `arrs`, the memory
of the `Array<String>` objects, in which a cell holds the handle of the `String` object that lives there.
Constructing, assigning, moving and destroying a cell runs the modelled constructor, assignment or destructor
of `String` on it.

The functions below are the instantiations with `T = String` (a class type, so `std::is_class<T>::value` holds)
of the functions with the same name in `Rca/Model.lean`.
-/

namespace Bdlib.Nest
open Bdlib Bdlib.Spec

/-- The two memories. -/
structure World where
  strs : St UInt8 := {}
  arrs : St Nat := {}

/-- How a piece of the program ends. -/
inductive Res (α : Type) where
  | ok (a : α) (w : World)
  | throw (e : Exc) (w : World)
  | ub

/-- Programs on both memories. -/
def P (α : Type) : Type := World → Res α

namespace P
variable {α β : Type}

def pure (a : α) : P α := fun w => .ok a w

def bind (m : P α) (f : α → P β) : P β := fun w =>
  match m w with
  | .ok a w' => f a w'
  | .throw e w' => .throw e w'
  | .ub => .ub

instance : Monad P where
  pure := P.pure
  bind := P.bind

/-- Stack unwinding: if `m` throws, run `c` and rethrow. -/
def onThrow (m : P α) (c : P Unit) : P α := fun w =>
  match m w with
  | .ok a w' => .ok a w'
  | .throw e w' =>
    match c w' with
    | .ok _ w'' => .throw e w''
    | .throw _ _ => .ub
    | .ub => .ub
  | .ub => .ub

def undef : P α := fun _ => .ub

/-- Run code of `String` (or of an element) on the memory of the strings. -/
def strs (m : M UInt8 α) : P α := fun w =>
  match m w.strs with
  | .ok a s => .ok a { w with strs := s }
  | .throw e s => .throw e { w with strs := s }
  | .ub => .ub

/-- Run code that does not touch elements on the memory of the arrays. -/
def arrs (m : M Nat α) : P α := fun w =>
  match m w.arrs with
  | .ok a s => .ok a { w with arrs := s }
  | .throw e s => .throw e { w with arrs := s }
  | .ub => .ub

end P

open P (strs arrs undef)

/-- The open parameters: those of `String`, and for the arrays the growth rule and the allocator (see
`Cfg` in `Machine/Basic.lean`).  The two memories have separate counters of allocation attempts, so that each
may fail at any point. -/
structure Conf where
  str : Cfg UInt8
  scale : Nat → Nat
  allocOk : Nat → Nat → Bool

/-- The parameters of the array memory.  Cell contents are handles and never come from here. -/
def Conf.hnd (c : Conf) : Cfg Nat :=
  { nul := none, junk := fun _ _ => 0, moved := id, scale := c.scale, allocOk := c.allocOk,
    resetMoved := c.str.resetMoved, hasher := fun _ => 0, wipe := fun _ _ => 0 }

/-! ## Elements -/

/-- `T()`: a new `String` (`String.h` 88). -/
def new : P Nat := strs Rca.ctor
/-- A new `String`, a copy of `h` (`String.h` 90). -/
def newCopy (h : Nat) : P Nat := strs (Rca.copyCtor h)
/-- A new `String`, moved from `h` (`String.h` 91). -/
def newMove (c : Conf) (h : Nat) : P Nat := strs (Rca.moveCtor c.str h)
/-- `d = s` (`String.h` 156). -/
def assign (d s : Nat) : P Unit := strs (Rca.copyAssign d s)
/-- `d = std::move(s)` (`String.h` 157). -/
def assignMove (c : Conf) (d s : Nat) : P Unit := strs (Rca.moveAssign c.str d s)
/-- `~String` (`String.h` 148-153). -/
def delete (c : Conf) (h : Nat) : P Unit := strs (Rca.destroy c.str h)

/-- `k` copies of `t`, made one after the other (the loop of `std::uninitialized_fill`). -/
def copies (t : Nat) : Nat → P (List Nat)
  | 0 => return []
  | k + 1 => do
    let h ← newCopy t
    let hs ← copies t k
    return h :: hs

/-- `std::uninitialized_fill(newbuf + sublen, newbuf + newSize, T())` (`ReferenceCountedArray.h` 87-88): the
temporary is destroyed at the end of the statement. -/
def fresh (c : Conf) (k : Nat) : P (List Nat) := do
  let t ← new
  let hs ← copies t k
  delete c t
  return hs

/-- `std::uninitialized_move_n` / `std::uninitialized_copy_n` with move iterators
(`ReferenceCountedArray.h` 92-101). -/
def newMoves (c : Conf) : List Nat → P (List Nat)
  | [] => return []
  | h :: hs => do
    let d ← newMove c h
    let ds ← newMoves c hs
    return d :: ds

/-- The loop of `FreeBuf` (`ReferenceCountedArray.h` 127-131). -/
def deletes (c : Conf) : List Nat → P Unit
  | [] => return ()
  | h :: hs => do
    delete c h
    deletes c hs

/-- `*d++ = *s++` (the loop of `std::copy`, and of `std::move` over `const` elements). -/
def assigns : List Nat → List Nat → P Unit
  | d :: ds, s :: ss => do
    assign d s
    assigns ds ss
  | _, _ => return ()

/-- `*d++ = std::move(*s++)` (the loop of `std::move`). -/
def assignMoves (c : Conf) : List Nat → List Nat → P Unit
  | d :: ds, s :: ss => do
    assignMove c d s
    assignMoves c ds ss
  | _, _ => return ()

/-! ## Storage -/

/-- `ArrayRef::reserve` (`ReferenceCountedArray.h` 76-118) on block `a`; returns the new `offset`.  With a
null buffer and `sublen > 0` the cells `[0, sublen)` of the new buffer would stay raw memory: undefined. -/
def arefReserve (c : Conf) (a newSize : Nat) (scale : Nat → Nat) (offset sublen : Nat) : P Nat := do
  let b ← arrs (getBlk a)
  let size := b.cells.length
  if size < newSize then
    let newSize := max (scale size) newSize
    let g ← arrs (alloc c.hnd newSize)
    let fs ← fresh c (newSize - sublen)
    if size = 0 then
      if sublen = 0 then
        arrs (putBlk a { b with gen := g, cells := fs })
        return 0
      else undef
    else if offset + sublen ≤ size then
      let ms ← newMoves c (window b.cells offset sublen)
      deletes c b.cells
      arrs (Rca.freeBuf b.cells)
      arrs (putBlk a { b with gen := g, cells := ms ++ fs })
      return 0
    else undef
  else if sub64 size offset < newSize then
    if offset + sublen ≤ size then
      assignMoves c (window b.cells 0 sublen) (window b.cells offset sublen)
      return 0
    else undef
  else return offset

/-- `ReferenceCountedArray::reserve` (`ReferenceCountedArray.h` 606-612). -/
def reserve (c : Conf) (o newSize : Nat) (scale : Nat → Nat) : P Unit := do
  let ob ← arrs (getObj o)
  let a ← match ob.ref with
    | some a => pure a
    | none => do
        let a ← arrs (Rca.newRef c.hnd)
        arrs (putObj o { ob with ref := some a })
        pure a
  let off ← arefReserve c a newSize scale ob.offset ob.sublen
  let ob ← arrs (getObj o)
  arrs (putObj o { ob with offset := off })

/-- `CheckDeallocRef` (`ReferenceCountedArray.h` 363-368) with `~ArrayRef` and `FreeBuf` (68-70, 126-133): the
last owner destroys every element of the buffer, also those outside its window. -/
def checkDeallocRef (c : Conf) (o : Nat) : P Unit := do
  let ob ← arrs (getObj o)
  match ob.ref with
  | none => return ()
  | some a =>
    arrs (Rca.decRef (some a))
    let b ← arrs (getBlk a)
    if b.refs < 1 then
      deletes c b.cells
      arrs (Rca.freeBuf b.cells)
      arrs (fun s => .ok () (s.setBlk a none))
      arrs (putObj o { ob with ref := none })
    else return ()

/-- `COW` (`ReferenceCountedArray.h` 383-392). -/
def cow (c : Conf) (o n : Nat) : P Unit := do
  let ob ← arrs (getObj o)
  arrs (Rca.doDetach o)
  reserve c o n c.scale
  let len := min ob.sublen n
  let ob' ← arrs (getObj o)
  arrs (putObj o { ob' with sublen := len })
  if len = 0 then return ()
  match ob.ref with
  | none => undef
  | some a =>
    let b ← arrs (getBlk a)
    if ob.offset + len ≤ b.cells.length then
      let ds ← arrs (readRange o 0 len)
      assigns ds (window b.cells ob.offset len)
    else undef

/-- `AboutToModify` (`ReferenceCountedArray.h` 405-413). -/
def aboutToModify (c : Conf) (o n : Nat) : P Unit := do
  let ob ← arrs (getObj o)
  arrs (putObj o { ob with hash := 0 })
  if ← arrs (Rca.isShared o) then cow c o n else reserve c o n c.scale

/-- `getOwnCopy` (`ReferenceCountedArray.h` 399), the effect of `begin()`. -/
def getOwnCopy (c : Conf) (o : Nat) : P Unit := do
  let n ← arrs (Rca.length o)
  aboutToModify c o n

/-! ## Construction, destruction, assignment of arrays -/

/-- `~Array` (`ReferenceCountedArray.h` 429). -/
def destroy (c : Conf) (o : Nat) : P Unit := do
  checkDeallocRef c o
  arrs (Rca.dropObj o)

/-- Copy assignment (`ReferenceCountedArray.h` 527-536). -/
def copyAssign (c : Conf) (o r : Nat) : P Unit := do
  let rb ← arrs (getObj r)
  arrs (Rca.incRef rb.ref)
  let ob ← arrs (getObj o)
  arrs (putObj o { ob with offset := rb.offset, sublen := rb.sublen, hash := rb.hash })
  checkDeallocRef c o
  let rb' ← arrs (getObj r)
  let ob' ← arrs (getObj o)
  arrs (putObj o { ob' with ref := rb'.ref })

/-- Move assignment (`ReferenceCountedArray.h` 542-560). -/
def moveAssign (c : Conf) (o r : Nat) : P Unit := do
  if o = r then return ()
  else
    checkDeallocRef c o
    let rb ← arrs (getObj r)
    arrs (putObj o rb)
    arrs (putObj r (Rca.movedFrom c.hnd rb))

/-- Size constructor (`ReferenceCountedArray.h` 462-468). -/
def sizeCtor (c : Conf) (n : Nat) : P Nat := do
  let o ← arrs (Rca.newObj {})
  (if n ≠ 0 then reserve c o n id else pure ()).onThrow (destroy c o)
  return o

/-- `std::copy` of the strings `hs` to `Buf(i)` (`*(Buf(i)) = item` for one string). -/
def assignCells (o i : Nat) (hs : List Nat) : P Unit := do
  let ds ← arrs (readRange o i hs.length)
  assigns ds hs

/-- `*(Buf(i)) = std::move(item)`. -/
def assignMoveCell (c : Conf) (o i h : Nat) : P Unit := do
  let ds ← arrs (readRange o i 1)
  assignMoves c ds [h]

/-- `sublen = n`. -/
def putLength (o n : Nat) : P Unit := do
  let ob ← arrs (getObj o)
  arrs (putObj o { ob with sublen := n })

/-- Constructor from an initializer list or from (pointer, length)
(`ReferenceCountedArray.h` 487-490, 500-503). -/
def listCtor (c : Conf) (hs : List Nat) : P Nat := do
  let o ← sizeCtor c hs.length
  (do assignCells o 0 hs
      putLength o hs.length).onThrow (destroy c o)
  return o

/-- `operator=(initializer_list)` (`ReferenceCountedArray.h` 577-583). -/
def assignList (c : Conf) (o : Nat) (hs : List Nat) : P Unit := do
  arrs (Rca.clear o)
  reserve c o hs.length id
  assignCells o 0 hs
  putLength o hs.length

/-! ## Length changes -/

/-- `resize(len)` (`ReferenceCountedArray.h` 631-638). -/
def resize (c : Conf) (o len : Nat) : P Unit := do
  let n ← arrs (Rca.length o)
  if len < n then arrs (Rca.setLength o len)
  else
    aboutToModify c o len
    putLength o len

/-- Construct strings in cells that hold strings already: from now on the cells are the new objects; nobody
refers to the old ones any more. -/
def plant (o i : Nat) (hs : List Nat) : P Unit := arrs (writeRange o i hs)

/-- The body of `resize(len, value)` (`ReferenceCountedArray.h` 646-659).  `std::uninitialized_fill` constructs in
the cells `[sublen, len)`, all of which hold a constructed element already (`ArrayRef::reserve` constructs all
cells). -/
def fillBody (c : Conf) (o len v : Nat) : P Unit := do
  let n ← arrs (Rca.length o)
  if len < n then arrs (Rca.setLength o len)
  else
    aboutToModify c o len
    let ob ← arrs (getObj o)
    let hs ← copies v (len - ob.sublen)
    plant o ob.sublen hs
    putLength o len

/-- `resize(len, value)` (`ReferenceCountedArray.h` 645-660).  `value` is a by-value parameter: a copy, destroyed
at the end. -/
def resizeFill (c : Conf) (o len h : Nat) : P Unit := do
  let v ← newCopy h
  (fillBody c o len v).onThrow (delete c v)
  delete c v

/-- The fill constructor without its parameter (`ReferenceCountedArray.h` 479-481). -/
def fillNew (c : Conf) (n v : Nat) : P Nat := do
  let o ← arrs (Rca.newObj {})
  (resizeFill c o n v).onThrow (destroy c o)
  return o

/-- Fill constructor (`ReferenceCountedArray.h` 477-481); `value` is a by-value parameter. -/
def fillCtor (c : Conf) (n h : Nat) : P Nat := do
  let v ← newCopy h
  let o ← (fillNew c n v).onThrow (delete c v)
  delete c v
  return o

/-! ## Elements of arrays -/

/-- The string in cell `Buf(i)`. -/
def cell (o i : Nat) : P Nat := do
  match ← arrs (readRange o i 1) with
  | [h] => return h
  | _ => undef

/-- `String s = a[i]`, `a.read(i)`, `front()`, `back()` (`ReferenceCountedArray.h` 834-839, 927-930, 994-1007). -/
def get (o i : Nat) : P Nat := do
  let h ← cell o i
  newCopy h

/-- `String s = a.at(i)` (`ReferenceCountedArray.h` 946-949). -/
def getAt (o i : Nat) : P Nat := do
  arrs (Rca.validateIndex o i)
  get o i

/-- `write(i, item)`, `a[i] = item` (`ReferenceCountedArray.h` 844-847, 908-911). -/
def write (c : Conf) (o i h : Nat) : P Unit := do
  getOwnCopy c o
  assignCells o i [h]

/-- `write(i, std::move(item))`, `a[i] = std::move(item)` (`ReferenceCountedArray.h` 848-851, 912-915). -/
def writeMove (c : Conf) (o i h : Nat) : P Unit := do
  getOwnCopy c o
  assignMoveCell c o i h

/-- A call on the element itself, through `begin()[i]` or `a[i].mget()` (`ReferenceCountedArray.h` 718-721,
893-896): `op` is given the element as its receiver. -/
def modify (c : Conf) (o i : Nat) (op : Nat → Op UInt8) : P (Out UInt8) := do
  getOwnCopy c o
  let h ← cell o i
  strs (Rca.run c.str (op h))

/-- `Array::subarray` (`Array.h` 222-226). -/
def subarray (r : Nat) (start len : Int) : P Nat := arrs (Rca.substring r start len)

/-! ## Insertion and replacement -/

/-- `std::move_backward(constBuf(pos), constBuf(length()), Buf(length() + k))`: the last element first; the
source elements are `const`, hence copied. -/
def shiftRight (o pos k : Nat) : P Unit := do
  let ob ← arrs (getObj o)
  let ss ← arrs (readRange o pos (ob.sublen - pos))
  let ds ← arrs (readRange o (pos + k) (ob.sublen - pos))
  assigns ds.reverse ss.reverse

/-- `std::copy(rca.cbegin(), rca.cbegin() + n, Buf(pos))`; undefined if the destination starts inside the
source range. -/
def copyRange (r n o pos : Nat) : P Unit := do
  let rb ← arrs (getObj r)
  let ob ← arrs (getObj o)
  if rb.ref = ob.ref ∧ rb.offset < ob.offset + pos ∧ ob.offset + pos < rb.offset + n then undef
  else
    let ss ← arrs (readRange r 0 n)
    let ds ← arrs (readRange o pos n)
    assigns ds ss

/-- What `insert(pos, item)` does before the item is stored (`ReferenceCountedArray.h` 1175-1180). -/
def makeRoom (c : Conf) (o pos : Nat) : P Unit := do
  arrs (Rca.validatePos o pos)
  let n ← arrs (Rca.length o)
  aboutToModify c o (n + 1)
  shiftRight o pos 1

/-- `insert(pos, const item&)` (`ReferenceCountedArray.h` 1173-1183) with an item outside the buffer. -/
def insertItem (c : Conf) (o pos h : Nat) : P Unit := do
  makeRoom c o pos
  assignCells o pos [h]
  arrs (Rca.bumpLength o 1)

/-- `insert(pos, item&&)` (`ReferenceCountedArray.h` 1193-1203) with an item outside the buffer. -/
def insertItemMove (c : Conf) (o pos h : Nat) : P Unit := do
  makeRoom c o pos
  assignMoveCell c o pos h
  arrs (Rca.bumpLength o 1)

/-- `append(const item&)`, `push_back`, `operator<<` (`ReferenceCountedArray.h` 989-991, `Array.h` 92-96). -/
def append (c : Conf) (o h : Nat) : P Unit := do
  let n ← arrs (Rca.length o)
  insertItem c o n h

/-- `append(item&&)`, `push_back`, `operator<<` (`ReferenceCountedArray.h` 990-992, `Array.h` 97-101). -/
def appendMove (c : Conf) (o h : Nat) : P Unit := do
  let n ← arrs (Rca.length o)
  insertItemMove c o n h

/-- The common tail of the array inserts (`ReferenceCountedArray.h` 1077-1081, 1102-1106). -/
def insertBody (c : Conf) (o pos r slen : Nat) : P Unit := do
  let n ← arrs (Rca.length o)
  aboutToModify c o (n + slen)
  shiftRight o pos slen
  copyRange r slen o pos
  arrs (Rca.bumpLength o slen)

/-- `insert(pos, const rca&, n)` (`ReferenceCountedArray.h` 1061-1082). -/
def insertArrN (c : Conf) (o pos r n : Nat) : P Unit := do
  if n = 0 then return ()
  else
    arrs (Rca.validatePos o pos)
    let slen ← arrs (Rca.length r)
    let len ← arrs (Rca.length o)
    if pos = 0 ∧ slen > len ∧ n = slen then copyAssign c o r
    else insertBody c o pos r (min n slen)

/-- `insert(pos, const rca&)` (`ReferenceCountedArray.h` 1090-1107). -/
def insertArr (c : Conf) (o pos r : Nat) : P Unit := do
  arrs (Rca.validatePos o pos)
  let slen ← arrs (Rca.length r)
  let len ← arrs (Rca.length o)
  if pos = 0 ∧ slen > len then copyAssign c o r
  else insertBody c o pos r slen

/-- `insert(pos, rca&&, n)` (`ReferenceCountedArray.h` 1116-1137); the elements are `const`, hence copied. -/
def insertArrMoveN (c : Conf) (o pos r n : Nat) : P Unit := do
  if n = 0 then return ()
  else
    arrs (Rca.validatePos o pos)
    let slen ← arrs (Rca.length r)
    let len ← arrs (Rca.length o)
    if pos = 0 ∧ slen > len ∧ n = slen then moveAssign c o r
    else insertBody c o pos r (min n slen)

/-- `insert(pos, rca&&)` (`ReferenceCountedArray.h` 1145-1162). -/
def insertArrMove (c : Conf) (o pos r : Nat) : P Unit := do
  arrs (Rca.validatePos o pos)
  let slen ← arrs (Rca.length r)
  let len ← arrs (Rca.length o)
  if pos = 0 ∧ slen > len then moveAssign c o r
  else insertBody c o pos r slen

/-- `append(const rca&, n)` (`ReferenceCountedArray.h` 1022-1024), also `operator+=`. -/
def appendArr (c : Conf) (o r n : Nat) : P Unit := do
  let len ← arrs (Rca.length o)
  insertArrN c o len r n

/-- `append(rca&&, n)` (`ReferenceCountedArray.h` 1025-1027). -/
def appendArrMove (c : Conf) (o r n : Nat) : P Unit := do
  let len ← arrs (Rca.length o)
  insertArrMoveN c o len r n

/-- `replace(pos, const item&)` (`ReferenceCountedArray.h` 1212-1218). -/
def replaceItem (c : Conf) (o pos h : Nat) : P Unit := do
  arrs (Rca.validatePos o pos)
  getOwnCopy c o
  assignCells o pos [h]

/-- `replace(pos, item&&)` (`ReferenceCountedArray.h` 1227-1233). -/
def replaceItemMove (c : Conf) (o pos h : Nat) : P Unit := do
  arrs (Rca.validatePos o pos)
  getOwnCopy c o
  assignMoveCell c o pos h

/-- The common tail of the array replaces (`ReferenceCountedArray.h` 1254-1263). -/
def replaceBody (c : Conf) (o pos r slen : Nat) : P Unit := do
  let len ← arrs (Rca.length o)
  let newlen := if pos + slen < len then len else pos + slen
  aboutToModify c o newlen
  copyRange r slen o pos
  putLength o newlen

/-- `replace(pos, const rca&, n = npos)` (`ReferenceCountedArray.h` 1241-1265). -/
def replaceArr (c : Conf) (o pos r n : Nat) : P Unit := do
  if n = 0 then return ()
  else
    arrs (Rca.validatePos o pos)
    let slen ← arrs (Rca.length r)
    let len ← arrs (Rca.length o)
    if pos = 0 ∧ slen > len ∧ (n = npos ∨ n = slen) then copyAssign c o r
    else replaceBody c o pos r (if n = npos ∨ n > slen then slen else n)

/-- `replace(pos, rca&&, n = npos)` (`ReferenceCountedArray.h` 1273-1297). -/
def replaceArrMove (c : Conf) (o pos r n : Nat) : P Unit := do
  if n = 0 then return ()
  else
    arrs (Rca.validatePos o pos)
    let slen ← arrs (Rca.length r)
    let len ← arrs (Rca.length o)
    if pos = 0 ∧ slen > len ∧ (n = npos ∨ n = slen) then moveAssign c o r
    else replaceBody c o pos r (if n = npos ∨ n > slen then slen else n)

/-! ## Taking elements out -/

/-- The element that is returned: copied out of shared storage, moved out otherwise. -/
def takeCell (c : Conf) (o i : Nat) : P Nat := do
  let h ← cell o i
  if ← arrs (Rca.isShared o) then newCopy h else newMove c h

/-- `Array::shift` (`Array.h` 107-116). -/
def shift (c : Conf) (o : Nat) : P Nat := do
  let t ← takeCell c o 0
  let ob ← arrs (getObj o)
  arrs (putObj o { ob with offset := ob.offset + 1, sublen := sub64 ob.sublen 1, hash := 0 })
  return t

/-- `Array::pop` (`Array.h` 128-133). -/
def pop (c : Conf) (o : Nat) : P Nat := do
  let ob ← arrs (getObj o)
  let t ← takeCell c o (sub64 ob.sublen 1)
  arrs (Rca.popBack o)
  return t

end Bdlib.Nest
