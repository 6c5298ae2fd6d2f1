import Verif.Rca.Reach
import Verif.Prog.Model

/-!
# Model of `Array<T>` for any class `T` with the value operations of the library's own classes

`Rca/Model.lean` models arrays whose elements are plain values and `Nest/Model.lean` arrays of `String`s.  Here the
element class is a parameter: a memory and six operations (`Class`).  `Array<T>` is such a class again
(`arrayOf`), and so is `String` (`stringClass`); applying `arrayOf` again and again gives `Array<Array<String>>` and
so on to any depth (`tower`).

A program state of `Array<T>` has two memories: `elts`, the memory of all objects of class `T` (those in the cells
of arrays, those named by the user, temporaries), and `arrs`, the memory of the `Array<T>` objects, in which a cell
holds the handle of the object that lives there.  Constructing, assigning, moving and destroying a cell runs the
operation of the class on it.

The functions below are the instantiations with a class `T` (so `std::is_class<T>::value` holds) of the functions
with the same name in `Rca/Model.lean`.
-/

namespace Bdlib.Deep
open Bdlib Bdlib.Spec

/-- How a piece of a program ends. -/
inductive Res (S α : Type) where
  | ok (a : α) (s : S)
  | throw (e : Exc) (s : S)
  | ub

/-- Programs on a memory. -/
def Pg (S α : Type) : Type := S → Res S α

namespace Pg
variable {S α β : Type}

def pure (a : α) : Pg S α := fun s => .ok a s

def bind (m : Pg S α) (f : α → Pg S β) : Pg S β := fun s =>
  match m s with
  | .ok a s' => f a s'
  | .throw e s' => .throw e s'
  | .ub => .ub

instance : Monad (Pg S) where
  pure := Pg.pure
  bind := Pg.bind

/-- Stack unwinding: if `m` throws, run `c` and rethrow. -/
def onThrow (m : Pg S α) (c : Pg S Unit) : Pg S α := fun s =>
  match m s with
  | .ok a s' => .ok a s'
  | .throw e s' =>
    match c s' with
    | .ok _ s'' => .throw e s''
    | .throw _ _ => .ub
    | .ub => .ub
  | .ub => .ub

def undef : Pg S α := fun _ => .ub

/-- A program on the memory of `Rca/Model.lean`. -/
def ofM {T : Type} (m : M T α) : Pg (St T) α := fun s =>
  match m s with
  | .ok a s' => .ok a s'
  | .throw e s' => .throw e s'
  | .ub => .ub

end Pg

/-- A class: the memory of its objects and what the array code does with them.  Objects are named by handles. -/
structure Class where
  Mem : Type
  /-- the memory of a program that has no object yet -/
  init : Mem
  /-- `T()` -/
  new : Pg Mem Nat
  /-- `T(const T&)` -/
  newCopy : Nat → Pg Mem Nat
  /-- `T(T&&)` -/
  newMove : Nat → Pg Mem Nat
  /-- `d = s` -/
  assign : Nat → Nat → Pg Mem Unit
  /-- `d = std::move(s)` -/
  assignMove : Nat → Nat → Pg Mem Unit
  /-- `~T()` -/
  delete : Nat → Pg Mem Unit

/-- `String` (`String.h` 88, 90, 91, 156, 157, 148-153). -/
def stringClass (cfg : Cfg UInt8) : Class where
  Mem := St UInt8
  init := {}
  new := .ofM Rca.ctor
  newCopy h := .ofM (Rca.copyCtor h)
  newMove h := .ofM (Rca.moveCtor cfg h)
  assign d s := .ofM (Rca.copyAssign d s)
  assignMove d s := .ofM (Rca.moveAssign cfg d s)
  delete h := .ofM (Rca.destroy cfg h)

/-- The open parameters: the class of the elements, and for the arrays the growth rule, the allocator and what the
build does with arrays that were moved from (see `Cfg` in `Machine/Basic.lean`).  Each memory has its own counter
of allocation attempts, so that each may fail at any point. -/
structure Conf where
  elt : Class
  scale : Nat → Nat
  allocOk : Nat → Nat → Bool
  resetMoved : Bool

/-- The parameters of the array memory.  Cell contents are handles and never come from here. -/
def Conf.hnd (c : Conf) : Cfg Nat :=
  { nul := none, junk := fun _ _ => 0, moved := id, scale := c.scale, allocOk := c.allocOk,
    resetMoved := c.resetMoved, hasher := fun _ => 0, wipe := fun _ _ => 0 }

/-- The two memories. -/
structure World (c : Conf) where
  elts : c.elt.Mem := c.elt.init
  arrs : St Nat := {}

/-- Programs on both memories. -/
abbrev P (c : Conf) (α : Type) : Type := Pg (World c) α

/-- Run code of the element class on the memory of the elements. -/
def elts {c : Conf} {α : Type} (m : Pg c.elt.Mem α) : P c α := fun w =>
  match m w.elts with
  | .ok a s => .ok a { w with elts := s }
  | .throw e s => .throw e { w with elts := s }
  | .ub => .ub

/-- Run code that does not touch elements on the memory of the arrays. -/
def arrs {c : Conf} {α : Type} (m : M Nat α) : P c α := fun w =>
  match m w.arrs with
  | .ok a s => .ok a { w with arrs := s }
  | .throw e s => .throw e { w with arrs := s }
  | .ub => .ub

open Pg (undef)

/-! ## Elements -/

def new (c : Conf) : P c Nat := elts c.elt.new
def newCopy (c : Conf) (h : Nat) : P c Nat := elts (c.elt.newCopy h)
def newMove (c : Conf) (h : Nat) : P c Nat := elts (c.elt.newMove h)
def assign (c : Conf) (d s : Nat) : P c Unit := elts (c.elt.assign d s)
def assignMove (c : Conf) (d s : Nat) : P c Unit := elts (c.elt.assignMove d s)
def delete (c : Conf) (h : Nat) : P c Unit := elts (c.elt.delete h)

/-- `k` copies of `t`, made one after the other (the loop of `std::uninitialized_fill`,
`ReferenceCountedArray.h` 87-88). -/
def copies (c : Conf) (t : Nat) : Nat → P c (List Nat)
  | 0 => return []
  | k + 1 => do
    let h ← newCopy c t
    let hs ← copies c t k
    return h :: hs

/-- `std::uninitialized_fill(newbuf + sublen, newbuf + newSize, T())` (`ReferenceCountedArray.h` 87-88): the
temporary is destroyed at the end of the statement. -/
def fresh (c : Conf) (k : Nat) : P c (List Nat) := do
  let t ← new c
  let hs ← copies c t k
  delete c t
  return hs

/-- `std::uninitialized_move_n` / `std::uninitialized_copy_n` with move iterators
(`ReferenceCountedArray.h` 92-101). -/
def newMoves (c : Conf) : List Nat → P c (List Nat)
  | [] => return []
  | h :: hs => do
    let d ← newMove c h
    let ds ← newMoves c hs
    return d :: ds

/-- The loop of `FreeBuf` (`ReferenceCountedArray.h` 127-131). -/
def deletes (c : Conf) : List Nat → P c Unit
  | [] => return ()
  | h :: hs => do
    delete c h
    deletes c hs

/-- `*d++ = *s++` (the loop of `std::copy`, and of `std::move` over `const` elements,
`ReferenceCountedArray.h` 391, 1080, 1135). -/
def assigns (c : Conf) : List Nat → List Nat → P c Unit
  | d :: ds, s :: ss => do
    assign c d s
    assigns c ds ss
  | _, _ => return ()

/-- `*d++ = std::move(*s++)` (the loop of `std::move`, `ReferenceCountedArray.h` 104, 115). -/
def assignMoves (c : Conf) : List Nat → List Nat → P c Unit
  | d :: ds, s :: ss => do
    assignMove c d s
    assignMoves c ds ss
  | _, _ => return ()

/-! ## Storage -/

/-- `ArrayRef::reserve` (`ReferenceCountedArray.h` 76-118) on block `a`; returns the new `offset`.  With a
null buffer and `sublen > 0` the cells `[0, sublen)` of the new buffer would stay raw memory: undefined. -/
def arefReserve (c : Conf) (a newSize : Nat) (scale : Nat → Nat) (offset sublen : Nat) : P c Nat := do
  let b ← arrs (getBlk a)
  let size := b.cells.length
  if size < newSize then
    let newSize := max (scale size) newSize
    let g ← arrs (alloc c.hnd newSize)
    let fs ← fresh c (newSize - sublen)
    if size = 0 then
      if sublen = 0 then
        arrs (putBlk a { b with gen := g, cells := fs })
        return 0
      else undef
    else if offset + sublen ≤ size then
      let ms ← newMoves c (window b.cells offset sublen)
      deletes c b.cells
      arrs (Rca.freeBuf b.cells)
      arrs (putBlk a { b with gen := g, cells := ms ++ fs })
      return 0
    else undef
  else if sub64 size offset < newSize then
    if offset + sublen ≤ size then
      assignMoves c (window b.cells 0 sublen) (window b.cells offset sublen)
      return 0
    else undef
  else return offset

/-- `ReferenceCountedArray::reserve` (`ReferenceCountedArray.h` 606-612). -/
def reserve (c : Conf) (o newSize : Nat) (scale : Nat → Nat) : P c Unit := do
  let ob ← arrs (getObj o)
  let a ← match ob.ref with
    | some a => pure a
    | none => do
        let a ← arrs (Rca.newRef c.hnd)
        arrs (putObj o { ob with ref := some a })
        pure a
  let off ← arefReserve c a newSize scale ob.offset ob.sublen
  let ob ← arrs (getObj o)
  arrs (putObj o { ob with offset := off })

/-- `CheckDeallocRef` (`ReferenceCountedArray.h` 363-368) with `~ArrayRef` and `FreeBuf` (68-70, 126-133): the
last owner destroys every element of the buffer, also those outside its window. -/
def checkDeallocRef (c : Conf) (o : Nat) : P c Unit := do
  let ob ← arrs (getObj o)
  match ob.ref with
  | none => return ()
  | some a =>
    arrs (Rca.decRef (some a))
    let b ← arrs (getBlk a)
    if b.refs < 1 then
      deletes c b.cells
      arrs (Rca.freeBuf b.cells)
      arrs (fun s => .ok () (s.setBlk a none))
      arrs (putObj o { ob with ref := none })
    else return ()

/-- `COW` (`ReferenceCountedArray.h` 383-392). -/
def cow (c : Conf) (o n : Nat) : P c Unit := do
  let ob ← arrs (getObj o)
  arrs (Rca.doDetach o)
  reserve c o n c.scale
  let len := min ob.sublen n
  let ob' ← arrs (getObj o)
  arrs (putObj o { ob' with sublen := len })
  if len = 0 then return ()
  match ob.ref with
  | none => undef
  | some a =>
    let b ← arrs (getBlk a)
    if ob.offset + len ≤ b.cells.length then
      let ds ← arrs (readRange o 0 len)
      assigns c ds (window b.cells ob.offset len)
    else undef

/-- `AboutToModify` (`ReferenceCountedArray.h` 405-413). -/
def aboutToModify (c : Conf) (o n : Nat) : P c Unit := do
  let ob ← arrs (getObj o)
  arrs (putObj o { ob with hash := 0 })
  if ← arrs (Rca.isShared o) then cow c o n else reserve c o n c.scale

/-- `getOwnCopy` (`ReferenceCountedArray.h` 399), the effect of `begin()`. -/
def getOwnCopy (c : Conf) (o : Nat) : P c Unit := do
  let n ← arrs (Rca.length o)
  aboutToModify c o n

/-! ## Construction, destruction, assignment of arrays -/

/-- `~Array` (`ReferenceCountedArray.h` 429). -/
def destroy (c : Conf) (o : Nat) : P c Unit := do
  checkDeallocRef c o
  arrs (Rca.dropObj o)

/-- Copy assignment (`ReferenceCountedArray.h` 527-536). -/
def copyAssign (c : Conf) (o r : Nat) : P c Unit := do
  let rb ← arrs (getObj r)
  arrs (Rca.incRef rb.ref)
  let ob ← arrs (getObj o)
  arrs (putObj o { ob with offset := rb.offset, sublen := rb.sublen, hash := rb.hash })
  checkDeallocRef c o
  let rb' ← arrs (getObj r)
  let ob' ← arrs (getObj o)
  arrs (putObj o { ob' with ref := rb'.ref })

/-- Move assignment (`ReferenceCountedArray.h` 542-560). -/
def moveAssign (c : Conf) (o r : Nat) : P c Unit := do
  if o = r then return ()
  else
    checkDeallocRef c o
    let rb ← arrs (getObj r)
    arrs (putObj o rb)
    arrs (putObj r (Rca.movedFrom c.hnd rb))

/-- Size constructor (`ReferenceCountedArray.h` 462-468). -/
def sizeCtor (c : Conf) (n : Nat) : P c Nat := do
  let o ← arrs (Rca.newObj {})
  (if n ≠ 0 then reserve c o n id else pure ()).onThrow (destroy c o)
  return o

/-- `std::copy` of the elements `hs` to `Buf(i)` (`*(Buf(i)) = item` for one element)
(`ReferenceCountedArray.h` 488, 580, 844-847). -/
def assignCells (c : Conf) (o i : Nat) (hs : List Nat) : P c Unit := do
  let ds ← arrs (readRange o i hs.length)
  assigns c ds hs

/-- `*(Buf(i)) = std::move(item)` (`ReferenceCountedArray.h` 850, 1201, 1232). -/
def assignMoveCell (c : Conf) (o i h : Nat) : P c Unit := do
  let ds ← arrs (readRange o i 1)
  assignMoves c ds [h]

/-- `sublen = n` (`ReferenceCountedArray.h` 489, 581, 636, 1264). -/
def putLength (c : Conf) (o n : Nat) : P c Unit := do
  let ob ← arrs (getObj o)
  arrs (putObj o { ob with sublen := n })

/-- Constructor from an initializer list or from (pointer, length)
(`ReferenceCountedArray.h` 487-490, 500-503). -/
def listCtor (c : Conf) (hs : List Nat) : P c Nat := do
  let o ← sizeCtor c hs.length
  (do assignCells c o 0 hs
      putLength c o hs.length).onThrow (destroy c o)
  return o

/-- `operator=(initializer_list)` (`ReferenceCountedArray.h` 577-583). -/
def assignList (c : Conf) (o : Nat) (hs : List Nat) : P c Unit := do
  arrs (Rca.clear o)
  reserve c o hs.length id
  assignCells c o 0 hs
  putLength c o hs.length

/-! ## Length changes -/

/-- `resize(len)` (`ReferenceCountedArray.h` 631-638). -/
def resize (c : Conf) (o len : Nat) : P c Unit := do
  let n ← arrs (Rca.length o)
  if len < n then arrs (Rca.setLength o len)
  else
    aboutToModify c o len
    putLength c o len

/-! ## Elements of arrays -/

/-- The element in cell `Buf(i)` (`ReferenceCountedArray.h` 301-310). -/
def cell (c : Conf) (o i : Nat) : P c Nat := do
  match ← arrs (readRange o i 1) with
  | [h] => return h
  | _ => undef

/-- `T t(a[i])`, `a.read(i)`, `front()`, `back()` (`ReferenceCountedArray.h` 834-839, 927-930, 994-1007). -/
def get (c : Conf) (o i : Nat) : P c Nat := do
  let h ← cell c o i
  newCopy c h

/-- `T t(a.at(i))` (`ReferenceCountedArray.h` 946-949). -/
def getAt (c : Conf) (o i : Nat) : P c Nat := do
  arrs (Rca.validateIndex o i)
  get c o i

/-- `write(i, item)`, `a[i] = item` (`ReferenceCountedArray.h` 844-847, 908-911). -/
def write (c : Conf) (o i h : Nat) : P c Unit := do
  getOwnCopy c o
  assignCells c o i [h]

/-- `write(i, std::move(item))`, `a[i] = std::move(item)` (`ReferenceCountedArray.h` 848-851, 912-915). -/
def writeMove (c : Conf) (o i h : Nat) : P c Unit := do
  getOwnCopy c o
  assignMoveCell c o i h

/-- A call on the element itself, through `begin()[i]` or `a[i].mget()` (`ReferenceCountedArray.h` 718-721,
893-896): `f` is the code of the call, given the element as its receiver. -/
def modify {α : Type} (c : Conf) (o i : Nat) (f : Nat → Pg c.elt.Mem α) : P c α := do
  getOwnCopy c o
  let h ← cell c o i
  elts (f h)

/-- `Array::subarray` (`Array.h` 222-226). -/
def subarray (c : Conf) (r : Nat) (start len : Int) : P c Nat := arrs (Rca.substring r start len)

/-! ## Insertion and replacement -/

/-- `std::move_backward(constBuf(pos), constBuf(length()), Buf(length() + k))`: the last element first; the
source elements are `const`, hence copied. -/
def shiftRight (c : Conf) (o pos k : Nat) : P c Unit := do
  let ob ← arrs (getObj o)
  let ss ← arrs (readRange o pos (ob.sublen - pos))
  let ds ← arrs (readRange o (pos + k) (ob.sublen - pos))
  assigns c ds.reverse ss.reverse

/-- `std::copy(rca.cbegin(), rca.cbegin() + n, Buf(pos))`; undefined if the destination starts inside the
source range. -/
def copyRange (c : Conf) (r n o pos : Nat) : P c Unit := do
  let rb ← arrs (getObj r)
  let ob ← arrs (getObj o)
  if rb.ref = ob.ref ∧ rb.offset < ob.offset + pos ∧ ob.offset + pos < rb.offset + n then undef
  else
    let ss ← arrs (readRange r 0 n)
    let ds ← arrs (readRange o pos n)
    assigns c ds ss

/-- What `insert(pos, item)` does before the item is stored (`ReferenceCountedArray.h` 1175-1180). -/
def makeRoom (c : Conf) (o pos : Nat) : P c Unit := do
  arrs (Rca.validatePos o pos)
  let n ← arrs (Rca.length o)
  aboutToModify c o (n + 1)
  shiftRight c o pos 1

/-- `insert(pos, const item&)` (`ReferenceCountedArray.h` 1173-1183) with an item outside the buffer. -/
def insertItem (c : Conf) (o pos h : Nat) : P c Unit := do
  makeRoom c o pos
  assignCells c o pos [h]
  arrs (Rca.bumpLength o 1)

/-- `insert(pos, item&&)` (`ReferenceCountedArray.h` 1193-1203) with an item outside the buffer. -/
def insertItemMove (c : Conf) (o pos h : Nat) : P c Unit := do
  makeRoom c o pos
  assignMoveCell c o pos h
  arrs (Rca.bumpLength o 1)

/-- `append(const item&)`, `push_back`, `operator<<` (`ReferenceCountedArray.h` 989-991, `Array.h` 92-96). -/
def append (c : Conf) (o h : Nat) : P c Unit := do
  let n ← arrs (Rca.length o)
  insertItem c o n h

/-- `append(item&&)`, `push_back`, `operator<<` (`ReferenceCountedArray.h` 990-992, `Array.h` 97-101). -/
def appendMove (c : Conf) (o h : Nat) : P c Unit := do
  let n ← arrs (Rca.length o)
  insertItemMove c o n h

/-- The common tail of the array inserts (`ReferenceCountedArray.h` 1077-1081, 1102-1106). -/
def insertBody (c : Conf) (o pos r slen : Nat) : P c Unit := do
  let n ← arrs (Rca.length o)
  aboutToModify c o (n + slen)
  shiftRight c o pos slen
  copyRange c r slen o pos
  arrs (Rca.bumpLength o slen)

/-- `insert(pos, const rca&, n)` (`ReferenceCountedArray.h` 1061-1082). -/
def insertArrN (c : Conf) (o pos r n : Nat) : P c Unit := do
  if n = 0 then return ()
  else
    arrs (Rca.validatePos o pos)
    let slen ← arrs (Rca.length r)
    let len ← arrs (Rca.length o)
    if pos = 0 ∧ slen > len ∧ n = slen then copyAssign c o r
    else insertBody c o pos r (min n slen)

/-- `insert(pos, const rca&)` (`ReferenceCountedArray.h` 1090-1107). -/
def insertArr (c : Conf) (o pos r : Nat) : P c Unit := do
  arrs (Rca.validatePos o pos)
  let slen ← arrs (Rca.length r)
  let len ← arrs (Rca.length o)
  if pos = 0 ∧ slen > len then copyAssign c o r
  else insertBody c o pos r slen

/-- `insert(pos, rca&&, n)` (`ReferenceCountedArray.h` 1116-1137); the elements are `const`, hence copied. -/
def insertArrMoveN (c : Conf) (o pos r n : Nat) : P c Unit := do
  if n = 0 then return ()
  else
    arrs (Rca.validatePos o pos)
    let slen ← arrs (Rca.length r)
    let len ← arrs (Rca.length o)
    if pos = 0 ∧ slen > len ∧ n = slen then moveAssign c o r
    else insertBody c o pos r (min n slen)

/-- `insert(pos, rca&&)` (`ReferenceCountedArray.h` 1145-1162). -/
def insertArrMove (c : Conf) (o pos r : Nat) : P c Unit := do
  arrs (Rca.validatePos o pos)
  let slen ← arrs (Rca.length r)
  let len ← arrs (Rca.length o)
  if pos = 0 ∧ slen > len then moveAssign c o r
  else insertBody c o pos r slen

/-- `append(const rca&, n)` (`ReferenceCountedArray.h` 1022-1024), also `operator+=`. -/
def appendArr (c : Conf) (o r n : Nat) : P c Unit := do
  let len ← arrs (Rca.length o)
  insertArrN c o len r n

/-- `append(rca&&, n)` (`ReferenceCountedArray.h` 1025-1027). -/
def appendArrMove (c : Conf) (o r n : Nat) : P c Unit := do
  let len ← arrs (Rca.length o)
  insertArrMoveN c o len r n

/-- `replace(pos, const item&)` (`ReferenceCountedArray.h` 1212-1218). -/
def replaceItem (c : Conf) (o pos h : Nat) : P c Unit := do
  arrs (Rca.validatePos o pos)
  getOwnCopy c o
  assignCells c o pos [h]

/-- `replace(pos, item&&)` (`ReferenceCountedArray.h` 1227-1233). -/
def replaceItemMove (c : Conf) (o pos h : Nat) : P c Unit := do
  arrs (Rca.validatePos o pos)
  getOwnCopy c o
  assignMoveCell c o pos h

/-- The common tail of the array replaces (`ReferenceCountedArray.h` 1254-1263). -/
def replaceBody (c : Conf) (o pos r slen : Nat) : P c Unit := do
  let len ← arrs (Rca.length o)
  let newlen := if pos + slen < len then len else pos + slen
  aboutToModify c o newlen
  copyRange c r slen o pos
  putLength c o newlen

/-- `replace(pos, const rca&, n = npos)` (`ReferenceCountedArray.h` 1241-1265). -/
def replaceArr (c : Conf) (o pos r n : Nat) : P c Unit := do
  if n = 0 then return ()
  else
    arrs (Rca.validatePos o pos)
    let slen ← arrs (Rca.length r)
    let len ← arrs (Rca.length o)
    if pos = 0 ∧ slen > len ∧ (n = npos ∨ n = slen) then copyAssign c o r
    else replaceBody c o pos r (if n = npos ∨ n > slen then slen else n)

/-- `replace(pos, rca&&, n = npos)` (`ReferenceCountedArray.h` 1273-1297). -/
def replaceArrMove (c : Conf) (o pos r n : Nat) : P c Unit := do
  if n = 0 then return ()
  else
    arrs (Rca.validatePos o pos)
    let slen ← arrs (Rca.length r)
    let len ← arrs (Rca.length o)
    if pos = 0 ∧ slen > len ∧ (n = npos ∨ n = slen) then moveAssign c o r
    else replaceBody c o pos r (if n = npos ∨ n > slen then slen else n)

/-! ## Taking elements out -/

/-- The element that is returned: copied out of shared storage, moved out otherwise (`Array.h` 111, 130). -/
def takeCell (c : Conf) (o i : Nat) : P c Nat := do
  let h ← cell c o i
  if ← arrs (Rca.isShared o) then newCopy c h else newMove c h

/-- `Array::shift` (`Array.h` 107-116). -/
def shift (c : Conf) (o : Nat) : P c Nat := do
  let t ← takeCell c o 0
  let ob ← arrs (getObj o)
  arrs (putObj o { ob with offset := ob.offset + 1, sublen := sub64 ob.sublen 1, hash := 0 })
  return t

/-- `Array::pop` (`Array.h` 128-133). -/
def pop (c : Conf) (o : Nat) : P c Nat := do
  let ob ← arrs (getObj o)
  let t ← takeCell c o (sub64 ob.sublen 1)
  arrs (Rca.popBack o)
  return t

/-! ## Arrays as elements -/

/-- `Array<T>` as an element class: its constructors, assignments and destructor (`Array.h` 46-83,
`ReferenceCountedArray.h` 429-460, 527-560). -/
def arrayOf (c : Conf) : Class where
  Mem := World c
  init := {}
  new := arrs Rca.ctor
  newCopy h := arrs (Rca.copyCtor h)
  newMove h := arrs (Rca.moveCtor c.hnd h)
  assign d s := copyAssign c d s
  assignMove d s := moveAssign c d s
  delete h := destroy c h

/-- The parameters of a program with strings and nested arrays: for each depth the growth rule and the allocator;
the C library. -/
structure Params where
  str : Cfg UInt8
  libc : Str.Libc
  scale : Nat → Nat → Nat
  allocOk : Nat → Nat → Nat → Bool

/-- The class at depth `n`: `String`, `Array<String>`, `Array<Array<String>>`, … -/
def tower (p : Params) : Nat → Class
  | 0 => stringClass p.str
  | n + 1 => arrayOf { elt := tower p n, scale := p.scale n, allocOk := p.allocOk n, resetMoved := p.str.resetMoved }

/-- The arrays of elements of depth `n`. -/
def level (p : Params) (n : Nat) : Conf :=
  { elt := tower p n, scale := p.scale n, allocOk := p.allocOk n, resetMoved := p.str.resetMoved }

end Bdlib.Deep
