import Verif.Rca.History

/-!
# The counter of the code is an `int`

In `Rca/Model.lean` reference counts are integers without bounds.  In the code they are `std::atomic<int>`
(`ReferenceCountedArray.h` 59), whose `++` and `--` wrap around (no undefined behaviour, C++ [atomics.types.int]).  This file is the
same model with such a counter: `incRef` and `decRef` wrap, and every function that calls them, directly or not, is defined again
with the same text.  `int` is taken to have 32 bits.
-/

namespace Bdlib.Rca32
open Bdlib Bdlib.Spec Bdlib.Rca

variable {T : Type}

/-- The values of an `int`: two's complement, 32 bits (`std::atomic<int> refs`, `ReferenceCountedArray.h` 59). -/
def wrap32 (n : Int) : Int := (n + 2147483648) % 4294967296 - 2147483648

/-- `incRef` (`ReferenceCountedArray.h` 269): `++Ref->refs`. -/
def incRef (r : Option Nat) : M T Unit :=
  match r with
  | none => return ()
  | some a => do let b ← getBlk a; putBlk a { b with refs := wrap32 (b.refs + 1) }

/-- `decRef` (`ReferenceCountedArray.h` 274): `--Ref->refs`. -/
def decRef (r : Option Nat) : M T Unit :=
  match r with
  | none => return ()
  | some a => do let b ← getBlk a; putBlk a { b with refs := wrap32 (b.refs - 1) }

/-- `doDetach` (`ReferenceCountedArray.h` 259-265). -/
def doDetach (o : Nat) : M T Unit := do
  let ob ← getObj o
  decRef ob.ref
  putObj o {}

/-- `Detach`, and `clear` which only calls it (`ReferenceCountedArray.h` 346-354, 617). -/
def clear (o : Nat) : M T Unit := do
  if ← isShared o then doDetach o
  else
    let ob ← getObj o
    putObj o { ob with offset := 0, sublen := 0, hash := 0 }

/-- `CheckDeallocRef` (`ReferenceCountedArray.h` 363-368). -/
def checkDeallocRef (o : Nat) : M T Unit := do
  let ob ← getObj o
  match ob.ref with
  | none => return ()
  | some a =>
    decRef (some a)
    let b ← getBlk a
    if b.refs < 1 then
      freeBuf b.cells
      fun s => .ok () (s.setBlk a none)
      putObj o { ob with ref := none }
    else return ()

/-- `COW` (`ReferenceCountedArray.h` 383-392).  The old buffer is read after the reference to
it was given up. -/
def cow (cfg : Cfg T) (o n : Nat) : M T Unit := do
  let ob ← getObj o
  doDetach o
  reserve cfg o n cfg.scale
  let len := min ob.sublen n
  let ob' ← getObj o
  putObj o { ob' with sublen := len }
  if len = 0 then return ()
  match ob.ref with
  | none => M.undef
  | some a =>
    let b ← getBlk a
    if ob.offset + len ≤ b.cells.length then
      writeRange o 0 (window b.cells ob.offset len)
    else M.undef

/-- `AboutToModify` (`ReferenceCountedArray.h` 405-413). -/
def aboutToModify (cfg : Cfg T) (o n : Nat) : M T Unit := do
  let ob ← getObj o
  putObj o { ob with hash := 0 }
  if ← isShared o then cow cfg o n else reserve cfg o n cfg.scale

/-- `AboutToModify(n)` with a size chosen by the user (`ReferenceCountedArray.h` 405-413 called from
631-660).  For a `String` and `n == npos` the addition in `String::reserve` (`String.h` 139) wraps, so
nothing is reserved: the second branch is `AboutToModify(npos)` with `reserve(0)` for `reserve(npos)`. -/
def growTo (cfg : Cfg T) (o n : Nat) : M T Unit :=
  if ¬ (cfg.nul.isSome ∧ n = npos) then aboutToModify cfg o n
  else do
    let ob ← getObj o
    putObj o { ob with hash := 0 }
    if ← isShared o then
      doDetach o
      reserve cfg o 0 cfg.scale
      let ob' ← getObj o
      putObj o { ob' with sublen := ob.sublen }
      if ob.sublen = 0 then pure ()
      else match ob.ref with
        | none => M.undef
        | some a =>
          let b ← getBlk a
          if ob.offset + ob.sublen ≤ b.cells.length then writeRange o 0 (window b.cells ob.offset ob.sublen)
          else M.undef
    else reserve cfg o 0 cfg.scale

/-- `getOwnCopy` (`ReferenceCountedArray.h` 399), the effect of `begin()`, `mdata()`, `end()`,
`rbegin()`, `rend()` and `Cref::mget()` (707-774, 893-896). -/
def getOwnCopy (cfg : Cfg T) (o : Nat) : M T Unit := do
  let n ← length o
  aboutToModify cfg o n

/-- Destructor: `~String` (`String.h` 148-153) wipes the last reference's buffer, then
`~ReferenceCountedArray` (`ReferenceCountedArray.h` 429). -/
def destroy (cfg : Cfg T) (o : Nat) : M T Unit := do
  dtorBody cfg o
  checkDeallocRef o
  dropObj o

/-- Copy constructor (`ReferenceCountedArray.h` 434-440). -/
def copyCtor (r : Nat) : M T Nat := do
  let rb ← getObj r
  let o ← newObj rb
  incRef rb.ref
  return o

/-- Copy assignment (`ReferenceCountedArray.h` 527-536). -/
def copyAssign (o r : Nat) : M T Unit := do
  let rb ← getObj r
  incRef rb.ref
  let ob ← getObj o
  putObj o { ob with offset := rb.offset, sublen := rb.sublen, hash := rb.hash }
  checkDeallocRef o
  let rb' ← getObj r
  let ob' ← getObj o
  putObj o { ob' with ref := rb'.ref }

/-- Move assignment (`ReferenceCountedArray.h` 542-560). -/
def moveAssign (cfg : Cfg T) (o r : Nat) : M T Unit := do
  if o = r then return ()
  else
    checkDeallocRef o
    let rb ← getObj r
    putObj o rb
    putObj r (movedFrom cfg rb)

/-- `resize(len)` (`ReferenceCountedArray.h` 631-638). -/
def resize (cfg : Cfg T) (o len : Nat) : M T Unit := do
  let n ← length o
  if len < n then setLength o len
  else
    growTo cfg o len
    let ob ← getObj o
    putObj o { ob with sublen := len }

/-- `resize(len, value)` (`ReferenceCountedArray.h` 645-660); `length()` in the fill is the length
before `sublen` is updated. -/
def resizeFill (cfg : Cfg T) (o len : Nat) (v : T) : M T Unit := do
  let n ← length o
  if len < n then setLength o len
  else
    growTo cfg o len
    let ob ← getObj o
    writeRange o ob.sublen (List.replicate (len - ob.sublen) v)
    let ob ← getObj o
    putObj o { ob with sublen := len }

/-- Size constructor (`ReferenceCountedArray.h` 462-468). -/
def sizeCtor (cfg : Cfg T) (n : Nat) : M T Nat := do
  let o ← newObj {}
  (if n ≠ 0 then reservePub cfg.base o n else pure ()).onThrow (destroy cfg.base o)
  return o

/-- Fill constructor (`ReferenceCountedArray.h` 477-481). -/
def fillCtor (cfg : Cfg T) (n : Nat) (v : T) : M T Nat := do
  let o ← newObj {}
  (resizeFill cfg.base o n v).onThrow (destroy cfg.base o)
  return o

/-- Constructor from an initializer list or from (pointer, length)
(`ReferenceCountedArray.h` 487-490, 500-503). -/
def listCtor (cfg : Cfg T) (xs : List T) : M T Nat := do
  let o ← sizeCtor cfg xs.length
  (do writeRange o 0 xs
      let ob ← getObj o
      putObj o { ob with sublen := xs.length }).onThrow (destroy cfg.base o)
  return o

/-- `String(const char*, size_t)` (`String.h` 117-122) and `String(const std::string&)` (92). -/
def strCtor (cfg : Cfg T) (nul : T) (xs : List T) : M T Nat := do
  let o ← sizeCtor cfg (xs.length + 1)
  writeRange o 0 xs
  writeRange o xs.length [nul]
  let ob ← getObj o
  putObj o { ob with sublen := xs.length }
  return o

/-- `String(const char*)` (`String.h` 100-107) on a C string with bytes `xs` (no NUL among them,
terminated). -/
def cstrCtor (cfg : Cfg T) (nul : T) (xs : List T) : M T Nat := do
  let o ← newObj {}
  if xs.isEmpty then return o
  else
    let ob ← getObj o
    putObj o { ob with sublen := xs.length }
    (rcaReserve cfg o (xs.length + 1) id).onThrow (destroy cfg o)
    writeRange o 0 (xs ++ [nul])
    return o

/-- `String(char)` (`String.h` 131-135). -/
def charCtor (cfg : Cfg T) (nul c : T) : M T Nat := do
  let o ← newObj {}
  (rcaReserve cfg o 2 id).onThrow (destroy cfg o)
  writeRange o 0 [c]
  let ob ← getObj o
  putObj o { ob with sublen := ob.sublen + 1 }
  writeRange o 1 [nul]
  return o

/-- `operator=(initializer_list)` (`ReferenceCountedArray.h` 577-583). -/
def assignList (cfg : Cfg T) (o : Nat) (xs : List T) : M T Unit := do
  clear o
  reserve cfg o xs.length id
  writeRange o 0 xs
  let ob ← getObj o
  putObj o { ob with sublen := xs.length }

/-- `String::operator=(std::string)` (`String.h` 164-171). -/
def assignStd (cfg : Cfg T) (nul : T) (o : Nat) (xs : List T) : M T Unit := do
  clear o
  rcaReserve cfg o (xs.length + 1) id
  let ob ← getObj o
  putObj o { ob with sublen := xs.length }
  writeRange o 0 (xs ++ [nul])

/-- `String::operator=(const char*)` (`String.h` 159-162): a temporary is move-assigned and
destroyed. -/
def assignCstr (cfg : Cfg T) (nul : T) (o : Nat) (xs : List T) : M T Unit := do
  let t ← strCtor cfg nul xs
  moveAssign cfg o t
  destroy cfg t

/-- `write`, `Cref::operator=` (`ReferenceCountedArray.h` 844-851, 908-915). -/
def write (cfg : Cfg T) (o i : Nat) (v : T) : M T Unit := do
  getOwnCopy cfg o
  writeRange o i [v]

/-- `substring`/`subarray`/`Slice::operator T` (`String.h` 323-327, `Array.h` 222-226,
`ReferenceCountedArray.h` 173-177): copy, then slice the copy. -/
def substring (r : Nat) (start len : Int) : M T Nat := do
  let o ← copyCtor r
  slice o start len
  return o

/-- `insert(pos, item)` (`ReferenceCountedArray.h` 1173-1203) with an item outside the buffer. -/
def insertItem (cfg : Cfg T) (o pos : Nat) (v : T) : M T Unit := do
  validatePos o pos
  let n ← length o
  aboutToModify cfg o (n + 1)
  shiftRight o pos 1
  writeRange o pos [v]
  bumpLength o 1

/-- `append(item)`, `push_back`, `operator+=(char)`, `Array::operator<<`
(`ReferenceCountedArray.h` 989-992, `String.h` 428-431, `Array.h` 92-101). -/
def append (cfg : Cfg T) (o : Nat) (v : T) : M T Unit := do
  let n ← length o
  insertItem cfg o n v

/-- The common tail of the array inserts (`ReferenceCountedArray.h` 1075-1081, 1102-1106). -/
def insertBody (cfg : Cfg T) (o pos r slen : Nat) : M T Unit := do
  let n ← length o
  aboutToModify cfg o (n + slen)
  shiftRight o pos slen
  copyRange r slen o pos
  bumpLength o slen

/-- `insert(pos, const rca&, n)` (`ReferenceCountedArray.h` 1061-1082). -/
def insertRcaN (cfg : Cfg T) (o pos r n : Nat) : M T Unit := do
  if n = 0 then return ()
  else
    validatePos o pos
    let slen ← length r
    let len ← length o
    if pos = 0 ∧ slen > len ∧ n = slen then copyAssign o r
    else insertBody cfg o pos r (min n slen)

/-- `insert(pos, const rca&)` (`ReferenceCountedArray.h` 1090-1107). -/
def insertRca (cfg : Cfg T) (o pos r : Nat) : M T Unit := do
  validatePos o pos
  let slen ← length r
  let len ← length o
  if pos = 0 ∧ slen > len then copyAssign o r
  else insertBody cfg o pos r slen

/-- `insert(pos, rca&&, n)` (`ReferenceCountedArray.h` 1116-1137).  `std::move` over const
iterators copies. -/
def insertMoveN (cfg : Cfg T) (o pos r n : Nat) : M T Unit := do
  if n = 0 then return ()
  else
    validatePos o pos
    let slen ← length r
    let len ← length o
    if pos = 0 ∧ slen > len ∧ n = slen then moveAssign cfg o r
    else insertBody cfg o pos r (min n slen)

/-- `insert(pos, rca&&)` (`ReferenceCountedArray.h` 1145-1162). -/
def insertMove (cfg : Cfg T) (o pos r : Nat) : M T Unit := do
  validatePos o pos
  let slen ← length r
  let len ← length o
  if pos = 0 ∧ slen > len then moveAssign cfg o r
  else insertBody cfg o pos r slen

/-- `append(const rca&, n = npos)` (`ReferenceCountedArray.h` 1022-1024), also `operator+=`. -/
def appendRca (cfg : Cfg T) (o r n : Nat) : M T Unit := do
  let len ← length o
  insertRcaN cfg o len r n

/-- `append(rca&&, n = npos)` (`ReferenceCountedArray.h` 1025-1027). -/
def appendMove (cfg : Cfg T) (o r n : Nat) : M T Unit := do
  let len ← length o
  insertMoveN cfg o len r n

/-- One step of the iterator-range insert: `insert(std::next(begin(), index++), *first++)`
(`ReferenceCountedArray.h` 1029-1033, 1048-1049): `begin()` for the argument, then the item
insert, then `begin()` for the result. -/
def insertIter (cfg : Cfg T) (o index : Nat) (v : T) : M T Unit := do
  getOwnCopy cfg o
  insertItem cfg o index v
  getOwnCopy cfg o

/-- The loop of the iterator-range insert. -/
def insertLoop (cfg : Cfg T) (o index : Nat) : List T → M T Unit
  | [] => return ()
  | x :: xs => do
    insertIter cfg o index x
    insertLoop cfg o (index + 1) xs

/-- `insert(const_iterator, first, last)` (`ReferenceCountedArray.h` 1041-1052), values from outside. -/
def insertRange (cfg : Cfg T) (o index : Nat) (xs : List T) : M T Unit := do
  let n ← length o
  aboutToModify cfg o (n + xs.length)
  insertLoop cfg o index xs
  getOwnCopy cfg o

/-- Iterator-range constructor (`ReferenceCountedArray.h` 563-571). -/
def rangeCtor (cfg : Cfg T) (xs : List T) : M T Nat := do
  let o ← sizeCtor cfg xs.length
  (insertRange cfg.base o 0 xs).onThrow (destroy cfg.base o)
  return o

/-- `String::insert(pos, const char*, n)` (`String.cpp` 117-130) with the `slen` bytes `xs` it
will copy; `n == 0` corresponds to `early = true`. -/
def insertC (cfg : Cfg T) (o pos : Nat) (xs : List T) (early : Bool) : M T Unit := do
  if early then return ()
  else
    validatePos o pos
    let n ← length o
    aboutToModify cfg o (n + xs.length)
    shiftRight o pos xs.length
    bumpLength o xs.length
    writeRange o pos xs

/-- `replace(pos, item)` (`ReferenceCountedArray.h` 1212-1233). -/
def replaceItem (cfg : Cfg T) (o pos : Nat) (v : T) : M T Unit := do
  validatePos o pos
  getOwnCopy cfg o
  writeRange o pos [v]

/-- The common tail of the array replaces (`ReferenceCountedArray.h` 1254-1263). -/
def replaceBody (cfg : Cfg T) (o pos r slen : Nat) : M T Unit := do
  let len ← length o
  let newlen := if pos + slen < len then len else pos + slen
  aboutToModify cfg o newlen
  copyRange r slen o pos
  let ob ← getObj o
  putObj o { ob with sublen := newlen }

/-- `replace(pos, const rca&, n = npos)` (`ReferenceCountedArray.h` 1241-1265). -/
def replaceRca (cfg : Cfg T) (o pos r n : Nat) : M T Unit := do
  if n = 0 then return ()
  else
    validatePos o pos
    let slen ← length r
    let len ← length o
    if pos = 0 ∧ slen > len ∧ (n = npos ∨ n = slen) then copyAssign o r
    else replaceBody cfg o pos r (if n = npos ∨ n > slen then slen else n)

/-- `replace(pos, rca&&, n = npos)` (`ReferenceCountedArray.h` 1273-1297). -/
def replaceMove (cfg : Cfg T) (o pos r n : Nat) : M T Unit := do
  if n = 0 then return ()
  else
    validatePos o pos
    let slen ← length r
    let len ← length o
    if pos = 0 ∧ slen > len ∧ (n = npos ∨ n = slen) then moveAssign cfg o r
    else replaceBody cfg o pos r (if n = npos ∨ n > slen then slen else n)

/-- `String::replace(pos, const char*, n)` (`String.cpp` 138-152); `xs` are the `slen` bytes. -/
def replaceC (cfg : Cfg T) (o pos : Nat) (xs : List T) (early : Bool) : M T Unit := do
  if early then return ()
  else
    validatePos o pos
    let len ← length o
    let newlen := if pos + xs.length < len then len else pos + xs.length
    aboutToModify cfg o newlen
    let ob ← getObj o
    putObj o { ob with sublen := newlen }
    writeRange o pos xs

/-- `String::c_str` (`String.h` 232-244): the bytes from the returned pointer up to and including
position `length()`; the empty string returns a pointer to the literal `""`. -/
def cStr [DecidableEq T] (cfg : Cfg T) (nul : T) (o : Nat) : M T (List T) := do
  let ob ← getObj o
  if ob.sublen = 0 then return [nul]
  else
    let t ← readRange o ob.sublen 1
    if t ≠ [nul] then
      aboutToModify cfg o (ob.sublen + 1)
      writeRange o ob.sublen [nul]
      readRange o 0 (ob.sublen + 1)
    else readRange o 0 (ob.sublen + 1)

/-- The modelled code behind each call (as `Rca.run`). -/
def run [DecidableEq T] (cfg : Cfg T) : Op T → M T (Out T)
  | .ctor => mapOut ctor .obj
  | .copyCtor r => mapOut (copyCtor r) .obj
  | .moveCtor r => mapOut (moveCtor cfg r) .obj
  | .sizeCtor n => mapOut (sizeCtor cfg n) .obj
  | .fillCtor n x => mapOut (fillCtor cfg n x) .obj
  | .listCtor xs => mapOut (listCtor cfg xs) .obj
  | .rangeCtor xs => mapOut (rangeCtor cfg xs) .obj
  | .strCtor xs => match cfg.nul with
    | some c => mapOut (strCtor cfg c xs) .obj
    | none => M.undef
  | .cstrCtor xs => match cfg.nul with
    | some c => mapOut (cstrCtor cfg c xs) .obj
    | none => M.undef
  | .charCtor x => match cfg.nul with
    | some c => mapOut (charCtor cfg c x) .obj
    | none => M.undef
  | .substring r start len => mapOut (substring r start len) .obj
  | .destroy o => mapOut (destroy cfg o) fun _ => .unit
  | .copyAssign o r => mapOut (copyAssign o r) fun _ => .unit
  | .moveAssign o r => mapOut (moveAssign cfg o r) fun _ => .unit
  | .swap o r => mapOut (swap o r) fun _ => .unit
  | .clear o => mapOut (clear o) fun _ => .unit
  | .assignList o xs => mapOut (assignList cfg o xs) fun _ => .unit
  | .assignStd o xs => match cfg.nul with
    | some c => mapOut (assignStd cfg c o xs) fun _ => .unit
    | none => M.undef
  | .assignCstr o xs => match cfg.nul with
    | some c => mapOut (assignCstr cfg c o xs) fun _ => .unit
    | none => M.undef
  | .length o => mapOut (length o) .num
  | .read o i => mapOut (read o i) .elem
  | .at o i => mapOut (at' o i) .elem
  | .hash o => mapOut (hash cfg o) fun h => .hash h.toNat
  | .cStr o => match cfg.nul with
    | some c => mapOut (cStr cfg c o) .bytes
    | none => M.undef
  | .begin o => mapOut (getOwnCopy cfg o) fun _ => .unit
  | .reserve o n => mapOut (reservePub cfg o n) fun _ => .unit
  | .resize o n => mapOut (resize cfg o n) fun _ => .unit
  | .resizeFill o n x => mapOut (resizeFill cfg o n x) fun _ => .unit
  | .write o i x => mapOut (write cfg o i x) fun _ => .unit
  | .slice o start len => mapOut (slice o start len) fun _ => .unit
  | .append o x => mapOut (append cfg o x) fun _ => .unit
  | .appendRca o r n => mapOut (appendRca cfg o r n) fun _ => .unit
  | .appendMove o r n => mapOut (appendMove cfg o r n) fun _ => .unit
  | .insertItem o pos x => mapOut (insertItem cfg o pos x) fun _ => .unit
  | .insertRca o pos r => mapOut (insertRca cfg o pos r) fun _ => .unit
  | .insertRcaN o pos r n => mapOut (insertRcaN cfg o pos r n) fun _ => .unit
  | .insertMove o pos r => mapOut (insertMove cfg o pos r) fun _ => .unit
  | .insertMoveN o pos r n => mapOut (insertMoveN cfg o pos r n) fun _ => .unit
  | .insertRange o pos xs => mapOut (insertRange cfg o pos xs) fun _ => .unit
  | .insertC o pos xs => mapOut (insertC cfg o pos xs false) fun _ => .unit
  | .replaceItem o pos x => mapOut (replaceItem cfg o pos x) fun _ => .unit
  | .replaceRca o pos r n => mapOut (replaceRca cfg o pos r n) fun _ => .unit
  | .replaceMove o pos r n => mapOut (replaceMove cfg o pos r n) fun _ => .unit
  | .replaceC o pos xs => mapOut (replaceC cfg o pos xs false) fun _ => .unit
  | .popBack o => mapOut (popBack o) fun _ => .unit
  | .dropFront o n => mapOut (dropFront o n) fun _ => .unit
  | .dropBack o n => mapOut (dropBack o n) fun _ => .unit
  | .arrDropFront o n => mapOut (arrDropFront o n) fun _ => .unit
  | .arrDropBack o n => mapOut (arrDropBack o n) fun _ => .unit
  | .shift o => mapOut (shift cfg o) .elem
  | .pop o => mapOut (pop cfg o) .elem

end Bdlib.Rca32
