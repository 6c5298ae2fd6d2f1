/-!
# Model of arrays whose elements may throw

`Array<T>` for a class `T` of the program (`std::is_class<T>`), whose constructors and assignments may throw.  A
buffer has cells, and in each an element lives or not; a cell without one cannot be assigned, moved from or
destroyed.  The elements are values `V`; what moving or a failed assignment leaves behind is up to the class.
Requests for memory may fail, too.
-/

namespace Bdlib.Elems

/-- What may throw: memory, `T()`, copying an element, moving one (constructors and assignments). -/
inductive Act
  | alloc | make | copy | move
  deriving DecidableEq

/-- Does the action at this time throw. -/
abbrev Faults := Nat → Act → Bool

/-- A class: `T()`; what an element that was moved from is; what an assignment of `new` over `old` that throws leaves
there; and what a move that throws leaves of its source. -/
structure Ty (V : Type) where
  dflt : V
  moved : V → V
  torn : V → V → V
  spoilt : V → V

/-- An `ArrayRef` with its buffer (`ReferenceCountedArray.h` 50-62): no cells is no buffer. -/
structure Blk (V : Type) where
  cells : List (Option V)
  refs : Nat

/-- An Array (`ReferenceCountedArray.h` 312-338). -/
structure Ob where
  ref : Option Nat
  offset : Nat
  sublen : Nat

/-- Memory, the time, and the number of buffers allocated and not released. -/
structure W (V : Type) where
  blks : List (Option (Blk V))
  objs : List (Option Ob)
  clock : Nat
  out : Nat

def W.empty {V : Type} : W V := ⟨[], [], 0, 0⟩

/-- What is thrown: `std::out_of_range`, or what an action threw. -/
inductive Exc
  | range | fault
  deriving DecidableEq

inductive Res (V α : Type)
  | ret (a : α) (w : W V)
  | exc (e : Exc) (w : W V)
  | ub

def M (V α : Type) := W V → Res V α

variable {V α β : Type}

def M.bind (m : M V α) (f : α → M V β) : M V β := fun w =>
  match m w with
  | .ret a w => f a w
  | .exc e w => .exc e w
  | .ub => .ub

instance : Monad (M V) where
  pure a := fun w => .ret a w
  bind := M.bind

def undef : M V α := fun _ => .ub
def raise (e : Exc) : M V α := fun w => .exc e w

/-- What a destructor does when a constructor throws. -/
def onThrow (m : M V α) (h : M V Unit) : M V α := fun w =>
  match m w with
  | .exc e w => match h w with
    | .ret _ w => .exc e w
    | .exc _ _ => .ub
    | .ub => .ub
  | r => r

/-- An action that throws or not. -/
def act (F : Faults) (a : Act) : M V Unit := fun w =>
  if F w.clock a then .exc .fault { w with clock := w.clock + 1 } else .ret () { w with clock := w.clock + 1 }

def obj (o : Nat) : M V Ob := fun w => match w.objs[o]? with
  | some (some ob) => .ret ob w
  | _ => .ub

def setObj (o : Nat) (ob : Ob) : M V Unit := fun w => .ret () { w with objs := w.objs.set o (some ob) }

def blk (r : Nat) : M V (Blk V) := fun w => match w.blks[r]? with
  | some (some b) => .ret b w
  | _ => .ub

def setBlk (r : Nat) (b : Blk V) : M V Unit := fun w => .ret () { w with blks := w.blks.set r (some b) }

/-! ## Elements -/

/-- The elements in cells `i`, …, of a block: undefined if there is none in one of them. -/
def readCells (cells : List (Option V)) (i : Nat) : Nat → Option (List V)
  | 0 => some []
  | n + 1 => match cells[i]? with
    | some (some v) => (readCells cells (i + 1) n).map (v :: ·)
    | _ => none

/-- Copy assignment of one element. -/
def assignCell (F : Faults) (E : Ty V) (r i : Nat) (v : V) : M V Unit := fun w =>
  match w.blks[r]? with
  | some (some b) => match b.cells[i]? with
    | some (some old) =>
      if F w.clock .copy then
        .exc .fault { w with clock := w.clock + 1, blks := w.blks.set r (some ⟨b.cells.set i (some (E.torn old v)), b.refs⟩) }
      else .ret () { w with clock := w.clock + 1, blks := w.blks.set r (some ⟨b.cells.set i (some v), b.refs⟩) }
    | _ => .ub
  | _ => .ub

/-- `std::copy` of these elements, which are in another buffer. -/
def assignCells (F : Faults) (E : Ty V) (r : Nat) : (i : Nat) → List V → M V Unit
  | _, [] => pure ()
  | i, v :: vs => do
    assignCell F E r i v
    assignCells F E r (i + 1) vs

/-- Move assignment of the element in cell `i` to that in another cell `j`. -/
def moveCell (F : Faults) (E : Ty V) (r i j : Nat) : M V Unit := fun w =>
  match w.blks[r]? with
  | some (some b) => match b.cells[i]?, b.cells[j]? with
    | some (some v), some (some old) =>
      if F w.clock .move then
        .exc .fault { w with clock := w.clock + 1, blks := w.blks.set r (some ⟨(b.cells.set i (some (E.spoilt v))).set j (some (E.torn old v)), b.refs⟩) }
      else
        .ret () { w with clock := w.clock + 1, blks := w.blks.set r (some ⟨(b.cells.set i (some (E.moved v))).set j (some v), b.refs⟩) }
    | _, _ => .ub
  | _ => .ub

/-- `std::move(first, last, out)` within a buffer, to lower cells. -/
def moveDown (F : Faults) (E : Ty V) (r : Nat) : (src dst : Nat) → Nat → M V Unit
  | _, _, 0 => pure ()
  | src, dst, n + 1 => do
    moveCell F E r src dst
    moveDown F E r (src + 1) (dst + 1) n

/-- Copy assignment of the element in cell `i` to that in cell `j`; assigning an element to itself leaves its value. -/
def copyCell (F : Faults) (E : Ty V) (r i j : Nat) : M V Unit := fun w =>
  match w.blks[r]? with
  | some (some b) => match b.cells[i]?, b.cells[j]? with
    | some (some v), some (some old) =>
      if F w.clock .copy then
        .exc .fault { w with clock := w.clock + 1, blks := w.blks.set r (some ⟨b.cells.set j (some (E.torn old v)), b.refs⟩) }
      else .ret () { w with clock := w.clock + 1, blks := w.blks.set r (some ⟨b.cells.set j (some v), b.refs⟩) }
    | _, _ => .ub
  | _ => .ub

/-- `std::move_backward` of `n` elements by `k` cells, the last element first.  The source iterators are pointers to `const`, so the
elements are copied.  `k = 0`, which the standard excludes, is taken as assigning each element to itself. -/
def copyUp (F : Faults) (E : Ty V) (r first k : Nat) : Nat → M V Unit
  | 0 => pure ()
  | n + 1 => do
    copyCell F E r (first + n) (first + n + k)
    copyUp F E r first k n

/-- Move construction from the element in cell `i`. -/
def takeCell (F : Faults) (E : Ty V) (r i : Nat) : M V V := fun w =>
  match w.blks[r]? with
  | some (some b) => match b.cells[i]? with
    | some (some v) =>
      if F w.clock .move then
        .exc .fault { w with clock := w.clock + 1, blks := w.blks.set r (some ⟨b.cells.set i (some (E.spoilt v)), b.refs⟩) }
      else .ret v { w with clock := w.clock + 1, blks := w.blks.set r (some ⟨b.cells.set i (some (E.moved v)), b.refs⟩) }
    | _ => .ub
  | _ => .ub

/-- `std::uninitialized_move_n` into a new buffer: moves the elements out of cells `i`, ….  If a move throws, the elements made
so far are destroyed; what was moved out is gone. -/
def takeCells (F : Faults) (E : Ty V) (r : Nat) : (i : Nat) → Nat → M V (List V)
  | _, 0 => pure []
  | i, n + 1 => do
    let v ← takeCell F E r i
    let vs ← takeCells F E r (i + 1) n
    return v :: vs

/-- `std::uninitialized_fill` of `n` cells in a new buffer: if a copy throws, those made so far are destroyed, and nothing of it
is left but the buffer. -/
def fillNew (F : Faults) (v : V) : Nat → M V (List V)
  | 0 => pure []
  | n + 1 => do
    act F .copy
    let vs ← fillNew F v n
    return v :: vs

/-- `std::uninitialized_fill` of cells `i`, … of a buffer in use: elements that live there are not destroyed; if a copy throws, those made so
far are, and no element is left in their cells. -/
def fillOver (F : Faults) (r : Nat) (v : V) : (i : Nat) → Nat → M V Unit
  | _, 0 => pure ()
  | i, n + 1 => do
    act F .copy
    let b ← blk r
    if i < b.cells.length then
      setBlk r { b with cells := b.cells.set i (some v) }
      onThrow (fillOver F r v (i + 1) n) do
        let b ← blk r
        setBlk r { b with cells := b.cells.set i none }
    else undef

/-- `FreeBuf` (`ReferenceCountedArray.h` 126-133): destroys the elements in all cells, then releases the buffer. -/
def freeBuf (r : Nat) : M V Unit := fun w =>
  match w.blks[r]? with
  | some (some b) =>
    if b.cells.all Option.isSome then .ret () { w with out := if b.cells.isEmpty then w.out else w.out - 1 } else .ub
  | _ => .ub

/-! ## Storage -/

/-- A buffer more. -/
def newBuf : M V Unit := fun w => .ret () { w with out := w.out + 1 }

/-- `ArrayRef::reserve` (`ReferenceCountedArray.h` 76-117) for a class: the new buffer, `T()` and its copies behind the
elements, the elements moved; then the old buffer goes.  If anything throws nobody releases the new buffer.  The
result is the new offset. -/
def arefReserve (F : Faults) (E : Ty V) (r newSize : Nat) (scale : Nat → Nat) (offset sublen : Nat) : M V Nat := do
  let b ← blk r
  if b.cells.length < newSize then
    let n := max (scale b.cells.length) newSize
    act F .alloc
    newBuf
    act F .make
    let tail ← fillNew F E.dflt (n - sublen)
    let vs ← takeCells F E r offset (if b.cells = [] then 0 else sublen)
    freeBuf r
    let b ← blk r
    setBlk r { b with cells := (vs ++ tail).map some }
    return 0
  else if b.cells.length - offset < newSize then
    moveDown F E r offset 0 sublen
    return 0
  else return offset

/-- `new ArrayRef` (`ReferenceCountedArray.h` 608-610, 61-62). -/
def newRef (F : Faults) (o : Nat) (ob : Ob) : M V Nat := fun w =>
  if F w.clock .alloc then .exc .fault { w with clock := w.clock + 1 }
  else .ret w.blks.length { w with clock := w.clock + 1, blks := w.blks ++ [some ⟨[], 1⟩], objs := w.objs.set o (some { ob with ref := some w.blks.length }) }

/-- `reserve` (`ReferenceCountedArray.h` 606-612). -/
def reserve (F : Faults) (E : Ty V) (o newSize : Nat) (scale : Nat → Nat) : M V Unit := do
  let ob ← obj o
  let r ← match ob.ref with
    | some r => pure r
    | none => newRef F o ob
  let off ← arefReserve F E r newSize scale ob.offset ob.sublen
  setObj o ⟨some r, off, ob.sublen⟩

/-- `isShared` (`ReferenceCountedArray.h` 596-598). -/
def isShared (o : Nat) : M V Bool := do
  let ob ← obj o
  match ob.ref with
  | none => return false
  | some r => return decide (1 < (← blk r).refs)

/-- `doDetach` (`ReferenceCountedArray.h` 259-265). -/
def doDetach (o : Nat) : M V Unit := do
  let ob ← obj o
  match ob.ref with
  | none => pure ()
  | some r =>
    let b ← blk r
    setBlk r { b with refs := b.refs - 1 }
  setObj o ⟨none, 0, 0⟩

/-- The elements of an object, for `std::copy` from it. -/
def elems (o : Nat) : M V (List V) := do
  let ob ← obj o
  match ob.ref with
  | none => if ob.sublen = 0 then return [] else undef
  | some r =>
    let b ← blk r
    match readCells b.cells ob.offset ob.sublen with
    | some vs => return vs
    | none => undef

/-- `Buf(pos)` and what `std::copy` writes there. -/
def assignFrom (F : Faults) (E : Ty V) (o pos : Nat) (vs : List V) : M V Unit := do
  let ob ← obj o
  match ob.ref with
  | none => if vs = [] then pure () else undef
  | some r => assignCells F E r (ob.offset + pos) vs

def setLength (o n : Nat) : M V Unit := do
  let ob ← obj o
  setObj o { ob with sublen := n }

/-- `COW` (`ReferenceCountedArray.h` 383-392): gives up the shared buffer, makes a new one, sets the length, and copies the elements
(which another array keeps alive). -/
def cow (F : Faults) (E : Ty V) (scale : Nat → Nat) (o n : Nat) : M V Unit := do
  let vs ← elems o
  doDetach o
  reserve F E o n scale
  setLength o (min vs.length n)
  assignFrom F E o 0 (vs.take (min vs.length n))

/-- `AboutToModify` (`ReferenceCountedArray.h` 405-413). -/
def aboutToModify (F : Faults) (E : Ty V) (scale : Nat → Nat) (o n : Nat) : M V Unit := do
  if ← isShared o then cow F E scale o n else reserve F E o n scale

def dropBlk (r : Nat) : M V Unit := fun w => .ret () { w with blks := w.blks.set r none }

/-- `CheckDeallocRef` (`ReferenceCountedArray.h` 363-368). -/
def checkDealloc (o : Nat) : M V Unit := do
  let ob ← obj o
  match ob.ref with
  | none => pure ()
  | some r =>
    let b ← blk r
    if b.refs ≤ 1 then do
      freeBuf r
      dropBlk r
    else setBlk r { b with refs := b.refs - 1 }

/-! ## Calls -/

/-- `validateIndex(pos - 1)` unless `pos` is 0 (`ReferenceCountedArray.h` 1091-1092 and others). -/
def validate (o pos : Nat) : M V Unit := do
  let ob ← obj o
  if pos ≠ 0 ∧ ob.sublen ≤ pos - 1 then raise .range else pure ()

def newObj (ob : Ob) : M V Nat := fun w => .ret w.objs.length { w with objs := w.objs ++ [some ob] }

/-- The default constructor (`ReferenceCountedArray.h` 431-433). -/
def ctor : M V Nat := newObj ⟨none, 0, 0⟩

def dropObj (o : Nat) : M V Unit := fun w => .ret () { w with objs := w.objs.set o none }

/-- The destructor (`ReferenceCountedArray.h` 429). -/
def destroy (o : Nat) : M V Unit := do
  checkDealloc o
  dropObj o

/-- The constructor from a list (`ReferenceCountedArray.h` 487-490, 462-468): it delegates, so the destructor runs if it throws. -/
def listCtor (F : Faults) (E : Ty V) (vs : List V) : M V Nat := do
  let o ← ctor
  onThrow (do
      if vs.length ≠ 0 then reserve F E o vs.length id
      assignFrom F E o 0 vs
      setLength o vs.length)
    (destroy o)
  return o

/-- `incRef()` (`ReferenceCountedArray.h` 269). -/
def incRef (p : Nat) : M V Ob := do
  let ob ← obj p
  match ob.ref with
  | none => pure ()
  | some r =>
    let b ← blk r
    setBlk r { b with refs := b.refs + 1 }
  return ob

/-- The copy constructor (`ReferenceCountedArray.h` 434-440). -/
def copyCtor (p : Nat) : M V Nat := do
  let ob ← incRef p
  newObj ob

/-- Copy assignment (`ReferenceCountedArray.h` 527-536). -/
def copyAssign (o p : Nat) : M V Unit := do
  let ob ← incRef p
  checkDealloc o
  setObj o ob

/-- `slice` for `start < length()` and `start + len <= length()` (`ReferenceCountedArray.h` 956-981). -/
def slice (o start len : Nat) : M V Unit := do
  let ob ← obj o
  setObj o { ob with offset := ob.offset + start, sublen := len }

/-- `clear` (`ReferenceCountedArray.h` 617, 346-354). -/
def clear (o : Nat) : M V Unit := do
  if ← isShared o then doDetach o
  else
    let ob ← obj o
    setObj o ⟨ob.ref, 0, 0⟩

/-- `pop_back` (`ReferenceCountedArray.h` 1010-1013). -/
def popBack (o : Nat) : M V Unit := do
  let ob ← obj o
  setObj o { ob with sublen := ob.sublen - 1 }

/-- `write`, which is `a[i] = v` (`ReferenceCountedArray.h` 844-847). -/
def write (F : Faults) (E : Ty V) (scale : Nat → Nat) (o i : Nat) (v : V) : M V Unit := do
  let ob ← obj o
  aboutToModify F E scale o ob.sublen
  assignFrom F E o i [v]

/-- Assigning a list (`ReferenceCountedArray.h` 577-583). -/
def assignList (F : Faults) (E : Ty V) (o : Nat) (vs : List V) : M V Unit := do
  clear o
  reserve F E o vs.length id
  assignFrom F E o 0 vs
  setLength o vs.length

/-- `std::move_backward(constBuf(pos), constBuf(length()), Buf(length() + k))`. -/
def shiftUp (F : Faults) (E : Ty V) (o pos k : Nat) : M V Unit := do
  let ob ← obj o
  match ob.ref with
  | none => if ob.sublen - pos = 0 then pure () else undef
  | some r => copyUp F E r (ob.offset + pos) k (ob.sublen - pos)

/-- `insert` of an element (`ReferenceCountedArray.h` 1173-1183). -/
def insert (F : Faults) (E : Ty V) (scale : Nat → Nat) (o pos : Nat) (v : V) : M V Unit := do
  validate o pos
  let ob ← obj o
  aboutToModify F E scale o (ob.sublen + 1)
  shiftUp F E o pos 1
  assignFrom F E o pos [v]
  setLength o (ob.sublen + 1)

/-- `append` of an element (`ReferenceCountedArray.h` 989-992). -/
def append (F : Faults) (E : Ty V) (scale : Nat → Nat) (o : Nat) (v : V) : M V Unit := do
  let ob ← obj o
  insert F E scale o ob.sublen v

/-- `insert` of another array (`ReferenceCountedArray.h` 1090-1107). -/
def insertArr (F : Faults) (E : Ty V) (scale : Nat → Nat) (o pos p : Nat) : M V Unit := do
  validate o pos
  let ob ← obj o
  let op ← obj p
  if pos = 0 ∧ op.sublen > ob.sublen then copyAssign o p
  else
    aboutToModify F E scale o (ob.sublen + op.sublen)
    shiftUp F E o pos op.sublen
    let vs ← elems p
    assignFrom F E o pos vs
    setLength o (ob.sublen + op.sublen)

/-- `replace` of an element (`ReferenceCountedArray.h` 1212-1218). -/
def replace (F : Faults) (E : Ty V) (scale : Nat → Nat) (o pos : Nat) (v : V) : M V Unit := do
  validate o pos
  write F E scale o pos v

/-- `replace` with the elements of another array (`ReferenceCountedArray.h` 1241-1265, `n = npos`). -/
def replaceArr (F : Faults) (E : Ty V) (scale : Nat → Nat) (o pos p : Nat) : M V Unit := do
  validate o pos
  let ob ← obj o
  let op ← obj p
  if pos = 0 ∧ op.sublen > ob.sublen then copyAssign o p
  else
    let newlen := if pos + op.sublen < ob.sublen then ob.sublen else pos + op.sublen
    aboutToModify F E scale o newlen
    let vs ← elems p
    assignFrom F E o pos vs
    setLength o newlen

/-- `resize(len)` (`ReferenceCountedArray.h` 631-638). -/
def resize (F : Faults) (E : Ty V) (scale : Nat → Nat) (o len : Nat) : M V Unit := do
  let ob ← obj o
  if len < ob.sublen then setLength o len
  else
    aboutToModify F E scale o len
    setLength o len

/-- `insert(pos, T&&)`, and with it `append(T&&)`, `push_back(T&&)` and `push_front(T&&)` (`ReferenceCountedArray.h` 1193-1203, 990-992, `Array.h` 87):
as `insert`, but the element is moved into its place. -/
def insertMoved (F : Faults) (E : Ty V) (scale : Nat → Nat) (o pos : Nat) (v : V) : M V Unit := do
  validate o pos
  let ob ← obj o
  aboutToModify F E scale o (ob.sublen + 1)
  shiftUp F E o pos 1
  assignFrom (fun t _ => F t .move) E o pos [v]
  setLength o (ob.sublen + 1)

/-- `isShared() ? element : std::move(element)` as the initializer of a new element (`Array.h` 111, 130). -/
def takeOut (F : Faults) (E : Ty V) (o i : Nat) : M V V := do
  let ob ← obj o
  match ob.ref with
  | none => undef
  | some r =>
    if ← isShared o then
      match (← blk r).cells[ob.offset + i]? with
      | some (some v) => act F .copy; return v
      | _ => undef
    else takeCell F E r (ob.offset + i)

/-- `shift() &` (`Array.h` 107-116); the result is made in place. -/
def shift (F : Faults) (E : Ty V) (o : Nat) : M V V := do
  let v ← takeOut F E o 0
  let ob ← obj o
  setObj o { ob with offset := ob.offset + 1, sublen := ob.sublen - 1 }
  return v

/-- `pop() &` (`Array.h` 128-133); the result is made in place. -/
def pop (F : Faults) (E : Ty V) (o : Nat) : M V V := do
  let ob ← obj o
  let v ← takeOut F E o (ob.sublen - 1)
  popBack o
  return v

/-- `swap` (`ReferenceCountedArray.h` 508-516). -/
def swap (o p : Nat) : M V Unit := do
  let ob ← obj o
  let op ← obj p
  setObj o op
  setObj p ob

/-- Move assignment of another array (`ReferenceCountedArray.h` 542-560): that keeps its offset and length, without a buffer. -/
def moveAssign (o p : Nat) : M V Unit := do
  if o = p then pure ()
  else
    checkDealloc o
    let op ← obj p
    setObj o op
    setObj p { op with ref := none }

/-- `o = f()`: move assignment of an array that is destroyed then (`ReferenceCountedArray.h` 542-560, 429). -/
def assignTemp (o p : Nat) : M V Unit := do
  moveAssign o p
  destroy p

/-- `getOwnCopy()`, which `begin()` calls (`ReferenceCountedArray.h` 399, 713-716). -/
def getOwn (F : Faults) (E : Ty V) (scale : Nat → Nat) (o : Nat) : M V Unit := do
  let ob ← obj o
  aboutToModify F E scale o ob.sublen

/-- The loop of `insert(pos, first, last)` with iterators (`ReferenceCountedArray.h` 1029-1033, 1048-1051), and the iterator it returns. -/
def insertEach (F : Faults) (E : Ty V) (scale : Nat → Nat) (o : Nat) : Nat → List V → M V Unit
  | _, [] => getOwn F E scale o
  | pos, v :: vs => do
    getOwn F E scale o
    insert F E scale o pos v
    getOwn F E scale o
    insertEach F E scale o (pos + 1) vs

/-- `insert(pos, first, last)` with iterators (`ReferenceCountedArray.h` 1040-1053), `first` and `last` not of this array. -/
def insertRange (F : Faults) (E : Ty V) (scale : Nat → Nat) (o pos : Nat) (vs : List V) : M V Unit := do
  let ob ← obj o
  aboutToModify F E scale o (ob.sublen + vs.length)
  insertEach F E scale o pos vs

/-- `insert(pos, f())`, and with it `append(f())` (`ReferenceCountedArray.h` 1144-1162, 1025-1027), with an array that is destroyed then, also if the call throws.  Iterators of that
array are constant ones, so its elements are copied, not moved. -/
def insertTemp (F : Faults) (E : Ty V) (scale : Nat → Nat) (o pos p : Nat) : M V Unit := do
  let ob ← obj o
  let op ← obj p
  onThrow (if pos = 0 ∧ op.sublen > ob.sublen then moveAssign o p else insertArr F E scale o pos p) (destroy p)
  destroy p

/-- `resize(len, value)` for a class (`ReferenceCountedArray.h` 645-660); the argument is a copy of the value. -/
def resizeFill (F : Faults) (E : Ty V) (scale : Nat → Nat) (o len : Nat) (v : V) : M V Unit := do
  act F .copy
  let ob ← obj o
  if len < ob.sublen then setLength o len
  else
    aboutToModify F E scale o len
    let ob ← obj o
    match ob.ref with
    | none => if len - ob.sublen = 0 then pure () else undef
    | some r => fillOver F r v (ob.offset + ob.sublen) (len - ob.sublen)
    setLength o len

/-- The constructor of `n` copies of a value (`ReferenceCountedArray.h` 477-481). -/
def fillCtor (F : Faults) (E : Ty V) (scale : Nat → Nat) (n : Nat) (v : V) : M V Nat := do
  act F .copy
  let o ← ctor
  onThrow (resizeFill F E scale o n v) (destroy o)
  return o

end Bdlib.Elems
