import Verif.Prog.Model
import Verif.Stm.Model
import Verif.Spec.Streams

/-!
# Streams on the memory machine

A `Stream` is a String, whose storage other objects may share, and a position (`Stream.h` 51-53; `loading` is only for
subclasses).  A member function finds the position and leaves one, also when an exception leaves the function.
-/

namespace Bdlib.Rca
open Bdlib Bdlib.Spec Bdlib.Str

/-- From the position: how the function ends, and the position afterwards. -/
def PM (α : Type) := Nat → St UInt8 → Res UInt8 α × Nat

namespace PM
variable {α β : Type}

def pure (a : α) : PM α := fun p s => (.ok a s, p)

def bind (m : PM α) (f : α → PM β) : PM β := fun p s =>
  match m p s with
  | (.ok a s', p') => f a p' s'
  | (.throw e s', p') => (.throw e s', p')
  | (.ub, p') => (.ub, p')

instance : Monad PM where
  pure := PM.pure
  bind := PM.bind

/-- A step that does not touch the position. -/
def lift (m : SM α) : PM α := fun p s => (m s, p)

/-- `pos`. -/
def tell : PM Nat := fun p s => (.ok p s, p)

/-- `pos = q`. -/
def goto (q : Nat) : PM Unit := fun _ s => (.ok () s, q)

/-- A local object that is returned (see `Rca.building`). -/
def building (cfg : Cfg UInt8) (mk : SM Nat) (body : Nat → PM Unit) : PM Nat := do
  let o ← lift mk
  (fun p s => ((M.onThrow (fun s => (body o p s).1) (destroy cfg o)) s, (body o p s).2) : PM Unit)
  return o

end PM

/-- `puts(const String&)` (`Stream.h` 108-111). -/
def putsS (cfg : Cfg UInt8) (o r : Nat) : PM Unit := do
  let p ← PM.tell
  PM.lift (replaceRca cfg o p r npos)
  let n ← PM.lift (length r)
  PM.goto ((p + n) % two64)

/-- `puts(String&&)` (`Stream.h` 117-121). -/
def putsMoveS (cfg : Cfg UInt8) (o r : Nat) : PM Unit := do
  let n ← PM.lift (length r)
  let p ← PM.tell
  PM.lift (replaceMove cfg o p r npos)
  PM.goto ((p + n) % two64)

/-- `truncate` (`Stream.h` 95): the slice is made a String, which is then moved from. -/
def truncateS (cfg : Cfg UInt8) (o : Nat) : PM Unit := do
  let p ← PM.tell
  PM.lift (withLocal cfg (substring o 0 (Stm.toSsize p)) fun t => moveAssign cfg o t)

/-- `peek` (`Stream.h` 97). -/
def peekS (o : Nat) : PM Nat := do
  let p ← PM.tell
  PM.lift (substring o (Stm.toSsize p) (-1))

/-- `clear` (`Stream.h` 102). -/
def clearS (o : Nat) : PM Unit := do
  PM.lift (clear o)
  PM.goto 0

/-- `seek` (`Stream.cpp` 49-72): `Stm.seek`, with the capacity of the String. -/
def seekS (o : Nat) (offset : Int) (whence : Stm.Whence) : PM Int := do
  let p ← PM.tell
  let c ← PM.lift (capacity o)
  let r := Stm.seek ⟨[], c, p, false⟩ offset whence
  PM.goto r.2.pos
  return r.1

/-- `while ((ret.length() < toRead) && (str[pos] != delim)) ret += str[pos++];` (`Stream.cpp` 87-89); at most `fuel` rounds. -/
def readLoopS (cfg : Cfg UInt8) (o ret toRead : Nat) (delim : UInt8) : Nat → PM Unit
  | 0 => PM.lift M.undef
  | fuel + 1 => do
    if (← PM.lift (length ret)) < toRead then
      let p ← PM.tell
      match ← PM.lift (read o p) with
      | none => PM.lift M.undef
      | some c =>
        if c ≠ delim then do
          PM.goto (p + 1)
          PM.lift (append cfg ret c)
          readLoopS cfg o ret toRead delim fuel
        else return ()
    else return ()

/-- `if (str.size() > pos && str[pos] == delim) { ret += delim; ++pos; }` (`Stream.cpp` 90-93) -/
def readDelimS (cfg : Cfg UInt8) (o ret : Nat) (delim : UInt8) : PM Unit := do
  let p ← PM.tell
  if (← PM.lift (length o)) > p then
    if (← PM.lift (read o p)) = some delim then do
      PM.lift (append cfg ret delim)
      PM.goto (p + 1)
    else return ()
  else return ()

/-- `read` (`Stream.cpp` 74-96). -/
def readS (cfg : Cfg UInt8) (o maxSize : Nat) (delim : UInt8) : PM Nat := do
  let p ← PM.tell
  let n ← PM.lift (length o)
  let toRead := min maxSize (sub64 n p)
  if delim = 0 then do
    let ret ← PM.lift (substring o (Stm.toSsize p) (Stm.toSsize toRead))
    PM.goto ((p + toRead) % two64)
    return ret
  else PM.building cfg (sizeCtor cfg toRead) fun ret => do
    readLoopS cfg o ret toRead delim (toRead + 1)
    readDelimS cfg o ret delim

/-- `getline` (`Stream.h` 129-131); `none`: the default argument. -/
def getlineS (cfg : Cfg UInt8) (o : Nat) (maxSize : Option Nat) : PM Nat := do
  let p ← PM.tell
  let n ← PM.lift (length o)
  let maxSize := maxSize.getD 99999999
  readS cfg o (if maxSize = 99999999 then sub64 n p else maxSize) 10

/-- `reserve` (`Stream.cpp` 43-47). -/
def reserveS (cfg : Cfg UInt8) (o n : Nat) : SM Unit := do
  if n < (← capacity o) then return ()
  else reservePub cfg o (1024 * (((n + 1023) % two64) / 1024) % two64)

/-- `Stream(const int newSize)` (`Stream.h` 59-61): the String is destroyed if `reserve` throws. -/
def sizedS (cfg : Cfg UInt8) (n : Int) : SM Nat :=
  building cfg ctor fun o => if n > 0 then reserveS cfg o n.toNat else pure ()

/-- `a = b` (`Stream.h` 67-78): the parameter is a copy of `b`, which is swapped with `a` and destroyed.  `q`: the position of `b`. -/
def assignS (cfg : Cfg UInt8) (o r q : Nat) : PM Unit := do
  PM.lift (withLocal cfg (copyCtor r) fun t => swap o t)
  PM.goto q

/-- A call of a member function of stream `o` by a program; the program's streams have the positions `pos`. -/
def onStream {α : Type} (pos : Positions) (o : Nat) (m : PM α) (f : α → Out UInt8) (s : St UInt8) : Res UInt8 (Out UInt8) × Positions :=
  match m ((pos o).getD 0) s with
  | (.ok a s', q) => (.ok (f a) s', pos.set o (some q))
  | (.throw e s', q) => (.throw e s', pos.set o (some q))
  | (.ub, q) => (.ub, pos.set o (some q))

/-- A constructor makes the String of a stream; `p`: the stream's position, `none` if it is a String only. -/
def newStream (pos : Positions) (p : Option Nat) (m : SM Nat) (s : St UInt8) : Res UInt8 (Out UInt8) × Positions :=
  match m s with
  | .ok n s' => (.ok (.obj n) s', pos.set n p)
  | .throw e s' => (.throw e s', pos)
  | .ub => (.ub, pos)

/-- The code behind each call.  `Stream(const String&)` and `Stream(String&&)`: `Stream.h` 64-65; copy and move constructor: 57-58 (member by
member: the stream moved from keeps its position, but is no longer counted as a stream here, only its String is left); destructor: 62;
`tell`: 88-90; `length`: 182-184; `operator String`: 179-181.  A move assignment `a = std::move(b)` is ambiguous (75, 80) and does not compile. -/
def execStream (cfg : Cfg UInt8) (pos : Positions) : StreamCall → St UInt8 → Res UInt8 (Out UInt8) × Positions
  | .make r => newStream pos (some 0) (copyCtor r)
  | .makeMove r => newStream pos (some 0) (moveCtor cfg r)
  | .makeSize n => newStream pos (some 0) (sizedS cfg n)
  | .copy q => newStream pos (pos q) (copyCtor q)
  | .move q => newStream (pos.set q none) (pos q) (moveCtor cfg q)
  | .text q => newStream pos none (copyCtor q)
  | .assign o q => onStream pos o (assignS cfg o q ((pos q).getD 0)) fun _ => .unit
  | .drop o => fun s =>
    match destroy cfg o s with
    | .ok _ s' => (.ok .unit s', pos.set o none)
    | .throw e s' => (.throw e s', pos)
    | .ub => (.ub, pos)
  | .puts o r => onStream pos o (putsS cfg o r) fun _ => .unit
  | .putsMove o r => onStream pos o (putsMoveS cfg o r) fun _ => .unit
  | .read o n => onStream pos o (readS cfg o n 0) .obj
  | .readTo o n d => onStream pos o (readS cfg o n d) .obj
  | .getline o => onStream pos o (getlineS cfg o none) .obj
  | .getlineMax o n => onStream pos o (getlineS cfg o (some n)) .obj
  | .seek o p => onStream pos o (seekS o p .set) fun r => .num r.toNat
  | .skip o k => onStream pos o (seekS o k .cur) fun r => .num r.toNat
  | .truncate o => onStream pos o (truncateS cfg o) fun _ => .unit
  | .clear o => onStream pos o (clearS o) fun _ => .unit
  | .peek o => onStream pos o (peekS o) .obj
  | .tell o => onStream pos o PM.tell .num
  | .length o => onStream pos o (PM.lift (length o)) .num

end Bdlib.Rca
