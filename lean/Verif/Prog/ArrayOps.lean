import Verif.Prog.Model

/-!
# Array functions as programs on the memory machine
-/

namespace Bdlib.Rca
open Bdlib Bdlib.Spec Bdlib.Str

variable {T : Type}

/-- `++offset; subLength(1);` (`Array.h` 274-275). -/
def advance (o : Nat) : M T Unit := do
  let ob ← getObj o
  putObj o { ob with offset := ob.offset + 1, sublen := sub64 ob.sublen 1, hash := 0 }

/-- Postfix `++` on an lvalue (`Array.h` 272-277). -/
def postIncA (cfg : Cfg T) (o : Nat) : M T Nat := building cfg (substring o 0 1) fun _ => advance o

/-- A `size_t` passed as `ssize_t`. -/
def toSigned (n : Nat) : Int := if n < 9223372036854775808 then n else n - (two64 : Int)

/-- Postfix `--` on an lvalue (`Array.h` 295-299); `subLength(1)` is the body of `pop_back`. -/
def postDecA (cfg : Cfg T) (o : Nat) : M T Nat := do
  let n ← length o
  building cfg (substring o (toSigned (sub64 n 1)) 1) fun _ => popBack o

/-- Postfix `++` on an rvalue (`Array.h` 279-282): an Array with the one element that `shift` returned. -/
def postIncMoveA (cfg : Cfg T) (o : Nat) : M T Nat := do
  match ← shift cfg o with
  | some x => listCtor cfg [x]
  | none => M.undef

/-- Postfix `--` on an rvalue (`Array.h` 301-304). -/
def postDecMoveA (cfg : Cfg T) (o : Nat) : M T Nat := do
  match ← pop cfg o with
  | some x => listCtor cfg [x]
  | none => M.undef

variable [DecidableEq T]

/-- `operator==(const Array&, const Array&)` (`Array.h` 209-212) for a type whose `!=` tells different elements. -/
def eqA (o r : Nat) : M T Bool := do
  let same ← sameStart o r
  let v ← contents o
  let w ← contents r
  liftE (arrayEq (fun a b => decide (a = b)) same v w)

/-- `find(item)` (`ReferenceCountedArray.h` 802-804). -/
def findA (o : Nat) (x : T) : M T Nat := do liftE (findItem (← contents o) x)

/-- `rfind(item)` (`ReferenceCountedArray.h` 821-826). -/
def rfindA (o : Nat) (x : T) : M T Nat := do liftE (rfindItem (← contents o) x)

/-- `find(item, pos)` (`ReferenceCountedArray.h` 811-815). -/
def findFromA (o : Nat) (x : T) (pos : Nat) : M T Nat := do liftE (findItemFrom (← contents o) x pos)

end Bdlib.Rca
