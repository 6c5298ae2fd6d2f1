import Verif.Rca.Reach

/-!
# Model of builds with assertions

If `NDEBUG` is not defined, the library's `assert`s are compiled in; the rest of the model is about builds without
them.  A failed assertion ends the program: there is no result and no later state, which is what `.ub` says.  The
functions below are those of `Model.lean` with their assertions.
-/

namespace Bdlib.Rca
open Bdlib Bdlib.Spec

variable {T : Type} {cfg : Cfg T}

/-- `assert(b)`. -/
def check (b : Bool) : M T Unit := if b then pure () else M.undef

/-- `COW` (`ReferenceCountedArray.h` 383-392) with the assertion of line 387, made when the old buffer and length have
been noted. -/
def cowDebug (cfg : Cfg T) (o n : Nat) : M T Unit := do
  let sh ← isShared o
  check sh
  cow cfg o n

/-- `AboutToModify` (`ReferenceCountedArray.h` 405-413). -/
def aboutToModifyDebug (cfg : Cfg T) (o n : Nat) : M T Unit := do
  let ob ← getObj o
  putObj o { ob with hash := 0 }
  if ← isShared o then cowDebug cfg o n else reserve cfg o n cfg.scale

/-- `String(const char*)` (`String.h` 100-107) with the assertion of line 106. -/
def cstrCtorDebug [DecidableEq T] (cfg : Cfg T) (nul : T) (xs : List T) : M T Nat := do
  let o ← newObj {}
  if xs.isEmpty then return o
  else
    let ob ← getObj o
    putObj o { ob with sublen := xs.length }
    (rcaReserve cfg o (xs.length + 1) id).onThrow (destroy cfg o)
    writeRange o 0 (xs ++ [nul])
    let t ← readRange o xs.length 1
    check (decide (t = [nul]))
    return o

/-- `String::operator=(std::string)` (`String.h` 164-171) with the assertion of line 169. -/
def assignStdDebug [DecidableEq T] (cfg : Cfg T) (nul : T) (o : Nat) (xs : List T) : M T Unit := do
  clear o
  rcaReserve cfg o (xs.length + 1) id
  let ob ← getObj o
  putObj o { ob with sublen := xs.length }
  writeRange o 0 (xs ++ [nul])
  let t ← readRange o xs.length 1
  check (decide (t = [nul]))

/-- `String::c_str` (`String.h` 232-244) with the assertions of lines 235, 236, 238 and 242.  `constBuf()` is null if
there is no buffer and the offset is 0. -/
def cStrDebug [DecidableEq T] (cfg : Cfg T) (nul : T) (o : Nat) : M T (List T) := do
  let ob ← getObj o
  if ob.sublen = 0 then return [nul]
  else
    let cap ← capacity o
    check (decide (cap ≠ 0 ∨ ob.offset ≠ 0))
    check (decide (ob.sublen > 0))
    let t ← readRange o ob.sublen 1
    if t ≠ [nul] then
      check (decide (ob.sublen > 0))
      aboutToModify cfg o (ob.sublen + 1)
      writeRange o ob.sublen [nul]
      readRange o 0 (ob.sublen + 1)
    else
      let t ← readRange o ob.sublen 1
      check (decide (t = [nul]))
      readRange o 0 (ob.sublen + 1)

/-- `pop_back` (`ReferenceCountedArray.h` 1010-1013) with the assertion of line 1011. -/
def popBackDebug (o : Nat) : M T Unit := do
  let n ← length o
  check (decide (n ≠ 0))
  popBack o

/-- `Array::shift` (`Array.h` 107-116) with the assertion of line 108. -/
def shiftDebug (cfg : Cfg T) (o : Nat) : M T (Option T) := do
  let n ← length o
  check (decide (n ≠ 0))
  shift cfg o

/-- `Array::pop` (`Array.h` 128-133) with the assertions of line 129 and of `pop_back`. -/
def popDebug (cfg : Cfg T) (o : Nat) : M T (Option T) := do
  let n ← length o
  check (decide (n ≠ 0))
  let ob ← getObj o
  let last := sub64 ob.sublen 1
  let xs ← readRange o last 1
  if ← isShared o then pure () else writeRange o last (xs.map cfg.moved)
  popBackDebug o
  return xs.head?

/-- The code behind each call in a build with assertions.  Calls that are not mentioned have no assertion but that of
`COW`, which is `aboutToModifyDebug`. -/
def runDebug [DecidableEq T] (cfg : Cfg T) : Op T → M T (Out T)
  | .cstrCtor xs => match cfg.nul with
    | some c => mapOut (cstrCtorDebug cfg c xs) .obj
    | none => M.undef
  | .assignStd o xs => match cfg.nul with
    | some c => mapOut (assignStdDebug cfg c o xs) fun _ => .unit
    | none => M.undef
  | .cStr o => match cfg.nul with
    | some c => mapOut (cStrDebug cfg c o) .bytes
    | none => M.undef
  | .popBack o => mapOut (popBackDebug o) fun _ => .unit
  | .shift o => mapOut (shiftDebug cfg o) .elem
  | .pop o => mapOut (popDebug cfg o) .elem
  | op => run cfg op

end Bdlib.Rca
