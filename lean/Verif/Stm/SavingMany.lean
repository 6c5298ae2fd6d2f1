import Verif.Stm.Saving

/-!
# Model of several programs that save to one file at once

Each program is the list of what its `writeFile(name)` does to the file; they run interleaved, and any of them may be killed.
-/

namespace Bdlib.Stm
open Bdlib Bdlib.Str

/-- What `writeFile` does to the file in one step: opening it (`Stream.cpp` 158), `ftruncate` (171), a store to the mapping (179), a `write` (193). -/
inductive SaveStep
  | opened
  | cut (n : Nat)
  | store (i : Nat) (x : UInt8)
  | write (off : Nat) (w : Bytes)
  deriving DecidableEq

/-- The file after a step.  A store behind the end of the file is not seen, or kills the program that makes it (C114). -/
def saveStep (b : Bytes) : SaveStep → Bytes
  | .opened => []
  | .cut n => resized b n
  | .store i x => b.set i x
  | .write off w => written b off w

/-- The `write(2)` calls behind `fwrite` and `fflush` (`Stream.cpp` 193): each goes on at the program's own position. -/
def pieces (w : Bytes) : Nat → List Nat → List SaveStep
  | _, [] => []
  | k, c :: cs => .write k ((w.drop k).take c) :: pieces w (k + c) cs

/-- `writeFile(const String& file, mode)` (`Stream.cpp` 156-200) as steps. -/
def stepsOf (mmap : Bool) (sys : Sys) (order sizes : List Nat) (s : Stream) : List SaveStep :=
  if sys.openOk = false then []
  else .opened :: (
    if mmap then
      if sys.ftruncateOk = false then []
      else .cut s.str.length ::
        (if s.str.length = 0 ∨ sys.mmapOk = false then [] else order.map fun i => .store i (s.str.getD i 0))
    else if sys.dupOk = false ∨ sys.fdopenOk = false then []
    else pieces (s.str.take (sys.written.getD s.str.length)) 0 sizes)

/-- The programs `ps` make the steps `l`, interleaved, after which `ps'` is left of them. -/
inductive Interleave : List (List SaveStep) → List SaveStep → List (List SaveStep) → Prop
  | done (ps) : Interleave ps [] ps
  | step {ps a rest l ps'} (j : Nat) : ps[j]? = some (a :: rest) → Interleave (ps.set j rest) l ps' → Interleave ps (a :: l) ps'

end Bdlib.Stm
