import Verif.Stm.Model
import Verif.Spec.Moving

/-!
# Model of loading and saving a file that other programs change meanwhile

`loadFd` and `writeFd` of `Stm/Model.lean` again, with a file whose contents depend on the moment.  When the system calls and the accesses to
mapped memory take place is an argument.  `Eff.ub` is also the end of the program by `SIGBUS`.
-/

namespace Bdlib.Stm
open Bdlib Bdlib.Str Bdlib.Spec

/-- Number of pages of a file. -/
def pages (page n : Nat) : Nat := (n + page - 1) / page

/-- Reading byte `i` of a mapping of a file (`mmap(2)`): behind the end of the file but on its last page there are zeros; an access to a
later page raises `SIGBUS` (`none`). -/
def mapped (page : Nat) (bytes : Bytes) (i : Nat) : Option UInt8 :=
  match bytes[i]? with
  | some x => some x
  | none => if i / page < pages page bytes.length then some 0 else none

/-- `String(map, size)` (`Stream.cpp` 124): byte `i` is read at the moment `touch i`. -/
def copyMap (page : Nat) (file : FileInTime) (touch : Nat → Nat) : Nat → Nat → Option Bytes
  | _, 0 => some []
  | i, n + 1 => match mapped page (file (touch i)) i with
    | none => none
    | some x => match copyMap page file touch (i + 1) n with
      | none => none
      | some xs => some (x :: xs)

/-- `loadFile(int fd)`, `mmap` build (`Stream.cpp` 108-126, 151-154): `lseek` at the moment `start`. -/
def loadMapInTime (sys : Sys) (page : Nat) (file : FileInTime) (start : Nat) (touch : Nat → Nat) (cap0 : Nat) (cap : Nat → Nat) (s : Stream) :
    Eff (Int × Stream) :=
  let s := clear s cap0
  if sys.lseekOk = false then .ret (1, s)
  else do
    let size := (file start).length
    reserve s size
    if sys.mmapOk = false ∨ size = 0 then return (1, s)
    else match copyMap page file touch 0 size with
      | none => .ub
      | some x =>
        let s ← puts { s with loading := true } x (cap size)
        let (_, s) := seek s 0 .set
        return (0, { s with loading := false })

/-- The `read(2)` calls behind `fread` (`Stream.cpp` 146): the `k`-th is at the moment `at_ k` and gets at most `count k` bytes, at least one if there
is one; when it gets none the end is reached, and stays so.  At most `fuel` calls (`none`: there would be more). -/
def readCalls (file : FileInTime) (at_ count : Nat → Nat) : Nat → Nat → Nat → Option Bytes
  | 0, _, _ => none
  | fuel + 1, k, off =>
    let got := ((file (at_ k)).drop off).take (count k + 1)
    if got = [] then some []
    else match readCalls file at_ count fuel (k + 1) (off + got.length) with
      | none => none
      | some more => some (got ++ more)

/-- `loadFile(int fd)`, `stdio` build (`Stream.cpp` 128-154): `ftell` at the moment `start`.  The stream is the caller's own, so that all reading
may be taken to come before the first `puts`. -/
def loadStdioInTime (sys : Sys) (file : FileInTime) (start : Nat) (at_ count : Nat → Nat) (fuel : Nat) (cap0 : Nat) (cap : Nat → Nat) (s : Stream) :
    Eff (Int × Stream) :=
  let s := clear s cap0
  if sys.dupOk = false then .ret (1, s)
  else if sys.fdopenOk = false then .ret (1, s)
  else do
    reserve s (file start).length
    match readCalls file at_ count fuel 0 0 with
    | none => .more
    | some avail =>
      let s ← loadLoop cap (avail.length + 1) avail { s with loading := true }
      let (_, s) := seek s 0 .set
      return (0, { s with loading := false })

/-- `memcpy` into the mapping in `writeFile(int fd)` (`Stream.cpp` 179): byte `i` is stored at the moment `touch i`, when the file is `len` long. -/
def storeMap (page : Nat) (len touch : Nat → Nat) : Nat → Nat → Bool
  | _, 0 => true
  | i, n + 1 => if i / page < pages page (len (touch i)) then storeMap page len touch (i + 1) n else false

/-- `writeFile(int fd)`, `mmap` build (`Stream.cpp` 166-182): what it returns, if after its `ftruncate` others change the length of the file. -/
def writeMapInTime (sys : Sys) (page : Nat) (len touch : Nat → Nat) (s : Stream) : Eff Int :=
  if sys.ftruncateOk = false then .ret 1
  else if s.str.length = 0 then .ret 0
  else if sys.mmapOk = false then .ret 1
  else if storeMap page len touch 0 s.str.length then .ret (if sys.munmapOk = false then 1 else 0)
  else .ub

end Bdlib.Stm
