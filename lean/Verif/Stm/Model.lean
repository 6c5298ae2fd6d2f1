import Verif.Str.Cut

/-!
# Model of `Stream`

A stream is the contents of its String, the capacity of the String's buffer and the position.  The capacity
matters because `seek` uses it.  How it develops is not modelled: every operation that changes the String
takes the new capacity as the argument `cap`; theorems hold for every value not less than the length.
Allocations succeed if they are smaller than 2^63 bytes (`Str.alloc`).
-/

namespace Bdlib.Stm
open Bdlib Bdlib.Str

structure Stream where
  str : Bytes
  cap : Nat
  pos : Nat
  loading : Bool
  deriving DecidableEq, Repr

/-- `size_t` converted to `ssize_t`. -/
def toSsize (n : Nat) : Int := if n < 9223372036854775808 then n else (n : Int) - (two64 : Int)

/-- `Stream()` (`Stream.h` 56). -/
def empty (cap : Nat) : Stream := ⟨[], cap, 0, false⟩

/-- `Stream(const String&)`, `Stream(String&&)` (`Stream.h` 64-65). -/
def ofString (v : Bytes) (cap : Nat) : Stream := ⟨v, cap, 0, false⟩

/-- `String::replace(pos, string)` on contents (`ReferenceCountedArray.h` 1241-1265; `Rca.replaceRca`). -/
def replace (v : Bytes) (pos : Nat) (w : Bytes) : Eff Bytes :=
  if pos > v.length then .exc .outOfRange else .ret (v.take pos ++ w ++ v.drop (pos + w.length))

/-- `puts` (`Stream.h` 108-121). -/
def puts (s : Stream) (x : Bytes) (cap : Nat) : Eff Stream := do
  let str ← replace s.str s.pos x
  return { s with str := str, cap := cap, pos := s.pos + x.length }

/-- `truncate` (`Stream.h` 95): `str = str(0, pos)`. -/
def truncate (s : Stream) (cap : Nat) : Eff Stream := do
  let str ← slice s.str 0 (toSsize s.pos)
  return { s with str := str, cap := cap }

/-- `peek` (`Stream.h` 97): `str(pos)`. -/
def peek (s : Stream) : Eff Bytes := slice s.str (toSsize s.pos) (-1)

/-- `clear` (`Stream.h` 102). -/
def clear (s : Stream) (cap : Nat) : Stream := { s with str := [], cap := cap, pos := 0 }

/-- Third argument of `seek`; `other`: a value that is none of the three. -/
inductive Whence | set | cur | fromEnd | other

/-- `size_t` or `ssize_t` arithmetic result converted to `int`. -/
def toInt (i : Int) : Int := Rca.toInt32 (i % (two64 : Int)).toNat

/-- The `switch` of `seek` (`Stream.cpp` 52-64). -/
def newpos (s : Stream) (offset : Int) : Whence → Int
  | .set => offset
  | .cur => toInt (s.pos + offset)
  | .fromEnd => toInt (s.cap - offset)
  | .other => toInt s.pos

/-- The clamping in `seek` (`Stream.cpp` 65-68). -/
def clampPos (s : Stream) (p : Int) : Int :=
  if p < 0 then 0 else if p > s.cap then toInt s.cap else p

/-- `seek` (`Stream.cpp` 49-72). -/
def seek (s : Stream) (offset : Int) (whence : Whence) : Int × Stream :=
  let p := clampPos s (newpos s offset whence)
  (p, { s with pos := (p % (two64 : Int)).toNat })

/-- The loop of `read` with a delimiter (`Stream.cpp` 87-89), `k` = `toRead - ret.length()`.  Reading at or
behind the end of the contents is undefined. -/
def readLoop (v : Bytes) (delim : UInt8) : Nat → Nat → Bytes → Eff (Nat × Bytes)
  | 0, pos, ret => .ret (pos, ret)
  | k + 1, pos, ret => do
    let c ← rd v pos
    if c ≠ delim then readLoop v delim k (pos + 1) (ret ++ [c]) else return (pos, ret)

/-- `read(maxSize, delim)` (`Stream.cpp` 74-96); `delim = 0`: no delimiter. -/
def read (s : Stream) (maxSize : Nat) (delim : UInt8) : Eff (Bytes × Stream) :=
  let toRead := min maxSize (sub64 s.str.length s.pos)
  if delim = 0 then do
    let ret ← slice s.str (toSsize s.pos) (toSsize toRead)
    return (ret, { s with pos := (s.pos + toRead) % two64 })
  else do
    Str.alloc toRead
    let (pos, ret) ← readLoop s.str delim toRead s.pos []
    if s.str.length > pos then
      if (← rd s.str pos) = delim then return (ret ++ [delim], { s with pos := pos + 1 })
      else return (ret, { s with pos := pos })
    else return (ret, { s with pos := pos })

/-- `getline(maxSize)` (`Stream.h` 129-131); `none`: the default argument, which is 99999999. -/
def getline (s : Stream) (maxSize : Option Nat) : Eff (Bytes × Stream) :=
  let maxSize := maxSize.getD 99999999
  read s (if maxSize = 99999999 then sub64 s.str.length s.pos else maxSize) 10

/-! ## Files -/

/-- An open regular file: its bytes and the offset shared by the descriptor and its duplicates. -/
structure File where
  bytes : Bytes
  off : Nat
  deriving DecidableEq, Repr

/-- What the system answers.  `readable`: number of bytes `fread` gets before an I/O error (`none`: no
error); `written`: number of bytes `fwrite` and `fflush` get into the file before an error. -/
structure Sys where
  openOk : Bool := true
  lseekOk : Bool := true
  ftruncateOk : Bool := true
  mmapOk : Bool := true
  munmapOk : Bool := true
  dupOk : Bool := true
  fdopenOk : Bool := true
  readable : Option Nat := none
  written : Option Nat := none

/-- `reserve` (`Stream.cpp` 43-47) as far as it can fail: the size is rounded up to blocks of 1024. -/
def reserve (s : Stream) (n : Nat) : Eff Unit :=
  if n < s.cap then .ret () else Str.alloc (1024 * (((n + 1023) % two64) / 1024) % two64)

/-- The reading loop of the `stdio` version (`Stream.cpp` 146-148): `rest` are the bytes `fread` can still
get, at most `k` rounds.  `cap`: capacity after each `puts`. -/
def loadLoop (cap : Nat → Nat) : Nat → Bytes → Stream → Eff Stream
  | 0, _, _ => .more
  | k + 1, rest, s =>
    if (rest.take 1024).length = 0 then .ret s
    else do
      let s ← puts s (rest.take 1024) (cap rest.length)
      loadLoop cap k (rest.drop 1024) s

/-- `loadFile(int fd)` (`Stream.cpp` 108-154): return value, file and stream.  `cap` gives the capacities
after `clear`, and after each `puts` as a function of the bytes still to be read.  Files that cannot seek: `loadPipe`. -/
def loadFd (mmap : Bool) (sys : Sys) (cap0 : Nat) (cap : Nat → Nat) (f : File) (s : Stream) : Eff (Int × File × Stream) :=
  let s := clear s cap0
  if mmap then
    if sys.lseekOk = false then .ret (1, f, s)
    else do
      let size := f.bytes.length
      let f := { f with off := size }
      reserve s size
      -- `mmap` of length 0 fails (EINVAL)
      if sys.mmapOk = false ∨ size = 0 then return (1, f, s)
      else
        let s ← puts { s with loading := true } f.bytes (cap size)
        let (_, s) := seek s 0 .set
        return (0, f, { s with loading := false })
  else
    if sys.dupOk = false then .ret (1, f, s)
    else if sys.fdopenOk = false then .ret (1, f, s)
    else do
      let size := f.bytes.length
      reserve s size
      let avail := f.bytes.take (sys.readable.getD size)
      let s ← loadLoop cap (avail.length + 1) avail { s with loading := true }
      let (_, s) := seek s 0 .set
      return (0, { f with off := avail.length }, { s with loading := false })

/-- `loadFile(int fd)` (`Stream.cpp` 108-154) of a file that cannot seek, such as a pipe, from which `rest` can be read: return value and stream.
`lseek` fails, and `ftell` returns -1, which becomes the `size_t` 2^64 - 1 (139). -/
def loadPipe (mmap : Bool) (sys : Sys) (cap0 : Nat) (cap : Nat → Nat) (rest : Bytes) (s : Stream) : Eff (Int × Stream) :=
  let s := clear s cap0
  if mmap then .ret (1, s)
  else if sys.dupOk = false then .ret (1, s)
  else if sys.fdopenOk = false then .ret (1, s)
  else do
    reserve s (two64 - 1)
    let avail := rest.take (sys.readable.getD rest.length)
    let s ← loadLoop cap (avail.length + 1) avail { s with loading := true }
    let (_, s) := seek s 0 .set
    return (0, { s with loading := false })

/-- `loadFile(const String& file)` (`Stream.cpp` 98-106): `file`: the contents, if the file exists. -/
def loadFile (mmap : Bool) (sys : Sys) (cap0 : Nat) (cap : Nat → Nat) (file : Option Bytes) (s : Stream) :
    Eff (Int × Stream) :=
  match file with
  | none => .ret (1, s)
  | some bytes =>
    if sys.openOk = false then .ret (1, s)
    else do
      let (r, _, s) ← loadFd mmap sys cap0 cap ⟨bytes, 0⟩ s
      return (r, s)

/-- Bytes of a file after `ftruncate`. -/
def resized (b : Bytes) (n : Nat) : Bytes := b.take n ++ List.replicate (n - b.length) 0

/-- Bytes of a file after writing `w` at `off`. -/
def written (b : Bytes) (off : Nat) (w : Bytes) : Bytes :=
  if w = [] then b
  else b.take off ++ List.replicate (off - b.length) 0 ++ w ++ b.drop (off + w.length)

/-- `writeFile(int fd)` (`Stream.cpp` 166-200): return value and file.  `fclose` errors are ignored by the
code; data not yet written is written by `fflush`. -/
def writeFd (mmap : Bool) (sys : Sys) (s : Stream) (f : File) : Int × File :=
  if mmap then
    if sys.ftruncateOk = false then (1, f)
    else
      let f := { f with bytes := resized f.bytes s.str.length }
      if s.str.length = 0 then (0, f)
      else if sys.mmapOk = false then (1, f)
      else
        let f := { f with bytes := s.str ++ f.bytes.drop s.str.length }
        if sys.munmapOk = false then (1, f) else (0, f)
  else
    if sys.dupOk = false then (1, f)
    else if sys.fdopenOk = false then (1, f)
    else
      let w := s.str.take (sys.written.getD s.str.length)
      let f := { bytes := written f.bytes f.off w, off := f.off + w.length }
      if w.length ≠ s.str.length then (1, f) else (0, f)

/-- `writeFile(const String& file, mode)` (`Stream.cpp` 156-164): opening truncates the file. -/
def writeFile (mmap : Bool) (sys : Sys) (s : Stream) (file : Option Bytes) : Int × Option Bytes :=
  if sys.openOk = false then (1, file)
  else
    let (r, f) := writeFd mmap sys s ⟨[], 0⟩
    (r, some f.bytes)

end Bdlib.Stm
