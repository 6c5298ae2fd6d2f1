import Verif.Prog.Stream
import Verif.Prog.Simple

/-!
# Loading and saving files on the memory machine

`loadFile` and `writeFile` with what they get from the system beside memory: descriptors, mappings and `FILE`s.  Names of files are
given (`file.c_str()` is `noexcept`, C66).  Files as in `Stm/Model.lean`.
-/

namespace Bdlib.Rca
open Bdlib Bdlib.Spec Bdlib.Str

/-- Something the system lends: a descriptor, a mapping, a `FILE` (with a descriptor of its own). -/
inductive Handle | fd | map | file
  deriving DecidableEq, Repr

/-- The members `pos` and `loading` of a stream (`Stream.h` 52-53), and what was borrowed and not given back. -/
structure LSt where
  pos : Nat
  loading : Bool
  held : List Handle
  deriving DecidableEq, Repr

/-- As `PM`, with `LSt` in place of the position. -/
def LM (α : Type) := LSt → St UInt8 → Res UInt8 α × LSt

namespace LM
variable {α β : Type}

def pure (a : α) : LM α := fun l s => (.ok a s, l)

def bind (m : LM α) (f : α → LM β) : LM β := fun l s =>
  match m l s with
  | (.ok a s', l') => f a l' s'
  | (.throw e s', l') => (.throw e s', l')
  | (.ub, l') => (.ub, l')

instance : Monad LM where
  pure := LM.pure
  bind := LM.bind

/-- A step of the stream. -/
def stream (m : PM α) : LM α := fun l s => ((m l.pos s).1, { l with pos := (m l.pos s).2 })

/-- `loading = b`. -/
def setLoading (b : Bool) : LM Unit := fun l s => (.ok () s, { l with loading := b })

/-- The system lends something. -/
def take (h : Handle) : LM Unit := fun l s => (.ok () s, { l with held := h :: l.held })

/-- It is given back (`close`, `munmap`, `fclose`). -/
def give (h : Handle) : LM Unit := fun l s => (.ok () s, { l with held := l.held.erase h })

end LM

/-- A temporary String, as `withLocal`. -/
def PM.withLocal {α : Type} (cfg : Cfg UInt8) (mk : SM Nat) (body : Nat → PM α) : PM α := do
  let t ← PM.lift mk
  let a ← (fun p s => ((M.onThrow (fun s => (body t p s).1) (destroy cfg t)) s, (body t p s).2) : PM α)
  PM.lift (destroy cfg t)
  return a

/-- `puts(String(buf, len))` (`Stream.cpp` 123, 146): the `String&&` version of `puts`. -/
def putsText (cfg : Cfg UInt8) (o : Nat) (xs : Bytes) : PM Unit :=
  PM.withLocal cfg (strCtor cfg 0 xs) fun t => putsMoveS cfg o t

/-- `while ((len = fread(buf, 1, sizeof(buf) - 1, f))) puts(String(buf, len));` (`Stream.cpp` 145-147): `rest` are the bytes `fread`
can still get, at most `k` rounds. -/
def loadLoopS (cfg : Cfg UInt8) (o : Nat) : Nat → Bytes → PM Unit
  | 0, _ => PM.lift M.undef
  | k + 1, rest =>
    if (rest.take 1024).length = 0 then return ()
    else do
      putsText cfg o (rest.take 1024)
      loadLoopS cfg o k (rest.drop 1024)

/-- `seek(0, SEEK_SET); loading = 0; return 0;` (`Stream.cpp` 150-152) -/
def loadedS (o : Nat) : LM Int := do
  let _ ← LM.stream (seekS o 0 .set)
  LM.setLoading false
  return 0

/-- `loadFile(int fd)` (`Stream.cpp` 108-153) on a file with these bytes.  No clean-up when an exception leaves it.
Errors of `munmap` and `fclose`, which the code ignores, are not modelled. -/
def loadFdS (cfg : Cfg UInt8) (mmap : Bool) (sys : Stm.Sys) (bytes : Bytes) (o : Nat) : LM Int := do
  LM.stream (clearS o)
  if mmap then
    if sys.lseekOk = false then return 1
    else do
      LM.stream (PM.lift (reserveS cfg o bytes.length))
      -- `mmap` of length 0 fails (EINVAL)
      if sys.mmapOk = false ∨ bytes.length = 0 then return 1
      else do
        LM.take .map
        LM.setLoading true
        LM.stream (putsText cfg o bytes)
        LM.give .map
        loadedS o
  else
    if sys.dupOk = false then return 1
    else do
      LM.take .fd
      if sys.fdopenOk = false then do
        LM.give .fd
        return 1
      else do
      -- the `FILE` now owns the duplicate
      LM.give .fd
      LM.take .file
      LM.setLoading true
      LM.stream (PM.lift (reserveS cfg o bytes.length))
      let avail := bytes.take (sys.readable.getD bytes.length)
      LM.stream (loadLoopS cfg o (avail.length + 1) avail)
      LM.give .file
      loadedS o

/-- `loadFile(const String& file)` (`Stream.cpp` 98-106); `file`: the contents, if the file exists. -/
def loadFileS (cfg : Cfg UInt8) (mmap : Bool) (sys : Stm.Sys) (file : Option Bytes) (o : Nat) : LM Int :=
  match file with
  | none => LM.pure 1
  | some bytes =>
    if sys.openOk = false then LM.pure 1
    else do
      LM.take .fd
      let r ← loadFdS cfg mmap sys bytes o
      LM.give .fd
      return r

/-- `writeFile(int fd)` (`Stream.cpp` 166-200): return value and file. -/
def writeFdS (mmap : Bool) (sys : Stm.Sys) (o : Nat) (f : Stm.File) : LM (Int × Stm.File) := do
  let v ← LM.stream (PM.lift (contents o))
  if mmap then
    if sys.ftruncateOk = false then return (1, f)
    else if v.length = 0 then return (0, { f with bytes := Stm.resized f.bytes v.length })
    else if sys.mmapOk = false then return (1, { f with bytes := Stm.resized f.bytes v.length })
    else do
      LM.take .map
      let f := { f with bytes := v ++ (Stm.resized f.bytes v.length).drop v.length }
      if sys.munmapOk = false then return (1, f)
      else do
        LM.give .map
        return (0, f)
  else
    if sys.dupOk = false then return (1, f)
    else do
      LM.take .fd
      if sys.fdopenOk = false then do
        LM.give .fd
        return (1, f)
      else do
        LM.give .fd
        LM.take .file
        let w := v.take (sys.written.getD v.length)
        let f := { bytes := Stm.written f.bytes f.off w, off := f.off + w.length }
        if w.length ≠ v.length then do
          LM.give .file
          return (1, f)
        else do
          LM.give .file
          return (0, f)

/-- `writeFile(const String& file, mode)` (`Stream.cpp` 156-164). -/
def writeFileS (mmap : Bool) (sys : Stm.Sys) (file : Option Bytes) (o : Nat) : LM (Int × Option Bytes) :=
  if sys.openOk = false then LM.pure (1, file)
  else do
    LM.take .fd
    let (r, f) ← writeFdS mmap sys o ⟨[], 0⟩
    LM.give .fd
    return (r, some f.bytes)

/-- A program that loads files into stream `o` one after the other and goes on when memory runs out: how many loads threw, and what is
left.  `none`: undefined. -/
def loadsS (cfg : Cfg UInt8) (mmap : Bool) (o : Nat) : List (Stm.Sys × Option Bytes) → LSt → St UInt8 → Option (Nat × LSt × St UInt8)
  | [], l, s => some (0, l, s)
  | (sys, file) :: fs, l, s =>
    match loadFileS cfg mmap sys file o l s with
    | (.ok _ s', l') => loadsS cfg mmap o fs l' s'
    | (.throw _ s', l') => (loadsS cfg mmap o fs l' s').map fun (k, r) => (k + 1, r)
    | (.ub, _) => none

end Bdlib.Rca
