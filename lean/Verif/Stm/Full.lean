import Verif.Stm.Moving

/-!
# Model of saving to a full disk, and of loading from one that fails

A file that `ftruncate` has made longer has holes; a page of the disk is taken when the first byte is stored to it, and if none is left, the store
raises `SIGBUS`.  So does reading a page of a mapping that cannot be read from the disk.  `Eff.ub` is the end of the program by `SIGBUS`.
-/

namespace Bdlib.Stm
open Bdlib Bdlib.Str

/-- The stores of `memcpy` (`Stream.cpp` 179), in the order given, to a file that has the pages `taken`, when `space` more can be taken: whether all
succeed. -/
def fillMap (page : Nat) : List Nat → List Nat → Nat → Bool
  | [], _, _ => true
  | i :: is, taken, space =>
    if i / page ∈ taken then fillMap page is taken space
    else if space = 0 then false
    else fillMap page is (i / page :: taken) (space - 1)

/-- `writeFile(const String& file, mode)` (`Stream.cpp` 156-200), when after opening the file, which is empty then, `space` pages are left on the disk.  `stdio`
build: `fwrite` and `fflush` write what there is room for. -/
def saveFull (mmap : Bool) (sys : Sys) (page space : Nat) (order : List Nat) (s : Stream) (old : Option Bytes) : Eff (Int × Option Bytes) :=
  if mmap = true ∧ sys.openOk = true ∧ sys.ftruncateOk = true ∧ s.str.length ≠ 0 ∧ sys.mmapOk = true ∧ fillMap page order [] space = false then .ub
  else .ret (writeFile mmap { sys with written := some (space * page) } s old)

/-- The bytes before the first page that cannot be read. -/
def goodBytes (page : Nat) (bad : Nat → Bool) (n : Nat) : Nat := ((List.range n).takeWhile fun i => !bad (i / page)).length

/-- `loadFile(int fd)` (`Stream.cpp` 108-154) of a file holding `bytes` on a disk whose pages `bad` cannot be read.  `stdio` build: `fread` gets what is before them. -/
def loadBad (mmap : Bool) (sys : Sys) (page : Nat) (bad : Nat → Bool) (cap0 : Nat) (cap : Nat → Nat) (bytes : Bytes) (s : Stream) : Eff (Int × Stream) :=
  if mmap = true ∧ sys.lseekOk = true ∧ sys.mmapOk = true ∧ goodBytes page bad bytes.length < bytes.length then .ub
  else (loadFd mmap { sys with readable := some (goodBytes page bad bytes.length) } cap0 cap ⟨bytes, 0⟩ s).bind fun r => .ret (r.1, r.2.2)

end Bdlib.Stm
