import Verif.Tests.Harness
import Verif.Af.Model

/-!
# `tests/AtomicFileTest.cpp` on the model

The text written is short, in place of `/etc/services`.
-/

namespace Bdlib.Tests.AtomicFileTest
open Bdlib Bdlib.Spec Bdlib.Str Bdlib.Af Bdlib.Tests

attribute [local instance] plainTree

/-- All system calls succeed. -/
def sys : Sys := ⟨fun _ _ => true, fun _ => b!"aB3xY_"⟩

/-- The text that is written. -/
def source : Bytes := b!"ftp 21/tcp\nssh 22/tcp\n"

/-- The file system with the junk file, open as descriptor 7. -/
def start (dst : Bytes) : World where
  fs := {
    dir := setFn (fun _ => none) (entryOf dst) (some 0)
    past := []
    ino := fun _ => ⟨b!"test", true, 420⟩
    inos := 1
    fds := setFn (fun _ => none) 7 (some 0) }
  trace := []
  calls := 0

/-- Contents and mode of the file. -/
def reads (w : World) (dst : Bytes) : Option (Bytes × Nat) := (w.fs.dir (entryOf dst)).map fun i => ((w.fs.ino i).data, (w.fs.ino i).mode)

/-- What stands before the last step of each test: opening and writing, and the destination unchanged. -/
def written (dst : Bytes) (mode : Option Nat) : Option (Af.Obj × World) :=
  match «open» lib sys (start dst) 8 dst mode with
  | .ret (r, o, w) =>
    let w := write w o.fd fun _ => source
    if r && o.fd == some 8 && reads w dst == some (b!"test", 420) then some (o, w) else none
  | _ => none

/-- `basicTest` and `absoluteTest` (`tests/AtomicFileTest.cpp` 63-129, 131-197). -/
def commitTest (dst : Bytes) : Bool :=
  match written dst (some 256) with
  | none => false
  | some (o, w) =>
    let (r, _, w) := commit sys w o
    r && reads w dst == some (source, 256) && w.fs.fds 8 == none

example : commitTest b!"test.file" = true := by decide +kernel
example : commitTest b!"/tmp/test.file" = true := by decide +kernel

/-- `abortTest` (`tests/AtomicFileTest.cpp` 199-253). -/
def abortTest : Bool :=
  match written b!"test.file" none with
  | none => false
  | some (o, w) =>
    let (r, _, w) := abort sys w o
    r && reads w b!"test.file" == some (b!"test", 420)

example : abortTest = true := by decide +kernel

/-- `deleteTest` (`tests/AtomicFileTest.cpp` 255-308). -/
def deleteTest : Bool :=
  match written b!"test.file" none with
  | none => false
  | some (o, w) => reads (destroy sys w o) b!"test.file" == some (b!"test", 420)

example : deleteTest = true := by decide +kernel

end Bdlib.Tests.AtomicFileTest
