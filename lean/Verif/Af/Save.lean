import Verif.Stm.Model
import Verif.Af.Model

/-!
# Saving a `Stream` through an `AtomicFile`

The program `AtomicFile` is made for (`AtomicFile.h` 36-84):

    AtomicFile f;
    if (!f.open(name, mode)) return false;
    if (stream.writeFile(f.fd())) return false;
    return f.commit();

with the destructor of `f` at the end of every path.
-/

namespace Bdlib.Af
open Bdlib Bdlib.Str Bdlib.Spec

variable [Tree]

/-- One save: the stream, the mode, the descriptor `mkstemp` gives, the build (`HAVE_MMAP` or not), what the system
answers to `writeFile`, and the contents the temporary file has in between while it is being written. -/
structure Req where
  stream : Stm.Stream
  mode : Option Nat
  fresh : Nat
  mmap : Bool
  sys : Stm.Sys
  mids : List Bytes

/-- The file behind the descriptor of the object (`fd()`, `AtomicFile.h` 77-79); it has just been opened, so its offset
is 0. -/
def fileOf (h : Hist) : Stm.File := ⟨((h.o.fd.bind h.w.fs.fds).map fun i => (h.w.fs.ino i).data).getD [], 0⟩

/-- `stream.writeFile(f.fd())` (`Stream.cpp` 166-200) on the file system: any contents in between, then the final one. -/
def writeStream (h : Hist) (q : Req) : Int × Hist :=
  let (r, f) := Stm.writeFd q.mmap q.sys q.stream (fileOf h)
  let w := q.mids.foldl (fun w b => write w h.o.fd fun _ => b) h.w
  (r, { h with w := write w h.o.fd fun _ => f.bytes })

/-- The program above. -/
def save (L : Libc) (S : Sys) (fname : Bytes) (h : Hist) (q : Req) : Eff (Bool × Hist) := do
  let h ← act L S fname h (.open q.fresh q.mode)
  if h.o.fd = none then
    let h ← act L S fname h .destroy
    return (false, h)
  else
    let (r, h) := writeStream h q
    if r ≠ 0 then
      let h ← act L S fname h .destroy
      return (false, h)
    else
      let ok := (commit S h.w h.o).1
      let h ← act L S fname h .commit
      let h ← act L S fname h .destroy
      return (ok, h)

/-- One save after the other; what each returned. -/
def saves (L : Libc) (S : Sys) (fname : Bytes) : Hist → List Req → Eff (List Bool × Hist)
  | h, [] => .ret ([], h)
  | h, q :: qs => do
    let (ok, h) ← save L S fname h q
    let (oks, h) ← saves L S fname h qs
    return (ok :: oks, h)

end Bdlib.Af
