import Verif.Str.Cut
import Verif.Props.C22
import Verif.Spec.Path

/-!
# Model of `AtomicFile` on a file system that may crash

File system: a map from directory entries to files, with all its previous versions since the last time it
certainly was on disk; the files, each with its data and whether the data is known to be on disk; and the
open descriptors.  After a crash the directory is the current or any previous version, and a file whose data
is not known to be on disk may contain anything.

Every system call fails or succeeds as `Sys` says.  All states the file system goes through are recorded.
-/

namespace Bdlib.Af
open Bdlib Bdlib.Str Bdlib.Spec

variable [Tree]

structure Inode where
  data : Bytes
  synced : Bool
  mode : Nat

structure FS where
  dir : Entry → Option Nat
  past : List (Entry → Option Nat)
  ino : Nat → Inode
  /-- numbers of files used so far -/
  inos : Nat
  fds : Nat → Option Nat

/-- The system calls that may fail. -/
inductive Call | fchmod | fsync | close | rename | unlink | mkstemp

/-- Which system calls succeed (by kind and number), and the characters `mkstemp` chooses for `XXXXXX`. -/
structure Sys where
  ok : Call → Nat → Bool
  suffix : Nat → Bytes

/-- Current file system, all file systems so far (the last is the current one), calls made so far. -/
structure World where
  fs : FS
  trace : List FS
  calls : Nat

/-- The file system changes: the new one is recorded. -/
def World.push (w : World) (fs : FS) : World := ⟨fs, w.trace ++ [fs], w.calls⟩

def setFn {α β : Type} [DecidableEq α] (f : α → β) (a : α) (b : β) : α → β := fun x => if x = a then b else f x

/-- `fchmod(fd, mode)`; `none`: descriptor -1. -/
def fchmod (S : Sys) (w : World) (fd : Option Nat) (mode : Nat) : Bool × World :=
  let w' := { w with calls := w.calls + 1 }
  match fd.bind w.fs.fds with
  | none => (false, w')
  | some i =>
    if S.ok .fchmod w.calls then
      (true, w'.push { w.fs with ino := setFn w.fs.ino i { w.fs.ino i with mode := mode } })
    else (false, w')

/-- `fsync(fd)`. -/
def fsync (S : Sys) (w : World) (fd : Option Nat) : Bool × World :=
  let w' := { w with calls := w.calls + 1 }
  match fd.bind w.fs.fds with
  | none => (false, w')
  | some i =>
    if S.ok .fsync w.calls then
      (true, w'.push { w.fs with ino := setFn w.fs.ino i { w.fs.ino i with synced := true } })
    else (false, w')

/-- `close(fd)`: the descriptor is released even if an error is reported. -/
def close (S : Sys) (w : World) (fd : Option Nat) : Bool × World :=
  let w' := { w with calls := w.calls + 1 }
  match fd with
  | none => (false, w')
  | some f => (S.ok .close w.calls, w'.push { w.fs with fds := setFn w.fs.fds f none })

/-- `rename(from, to)`. -/
def rename (S : Sys) (w : World) (a b : Bytes) : Bool × World :=
  let w' := { w with calls := w.calls + 1 }
  match w.fs.dir (entryOf a) with
  | none => (false, w')
  | some i =>
    if S.ok .rename w.calls then
      (true, w'.push { w.fs with
        dir := setFn (setFn w.fs.dir (entryOf b) (some i)) (entryOf a) none, past := w.fs.dir :: w.fs.past })
    else (false, w')

/-- `unlink(path)`. -/
def unlink (S : Sys) (w : World) (a : Bytes) : Bool × World :=
  let w' := { w with calls := w.calls + 1 }
  match w.fs.dir (entryOf a) with
  | none => (false, w')
  | some _ =>
    if S.ok .unlink w.calls then
      (true, w'.push { w.fs with dir := setFn w.fs.dir (entryOf a) none, past := w.fs.dir :: w.fs.past })
    else (false, w')

/-- The text of a C string. -/
def cstr (v : Bytes) : Bytes := v.takeWhile (· ≠ 0)

/-- The template ends in `XXXXXX`, or else `mkstemp` fails (`EINVAL`). -/
def endsX (t : Bytes) : Bool := (cstr t).drop ((cstr t).length - 6) == [88, 88, 88, 88, 88, 88]

/-- `mkstemp(template)`: creates and opens a file under a name not in use; the last six characters of the
template are replaced.  The new descriptor is one not in use. -/
def mkstemp (S : Sys) (w : World) (fresh : Nat) (template : Bytes) : Option Nat × Bytes × World :=
  let w' := { w with calls := w.calls + 1 }
  let name := template.take (template.length - 6) ++ S.suffix w.calls
  if (S.ok .mkstemp w.calls ∧ endsX template) ∧ w.fs.dir (entryOf name) = none ∧ w.fs.fds fresh = none then
    (some fresh, name, w'.push { w.fs with
      dir := setFn w.fs.dir (entryOf name) (some w.fs.inos), past := w.fs.dir :: w.fs.past,
      ino := setFn w.fs.ino w.fs.inos ⟨[], false, 384⟩, inos := w.fs.inos + 1,
      fds := setFn w.fs.fds fresh (some w.fs.inos) })
  else (none, template, w')

/-- Any write by the user through the descriptor: the data changes arbitrarily and is not on disk. -/
def write (w : World) (fd : Option Nat) (g : Bytes → Bytes) : World :=
  let w' := { w with calls := w.calls + 1 }
  match fd.bind w.fs.fds with
  | none => w'
  | some i => w'.push { w.fs with ino := setFn w.fs.ino i { w.fs.ino i with data := g (w.fs.ino i).data, synced := false } }

/-! ## `AtomicFile` -/

/-- The members (`AtomicFile.h` 41-44); `none` is -1. -/
structure Obj where
  fname : Bytes := []
  tmpname : Bytes := []
  fd : Option Nat := none
  mode : Option Nat := none

/-- The template for the temporary name (`AtomicFile.cpp` 48-57). -/
def template (L : Libc) (fname : Bytes) : Eff Bytes := do
  let p ← rfind L fname [47] 0
  let slashPos := if p = npos then 0 else p
  let dir ← if p = npos then .ret [46, 47] else slice fname 0 (slashPos + 1 : Nat)
  let base ← slice fname slashPos (-1)
  printf (cstr dir ++ [46] ++ cstr base ++ [46, 88, 88, 88, 88, 88, 88])

/-- `open(fname, mode)` (`AtomicFile.cpp` 37-64). -/
def «open» (L : Libc) (S : Sys) (w : World) (fresh : Nat) (fname : Bytes) (mode : Option Nat) : Eff (Bool × Obj × World) := do
  let tmp ← template L fname
  let (fd, tmp, w) := mkstemp S w fresh tmp
  return (fd.isSome, ⟨fname, tmp, fd, mode⟩, w)

/-- `abort()` (`AtomicFile.cpp` 66-74). -/
def abort (S : Sys) (w : World) (o : Obj) : Bool × Obj × World :=
  if o.fd = none then (false, o, w)
  else
    let (_, w) := unlink S w o.tmpname
    let (_, w) := close S w o.fd
    (true, { o with fd := none }, w)

/-- `cleanup:` with `remove_temp` (`AtomicFile.cpp` 97-102). -/
def cleanup (S : Sys) (w : World) (o : Obj) : Bool × Obj × World :=
  let (_, w) := unlink S w o.tmpname
  (false, { o with fd := none }, w)

/-- `commit()` from `fsync` on (`AtomicFile.cpp` 84-102). -/
def commitData (S : Sys) (w : World) (o : Obj) : Bool × Obj × World :=
  let (r, w) := fsync S w o.fd
  if r = false then cleanup S w o
  else
    let (r, w) := close S w o.fd
    if r = false then cleanup S w o
    else
      let (r, w) := rename S w o.tmpname o.fname
      if r = false then cleanup S w o
      else (true, { o with fd := none }, w)

/-- `commit()` (`AtomicFile.cpp` 76-103). -/
def commit (S : Sys) (w : World) (o : Obj) : Bool × Obj × World :=
  match o.mode with
  | none => commitData S w o
  | some m =>
    let (r, w) := fchmod S w o.fd m
    if r = false then cleanup S w o else commitData S w o

/-- `~AtomicFile()` (`AtomicFile.h` 50-54). -/
def destroy (S : Sys) (w : World) (o : Obj) : World := if o.fd = none then w else (abort S w o).2.2

/-! ## Histories of one object -/

/-- What the user does with an object for one file name. -/
inductive Act
  | «open» (fresh : Nat) (mode : Option Nat)
  | write (g : Bytes → Bytes)
  | commit
  | abort
  | destroy

/-- Ghost: `log` has the contents of the temporary file at each call of `commit()`. -/
structure Hist where
  w : World
  o : Obj
  log : List Bytes

/-- One step; after `destroy` a new object is made. -/
def act (L : Libc) (S : Sys) (fname : Bytes) (h : Hist) : Act → Eff Hist
  | .open fresh mode => do
    let (_, o, w) ← «open» L S h.w fresh fname mode
    return { h with o, w }
  | .write g => .ret { h with w := write h.w h.o.fd g }
  | .commit =>
    let (_, o, w) := commit S h.w h.o
    .ret ⟨w, o, h.log ++ ((h.o.fd.bind h.w.fs.fds).map fun i => (h.w.fs.ino i).data).toList⟩
  | .abort =>
    let (_, o, w) := abort S h.w h.o
    .ret { h with o, w }
  | .destroy => .ret { h with w := destroy S h.w h.o, o := {} }

/-- The states that sequences of calls lead to. -/
inductive Reach (L : Libc) (S : Sys) (fname : Bytes) (w₀ : World) : Hist → Prop
  | init : Reach L S fname w₀ ⟨w₀, {}, []⟩
  | step {h h' : Hist} (a : Act) : Reach L S fname w₀ h → act L S fname h a = .ret h' → Reach L S fname w₀ h'

/-! ## What can be seen -/

/-- The contents under a directory entry now; `none`: there is no such file. -/
def sees (fs : FS) (e : Entry) : Option Bytes := (fs.dir e).map fun i => (fs.ino i).data

/-- The contents that may be found under a directory entry after a crash. -/
def MaySee (fs : FS) (e : Entry) (c : Option Bytes) : Prop :=
  ∃ d ∈ fs.dir :: fs.past, match d e with
    | none => c = none
    | some i => ∃ x, c = some x ∧ ((fs.ino i).synced = true → x = (fs.ino i).data)

end Bdlib.Af
