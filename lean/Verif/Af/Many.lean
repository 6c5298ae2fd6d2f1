import Verif.Af.Hist

/-!
# Many `AtomicFile` objects at once

Any number of objects, used by any number of threads or processes on one file system.  What one of them does
is interrupted between any two system calls.  Simplified: descriptor numbers are global (a process sees its
own ones only), and a call to `open()` is one step, as it makes one system call.
-/

namespace Bdlib.Af
open Bdlib Bdlib.Str Bdlib.Spec

variable [Tree]

/-- The next system call of the thread that uses an object; `idle`: it is in no call.
`fchmod` … `cleanup`: `commit()` (`AtomicFile.cpp` 81-98); `drop`, `shut`: `abort()` (`AtomicFile.cpp` 70-71). -/
inductive Pc
  | idle
  | fchmod (mode : Nat)
  | fsync
  | close
  | rename
  | cleanup
  | drop
  | shut

/-- An object, where its user is, the result of their last call; ghost: what the temporary file held when they
last called `commit()`. -/
structure Slot where
  o : Obj := {}
  pc : Pc := .idle
  ret : Option Bool := none
  data : Bytes := []

/-- The first system call of `commit()` (`AtomicFile.cpp` 81-84). -/
def commitPc (o : Obj) : Pc :=
  match o.mode with
  | none => .fsync
  | some m => .fchmod m

/-- One system call and what follows it (`AtomicFile.cpp` 66-103). -/
def tick (S : Sys) (s : Slot) (w : World) : Slot × World :=
  match s.pc with
  | .idle => (s, w)
  | .fchmod m => let (r, w) := Af.fchmod S w s.o.fd m; ({ s with pc := if r = false then .cleanup else .fsync }, w)
  | .fsync => let (r, w) := Af.fsync S w s.o.fd; ({ s with pc := if r = false then .cleanup else .close }, w)
  | .close => let (r, w) := Af.close S w s.o.fd; ({ s with pc := if r = false then .cleanup else .rename }, w)
  | .rename =>
    let (r, w) := Af.rename S w s.o.tmpname s.o.fname
    (if r = false then { s with pc := .cleanup }
      else { s with o := { s.o with fd := none }, pc := .idle, ret := some true }, w)
  | .cleanup =>
    let (_, w) := unlink S w s.o.tmpname
    ({ s with o := { s.o with fd := none }, pc := .idle, ret := some false }, w)
  | .drop => let (_, w) := unlink S w s.o.tmpname; ({ s with pc := .shut }, w)
  | .shut =>
    let (_, w) := Af.close S w s.o.fd
    ({ s with o := { s.o with fd := none }, pc := .idle, ret := some true }, w)

/-- The file system and all objects.  Ghost: `log` has, for each call of `commit()`, the target and the content
of the temporary file at that moment; `done` the same for each successful one, the last first. -/
structure Many where
  w : World
  slot : Nat → Slot
  log : List (Entry × Bytes)
  done : List (Entry × Bytes)

/-- The user of object `k` makes one system call. -/
def Many.tick (S : Sys) (m : Many) (k : Nat) : Many :=
  let r := Af.tick S (m.slot k) m.w
  { m with w := r.2, slot := setFn m.slot k r.1,
           done := match (m.slot k).pc, r.1.pc with
             | .rename, .idle => (entryOf (m.slot k).o.fname, (m.slot k).data) :: m.done
             | _, _ => m.done }

/-- What a call of `commit()` would make the target hold. -/
def held (w : World) (o : Obj) : Bytes := ((o.fd.bind w.fs.fds).map fun i => (w.fs.ino i).data).getD []

/-- The call of `commit()`, before its first system call. -/
def Many.commit (m : Many) (k : Nat) : Many :=
  let s := m.slot k
  { m with slot := setFn m.slot k { s with pc := commitPc s.o, data := held m.w s.o },
           log := (entryOf s.o.fname, held m.w s.o) :: m.log }

/-- The call of `abort()` or of the destructor, before its first system call. -/
def Many.abort (m : Many) (k : Nat) : Many :=
  let s := m.slot k
  { m with slot := setFn m.slot k (if s.o.fd = none then { s with ret := some false } else { s with pc := .drop }) }

/-- The temporary file of the object exists: it is open, or in `commit()`. -/
def Slot.Live (s : Slot) : Prop := s.o.fd ≠ none ∧ s.pc ≠ .shut

/-- The user of the object will still use the descriptor. -/
def Pc.UsesFd : Pc → Prop
  | .rename | .cleanup => False
  | _ => True

/-- Anything programs without `AtomicFile` may do: they make, change, rename and remove files, and the system
writes directories to disk, but they leave the targets and the temporary files of open objects alone. -/
structure Elsewhere (T : Bytes → Prop) (m : Many) (fs : FS) : Prop where
  target : ∀ f, T f → fs.dir (entryOf f) = m.w.fs.dir (entryOf f)
  temp : ∀ k, (m.slot k).Live → fs.dir (entryOf (m.slot k).o.tmpname) = m.w.fs.dir (entryOf (m.slot k).o.tmpname)
  past : ∀ d ∈ fs.past, d ∈ m.w.fs.dir :: m.w.fs.past
  inos : m.w.fs.inos ≤ fs.inos
  targetFile : ∀ f, T f → ∀ d ∈ m.w.fs.dir :: m.w.fs.past, ∀ i, d (entryOf f) = some i → fs.ino i = m.w.fs.ino i
  tempFile : ∀ k, (m.slot k).Live → ∀ i, m.w.fs.dir (entryOf (m.slot k).o.tmpname) = some i → fs.ino i = m.w.fs.ino i
  fds : ∀ k, (m.slot k).o.fd ≠ none → (m.slot k).pc.UsesFd → ∀ f, (m.slot k).o.fd = some f → fs.fds f = m.w.fs.fds f

/-- One step of the system.  `T`: the target names in use.  `polite`: objects are not copied, and `commit()` is
called only on open ones. -/
inductive Next (L : Libc) (S : Sys) (T : Bytes → Prop) (polite : Bool) (m : Many) : Many → Prop
  | «open» (k fresh : Nat) (fname : Bytes) (mode : Option Nat) {r : Bool} {o : Obj} {w : World} (ht : T fname)
      (hi : (m.slot k).pc = .idle) (h : Af.open L S m.w fresh fname mode = .ret (r, o, w)) :
      Next L S T polite m { m with w, slot := setFn m.slot k { o, ret := some r } }
  | write (k : Nat) (g : Bytes → Bytes) (hi : (m.slot k).pc = .idle) :
      Next L S T polite m { m with w := Af.write m.w (m.slot k).o.fd g }
  | commit (k : Nat) (hi : (m.slot k).pc = .idle) (hp : polite = true → (m.slot k).o.fd ≠ none) :
      Next L S T polite m (m.commit k)
  | abort (k : Nat) (hi : (m.slot k).pc = .idle) : Next L S T polite m (m.abort k)
  | tick (k : Nat) : Next L S T polite m (m.tick S k)
  /-- The implicit copy constructor and assignment (`AtomicFile.h` 38-54 declares none). -/
  | copy (j k : Nat) (hp : polite = false) (hj : (m.slot j).pc = .idle) (hk : (m.slot k).pc = .idle) :
      Next L S T polite m { m with slot := setFn m.slot k (m.slot j) }
  | other (fs : FS) (h : Elsewhere T m fs) : Next L S T polite m { m with w := m.w.push fs }

/-- The states reached from one where no object is open. -/
inductive Reaches (L : Libc) (S : Sys) (T : Bytes → Prop) (polite : Bool) (w₀ : World) : Many → Prop
  | init : Reaches L S T polite w₀ ⟨w₀, fun _ => {}, [], []⟩
  | next {m m' : Many} : Reaches L S T polite w₀ m → Next L S T polite m m' → Reaches L S T polite w₀ m'

/-! ## Alone, the steps of a call are the call -/

/-- Five steps of a user nobody interrupts are `commit()`. -/
theorem commit_ticks (S : Sys) (s : Slot) (w : World) :
    let p := fun x : Slot × World => tick S x.1 x.2
    p (p (p (p (p ({ s with pc := commitPc s.o }, w))))) =
      ({ s with o := (commit S w s.o).2.1, pc := .idle, ret := some (commit S w s.o).1 }, (commit S w s.o).2.2) := by
  intro p
  have hdata : ∀ (o : Obj) (r : Option Bool) (d : Bytes) (w : World), p (p (p (p (⟨o, .fsync, r, d⟩, w)))) =
      (⟨(commitData S w o).2.1, .idle, some (commitData S w o).1, d⟩, (commitData S w o).2.2) := by
    intro o r d w
    by_cases h1 : (fsync S w o.fd).1 = false
    · simp [p, tick, commitData, cleanup, h1]
    · by_cases h2 : (close S (fsync S w o.fd).2 o.fd).1 = false
      · simp [p, tick, commitData, cleanup, h1, h2]
      · by_cases h3 : (rename S (close S (fsync S w o.fd).2 o.fd).2 o.tmpname o.fname).1 = false
        · simp [p, tick, commitData, cleanup, h1, h2, h3]
        · simp [p, tick, commitData, h1, h2, h3]
  obtain ⟨⟨fname, tmpname, fd, mode⟩, pc, r, d⟩ := s
  cases mode with
  | none =>
    have := hdata ⟨fname, tmpname, fd, none⟩ r d w
    simp only [commitPc, commit]
    rw [this]
    simp [p, tick]
  | some m =>
    simp only [commitPc, commit]
    by_cases h1 : (fchmod S w fd m).1 = false
    · simp [p, tick, cleanup, h1]
    · have := hdata ⟨fname, tmpname, fd, some m⟩ r d (fchmod S w fd m).2
      rw [if_neg h1, ← this]
      simp [p, tick, h1]

/-- Two steps of a user nobody interrupts are `abort()` of an open object. -/
theorem abort_ticks (S : Sys) (s : Slot) (w : World) (ho : s.o.fd ≠ none) :
    let p := fun x : Slot × World => tick S x.1 x.2
    p (p ({ s with pc := .drop }, w)) =
      ({ s with o := (abort S w s.o).2.1, pc := .idle, ret := some (abort S w s.o).1 }, (abort S w s.o).2.2) := by
  intro p
  simp [p, tick, abort, ho]

end Bdlib.Af
