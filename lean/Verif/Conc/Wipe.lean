import Verif.Cleanse

/-!
# Threads that destroy unrelated Strings

`~String` runs `cleanse()` on the storage of the last reference (`String.h` 148-153), and `cleanse()` reads
and writes `String::cleanse_ctr`, a plain `static unsigned char` (`String.h` 68, `String.cpp` 39) that all
Strings of all threads share.  Here every thread destroys a sequence of Strings of its own; no storage is
shared.  A step of a thread is one access to `cleanse_ctr` with the private computation around it.  Memory is
sequentially consistent; where two accesses are a data race, on which C++ gives no guarantee, `Races` says so.
-/

namespace Bdlib.Wipe
open Bdlib

/-- The storage of a String that is the last reference to it: address and contents of the whole capacity
(`real_begin()` and `capacity()`, `String.h` 72-73). -/
structure Job where
  addr : Nat
  buf : List UInt8
  deriving DecidableEq

/-- Where a thread is inside `cleanse()`: the access it makes next. -/
inductive Pc
  /-- between destructors -/
  | idle
  /-- about to read the counter and to store it in byte `i` (`String.h` 79) -/
  | put (i : Nat)
  /-- about to read the counter for `cleanse_ctr += …` (`String.h` 80); byte `i` is stored -/
  | load (i : Nat)
  /-- about to store `v` in the counter (`String.h` 80) -/
  | save (i : Nat) (v : UInt8)
  /-- about to read the counter for `memchr` (`String.h` 82) -/
  | look
  /-- about to read the counter for `cleanse_ctr += …` (`String.h` 83) -/
  | load2
  /-- about to store `v` in the counter (`String.h` 83) -/
  | save2 (v : UInt8)
  deriving DecidableEq

/-- A thread: the String it is destroying (if not `idle`) and those it will destroy. -/
structure Thr where
  pc : Pc := .idle
  cur : Job := ⟨0, []⟩
  todo : List Job
  deriving DecidableEq

structure Sys where
  /-- `String::cleanse_ctr` -/
  ctr : UInt8
  thr : Nat → Thr
  /-- what was handed back to the allocator, in order: thread, address and bytes -/
  log : List (Nat × Job) := []

def Sys.set (s : Sys) (t : Nat) (x : Thr) : Sys := { s with thr := fun u => if u = t then x else s.thr u }

/-- `while(loop--)` (`String.h` 77): the next byte, or the end of the loop. -/
def next (j : Job) (i : Nat) : Pc := if i < j.buf.length then .put i else .look

/-- The end of `cleanse()`; then the storage is released (`ReferenceCountedArray.h` 363-368). -/
def done (s : Sys) (t : Nat) : Sys :=
  { s.set t { s.thr t with pc := .idle } with log := s.log ++ [(t, (s.thr t).cur)] }

/-- One step of thread `t`; a thread without anything left to do stays where it is. -/
def step (s : Sys) (t : Nat) : Sys :=
  let x := s.thr t
  match x.pc with
  | .idle =>
    match x.todo with
    | [] => s
    | j :: rest => s.set t { pc := next j 0, cur := j, todo := rest }
  | .put i => s.set t { x with pc := .load i, cur := { x.cur with buf := x.cur.buf.set i s.ctr } }
  | .load i => s.set t { x with pc := .save i (s.ctr + UInt8.ofNat (17 + (x.cur.addr + i + 1) % 16)) }
  | .save i v => { s.set t { x with pc := next x.cur (i + 1) } with ctr := v }
  | .look => if x.cur.buf.contains s.ctr then s.set t { x with pc := .load2 } else done s t
  | .load2 => s.set t { x with pc := .save2 (s.ctr + UInt8.ofNat (63 + (x.cur.addr + x.cur.buf.length))) }
  | .save2 v => { done s t with ctr := v }

/-- Thread `t` is going to destroy Strings with the storage `jobs t`, in that order. -/
def init (ctr : UInt8) (jobs : Nat → List Job) : Sys := { ctr := ctr, thr := fun t => { todo := jobs t } }

/-- An execution: the threads in the order in which they take steps. -/
def run (s : Sys) (sched : List Nat) : Sys := sched.foldl step s

/-- The access to `cleanse_ctr` a thread makes next: `some true` if it is a write. -/
def Pc.access : Pc → Option Bool
  | .idle => none
  | .save _ _ => some true
  | .save2 _ => some true
  | _ => some false

/-- Two threads are about to access `cleanse_ctr`, one of them to write it: a data race ([intro.races]). -/
def Races (s : Sys) : Prop :=
  ∃ t t', t ≠ t' ∧ (s.thr t).pc.access = some true ∧ (s.thr t').pc.access ≠ none

end Bdlib.Wipe
