import Verif.Machine.Basic

/-!
# Threads that share storage

Any number of threads, each using its own `String`/`Array` objects; objects of different threads may share a
buffer.  The members of an object are private to its thread, so a step of a thread is one access to shared
memory (the atomic `refs`, the buffer, the allocator) together with the private computation around it.
`std::atomic<int>` operations in the code use the default sequentially consistent order, so interleaving
semantics is right for them; that there is no data race on the buffer is part of what is proved.

Simplified: objects without storage do not take part; allocation succeeds; the new buffer of `COW`, which no other
thread can reach, appears when the copy is complete.  What a modification makes of the value is a function, so that
`put` stands for all calls that modify (element assignment, `+=`, `insert`, `replace`, `resize` …); done in place, also
where `Realloc` moves the elements behind the same `ArrayRef`, it is one step, and the value stays at its offset.
-/

namespace Bdlib.Conc
open Bdlib

/-- `ArrayRef` (`ReferenceCountedArray.h` 50-66). -/
structure Blk (T : Type) where
  refs : Int
  data : List T

/-- An object's members (`ReferenceCountedArray.h` 330-338): owning thread, name (`none` for an object whose
destructor or assignment is running, which nobody can name), `Ref`, `offset`, `sublen`. -/
structure Ref where
  thr : Nat
  obj : Option Nat
  blk : Nat
  off : Nat
  len : Nat
  deriving DecidableEq

/-- Where a thread is inside a call. -/
inductive Pc (T : Type)
  /-- between calls -/
  | idle
  /-- `isShared()` was false (`ReferenceCountedArray.h` 407-412): about to write in place -/
  | write (r : Ref) (f : List T → List T)
  /-- `isShared()` was true: about to `doDetach()` in `COW` (`ReferenceCountedArray.h` 388) -/
  | cow (r : Ref) (f : List T → List T)
  /-- the reference was given up, the old buffer is being copied (`ReferenceCountedArray.h` 389-391); `got` is done -/
  | copy (r : Ref) (f : List T → List T) (got : List T)
  /-- `isShared()` was true in `Detach` (`ReferenceCountedArray.h` 346-348) -/
  | detach (r : Ref)
  /-- `rcount() == 1` in `~String` gave `last` (`String.h` 150) -/
  | wipe (r : Ref) (last : Bool)
  /-- about to run `decRef()` in `CheckDeallocRef` (`ReferenceCountedArray.h` 364) -/
  | release (r : Ref)
  /-- `decRef()` gave a value below one: about to `delete Ref` (`ReferenceCountedArray.h` 365) -/
  | free (a : Nat)

structure Sys (T : Type) where
  heap : Nat → Option (Blk T) := fun _ => none
  next : Nat := 0
  refs : List Ref := []
  pc : Nat → Pc T := fun _ => .idle

/-- What a thread may do next: start a call, or `go` on with the one it is in. -/
inductive Act (T : Type)
  | make (o : Nat) (xs : List T)
  /-- copy constructor; the new object belongs to thread `t`, so this is also how objects are handed over -/
  | dup (o t o' : Nat)
  /-- move constructor; the new object belongs to thread `t`; the object moved from, which has no storage any more, takes no further part -/
  | move (o t o' : Nat)
  /-- slices, `pop_back`, `operator+=(size_t)` …: a smaller window of the same buffer -/
  | window (o off len : Nat)
  | get (o : Nat)
  /-- all calls that make `f v` of the value `v` after `AboutToModify` -/
  | put (o : Nat) (f : List T → List T)
  | clear (o : Nat)
  | drop (o : Nat)
  | assign (o o' : Nat)
  | go

inductive Out (T : Type)
  /-- the thread cannot do this now -/
  | stuck
  /-- access to released memory -/
  | ub
  | ok (s : Sys T) (seen : Option (List T))

variable {T : Type}

def Sys.find (s : Sys T) (t o : Nat) : Option Ref := s.refs.find? fun r => decide (r.thr = t ∧ r.obj = some o)

def Sys.setBlk (s : Sys T) (a : Nat) (b : Option (Blk T)) : Sys T :=
  { s with heap := fun a' => if a' = a then b else s.heap a' }

def Sys.setPc (s : Sys T) (t : Nat) (p : Pc T) : Sys T := { s with pc := fun t' => if t' = t then p else s.pc t' }

/-- Replace the members of an object. -/
def Sys.setRef (s : Sys T) (r r' : Ref) : Sys T := { s with refs := r' :: s.refs.erase r }

/-- Is the name taken?  Also while the object leaves its old storage. -/
def Sys.used (s : Sys T) (t o : Nat) : Bool :=
  (s.find t o).isSome || match s.pc t with
    | .copy r _ _ => decide (r.obj = some o)
    | _ => false

/-- Access to a block; undefined if it was deleted. -/
def Sys.access (s : Sys T) (a : Nat) (f : Blk T → Out T) : Out T :=
  match s.heap a with
  | none => .ub
  | some b => f b

/-- One step of thread `t`.  `w` is `some` for `String`, whose destructor wipes (the byte written at each
index). -/
def step (w : Option (Nat → T)) (s : Sys T) (t : Nat) (act : Act T) : Out T :=
  match s.pc t, act with
  | .idle, .make o xs =>
    -- constructors allocating storage (`ReferenceCountedArray.h` 462-503)
    if (s.find t o).isSome then .stuck
    else .ok { s.setBlk s.next (some ⟨1, xs⟩) with
      next := s.next + 1, refs := ⟨t, some o, s.next, 0, xs.length⟩ :: s.refs } none
  | .idle, .dup o t' o' =>
    -- copy constructor (`ReferenceCountedArray.h` 434-440): `incRef()`
    match s.find t o with
    | none => .stuck
    | some r =>
      if s.used t' o' then .stuck
      else s.access r.blk fun b => .ok { s.setBlk r.blk (some { b with refs := b.refs + 1 }) with
        refs := { r with thr := t', obj := some o' } :: s.refs } none
  | .idle, .move o t' o' =>
    -- move constructor (`ReferenceCountedArray.h` 441-451): private members only
    match s.find t o with
    | none => .stuck
    | some r => if s.used t' o' then .stuck else .ok (s.setRef r { r with thr := t', obj := some o' }) none
  | .idle, .window o off len =>
    -- private members only (`ReferenceCountedArray.h` 956-980, 1010-1013)
    match s.find t o with
    | none => .stuck
    | some r => if off + len ≤ r.len then .ok (s.setRef r { r with off := r.off + off, len := len }) none else .stuck
  | .idle, .get o =>
    -- const element access (`ReferenceCountedArray.h` 834-839)
    match s.find t o with
    | none => .stuck
    | some r => s.access r.blk fun b => .ok s (some (Bdlib.window b.data r.off r.len))
  | .idle, .put o f =>
    -- `AboutToModify` (`ReferenceCountedArray.h` 405-413): the load of `refs` in `isShared()`
    match s.find t o with
    | none => .stuck
    | some r => s.access r.blk fun b => .ok (s.setPc t (if b.refs > 1 then .cow r f else .write r f)) none
  | .idle, .clear o =>
    -- `Detach` (`ReferenceCountedArray.h` 346-354)
    match s.find t o with
    | none => .stuck
    | some r => s.access r.blk fun b =>
      .ok (if b.refs > 1 then s.setPc t (.detach r) else s.setRef r { r with off := 0, len := 0 }) none
  | .idle, .drop o =>
    -- destructor; `~String` first loads `refs` (`String.h` 148-153, `ReferenceCountedArray.h` 429)
    match s.find t o with
    | none => .stuck
    | some r =>
      let r' := { r with obj := none }
      match w with
      | none => .ok ((s.setRef r r').setPc t (.release r')) none
      | some _ => s.access r.blk fun b => .ok ((s.setRef r r').setPc t (.wipe r' (decide (b.refs = 1)))) none
  | .idle, .assign o o' =>
    -- copy assignment (`ReferenceCountedArray.h` 527-536): `incRef()` of the source first
    match s.find t o, s.find t o' with
    | some r, some q => s.access q.blk fun b =>
      let r' := { r with obj := none }
      .ok { (s.setBlk q.blk (some { b with refs := b.refs + 1 })).setPc t (.release r') with
        refs := { q with obj := some o } :: r' :: s.refs.erase r } none
    | _, _ => .stuck
  | .write r f, .go =>
    -- the value is changed in place
    s.access r.blk fun b =>
      let new := f (Bdlib.window b.data r.off r.len)
      .ok (((s.setBlk r.blk (some { b with data := b.data.take r.off ++ new ++ b.data.drop (r.off + r.len) })).setRef r
        { r with len := new.length }).setPc t .idle) none
  | .cow r f, .go =>
    -- `doDetach()` (`ReferenceCountedArray.h` 259-265)
    s.access r.blk fun b =>
      .ok { (s.setBlk r.blk (some { b with refs := b.refs - 1 })).setPc t (.copy r f []) with refs := s.refs.erase r } none
  | .copy r f got, .go =>
    -- `std::copy` from the old buffer, one element; after the last one the modification of the new buffer
    if r.len = 0 then .ok { (s.setBlk s.next (some ⟨1, f got⟩)).setPc t .idle with
      next := s.next + 1, refs := { r with blk := s.next, off := 0, len := (f got).length } :: s.refs } none
    else s.access r.blk fun b =>
      match b.data[r.off + got.length]? with
      | none => .ub
      | some y =>
        if got.length + 1 < r.len then .ok (s.setPc t (.copy r f (got ++ [y]))) none
        else .ok { (s.setBlk s.next (some ⟨1, f (got ++ [y])⟩)).setPc t .idle with
          next := s.next + 1, refs := { r with blk := s.next, off := 0, len := (f (got ++ [y])).length } :: s.refs } none
  | .detach r, .go =>
    s.access r.blk fun b =>
      .ok { (s.setBlk r.blk (some { b with refs := b.refs - 1 })).setPc t .idle with refs := s.refs.erase r } none
  | .wipe r last, .go =>
    -- `cleanse()` if this was the last reference (`String.h` 150-152)
    if last then s.access r.blk fun b =>
      .ok ((s.setBlk r.blk (some { b with data := match w with
        | some f => (List.range b.data.length).map f
        | none => b.data })).setPc t (.release r)) none
    else .ok (s.setPc t (.release r)) none
  | .release r, .go =>
    -- `decRef() < 1`
    s.access r.blk fun b =>
      .ok { (s.setBlk r.blk (some { b with refs := b.refs - 1 })).setPc t
        (if b.refs - 1 < 1 then .free r.blk else .idle) with refs := s.refs.erase r } none
  | .free a, .go =>
    -- `delete Ref`
    s.access a fun _ => .ok ((s.setBlk a none).setPc t .idle) none
  | _, _ => .stuck

/-- The steps that go wrong: thread one is about to do `p`, thread two is in the middle of `q`, with the same
storage.  Either a reference is given up although the other thread has found the storage shared and is about
to give up its own, or a buffer is written, wiped or deleted while the other thread copies it. -/
def Pc.clash : Pc T → Pc T → Prop
  | .cow r _, .cow r' _ => r.blk = r'.blk
  | .cow r _, .detach r' => r.blk = r'.blk
  | .detach r, .cow r' _ => r.blk = r'.blk
  | .detach r, .detach r' => r.blk = r'.blk
  | .release r, .cow r' _ => r.blk = r'.blk
  | .release r, .detach r' => r.blk = r'.blk
  | .write r _, .copy r' _ _ => r.blk = r'.blk
  | .wipe r true, .copy r' _ _ => r.blk = r'.blk
  | .free a, .copy r' _ _ => a = r'.blk
  | _, _ => False

end Bdlib.Conc
