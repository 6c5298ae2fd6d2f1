import Verif.Rca.Model

/-!
# Threads that use the same object

One `String` object that any number of threads use at once, each through `const` members only, and further
objects that may share its buffer.  `const` members are what a user may expect to call without a lock.  The
members `Ref`, `offset`, `sublen` and `my_hash` are `mutable` (`ReferenceCountedArray.h` 313-338), plain words
without atomicity; `hash()` and `c_str()` write them.

A step of a thread is one access to the shared members or to the buffer, or a group of accesses the code makes
one directly after the other; the comment at each place in a call says which.  Grouping gives the other threads
fewer chances to interfere: the refutations hold a fortiori, and the positive theorems are about executions in
which the grouped members never change.  Memory is sequentially consistent; where the accesses are data races,
on which C++ gives no guarantee at all, `Races` says so.  Allocation succeeds.
-/

namespace Bdlib.Same
open Bdlib

/-- `ArrayRef` (`ReferenceCountedArray.h` 50-66). -/
structure Blk where
  refs : Int
  data : List UInt8
  deriving DecidableEq

/-- The members of an object (`ReferenceCountedArray.h` 313-338). -/
structure Obj where
  ref : Option Nat
  off : Nat
  len : Nat
  hash : UInt64
  deriving DecidableEq

/-- The `const` calls on the common object. -/
inductive Call
  /-- `length()`, `size()`, `empty()` (`ReferenceCountedArray.h` 667-691) -/
  | length
  /-- `at(i)` and the readers built on it (`ReferenceCountedArray.h` 415-418, 946-949) -/
  | at (i : Nat)
  /-- `hash()` (`ReferenceCountedArray.h` 780-788) -/
  | hash
  /-- copying the object (`ReferenceCountedArray.h` 435-441) -/
  | copy
  /-- `c_str()` (`String.h` 232-245) -/
  | cStr
  deriving DecidableEq

/-- Where a thread is inside a call: the access it makes next. -/
inductive Pc
  /-- between calls -/
  | idle
  /-- about to read `sublen` -/
  | length
  /-- about to read `sublen` in `validateIndex` (`ReferenceCountedArray.h` 416) -/
  | atCheck (i : Nat)
  /-- about to read `Ref`, `offset` and the element (`ReferenceCountedArray.h` 302-304) -/
  | atRead (i : Nat)
  /-- about to read `my_hash` (`ReferenceCountedArray.h` 781) -/
  | hashGet
  /-- about to read `sublen` in the condition of the loop (`ReferenceCountedArray.h` 785) -/
  | hashTest (i : Nat) (acc : UInt64)
  /-- about to read `Ref`, `offset` and the element (`ReferenceCountedArray.h` 786) -/
  | hashRead (i : Nat) (acc : UInt64)
  /-- about to store `my_hash` (`ReferenceCountedArray.h` 787) -/
  | hashPut (h : UInt64)
  /-- about to read the four members (`ReferenceCountedArray.h` 438-439) -/
  | copyRead
  /-- about to increment the count (`ReferenceCountedArray.h` 440, 269) -/
  | copyInc (o : Obj)
  /-- about to read `sublen` (`String.h` 233) -/
  | cLen
  /-- about to read `sublen`, `Ref`, `offset` and the byte behind the value (`String.h` 237) -/
  | cByte
  /-- about to read `sublen` and to store `my_hash` (`String.h` 239, `ReferenceCountedArray.h` 406) -/
  | cHash
  /-- about to read `Ref` and its count, `isShared()` (`ReferenceCountedArray.h` 407, 597) -/
  | cShared (n : Nat)
  /-- about to read `Ref`, `offset` and `sublen` (`ReferenceCountedArray.h` 384-385) -/
  | cOld (n : Nat)
  /-- about to decrement the count, `decRef()` (`ReferenceCountedArray.h` 260, 274) -/
  | cDec (n : Nat) (old : Obj)
  /-- about to store the four members (`ReferenceCountedArray.h` 261-264) -/
  | cNull (n : Nat) (old : Obj)
  /-- about to `reserve` (`ReferenceCountedArray.h` 389): allocates and stores `Ref` if that is null -/
  | cAlloc (n : Nat) (old : Obj)
  /-- about to store `sublen` and to copy the old bytes (`ReferenceCountedArray.h` 390-391) -/
  | cFill (n : Nat) (old : Obj)
  /-- about to `reserve` without a detach (`ReferenceCountedArray.h` 410) -/
  | cGrow (n : Nat)
  /-- about to read `sublen`, `Ref`, `offset` and to store the terminator (`String.h` 240) -/
  | cTerm
  /-- about to read `Ref` and `offset`, `return cbegin()` (`String.h` 244) -/
  | cRet
  deriving DecidableEq

/-- What a call gave, as its caller sees it. -/
inductive Seen
  | length (n : Nat)
  /-- `none`: `std::out_of_range` -/
  | at (i : Nat) (x : Option UInt8)
  | hash (h : UInt64)
  | copy (o : Obj)
  /-- the bytes from the pointer returned up to and including the first NUL -/
  | cStr (bs : List UInt8)
  /-- the value of one of the other objects -/
  | other (o : Obj) (bs : List UInt8)
  deriving DecidableEq

structure Sys where
  /-- the object all threads use -/
  main : Obj
  heap : Nat → Option Blk
  /-- blocks from here on have never been allocated -/
  next : Nat
  /-- the other objects -/
  others : List Obj
  pc : Nat → Pc

/-- What a thread may do next. -/
inductive Act
  /-- start a call on the common object -/
  | call (c : Call)
  /-- go on with the call it is in -/
  | go
  /-- read the `k`th other object -/
  | read (k : Nat)
  /-- copy the `k`th other object -/
  | dup (k : Nat)
  /-- destroy the `k`th other object -/
  | drop (k : Nat)
  deriving DecidableEq

inductive Out
  /-- the thread cannot do this now -/
  | stuck
  /-- access to released memory, to memory outside a buffer or through a null pointer -/
  | ub
  | ok (s : Sys) (seen : Option Seen)

/-- The buffer behind `Ref`, if it is there (`ReferenceCountedArray.h` 302-304). -/
def buf (h : Nat → Option Blk) (o : Obj) : Option (List UInt8) := (o.ref.bind h).map Blk.data

/-- `*constBuf(i)` (`ReferenceCountedArray.h` 302-311). -/
def byteAt (h : Nat → Option Blk) (o : Obj) (i : Nat) : Option UInt8 := (buf h o).bind (·[o.off + i]?)

/-- The value of an object: `sublen` bytes from `offset` on (`ReferenceCountedArray.h` 667-669, 718-720). -/
def value (h : Nat → Option Blk) (o : Obj) : Option (List UInt8) :=
  if o.len = 0 then some []
  else (buf h o).bind fun d => if o.off + o.len ≤ d.length then some ((d.drop o.off).take o.len) else none

/-- The bytes of a C string: up to and including the first NUL, `none` if there is none (`String.h` 228). -/
def cBytes : List UInt8 → Option (List UInt8)
  | [] => none
  | x :: xs => if x = 0 then some [0] else (cBytes xs).map (x :: ·)

/-- Change the count of the block of `o` (`ReferenceCountedArray.h` 269, 274); objects without storage have
none; `none` if the block was released. -/
def addRef (h : Nat → Option Blk) (o : Obj) (d : Int) : Option (Nat → Option Blk) :=
  match o.ref with
  | none => some h
  | some a =>
    match h a with
    | none => none
    | some b => some fun x => if x = a then some { b with refs := b.refs + d } else h x

/-- `CheckDeallocRef` (`ReferenceCountedArray.h` 363-368) in one step. -/
def release (h : Nat → Option Blk) (o : Obj) : Option (Nat → Option Blk) :=
  match o.ref with
  | none => some h
  | some a =>
    match h a with
    | none => none
    | some b => some fun x => if x = a then (if b.refs - 1 < 1 then none else some { b with refs := b.refs - 1 }) else h x

/-- Where a call starts. -/
def Call.pc : Call → Pc
  | .length => .length
  | .at i => .atCheck i
  | .hash => .hashGet
  | .copy => .copyRead
  | .cStr => .cLen

/-- The step of the loop in `hash()` (`ReferenceCountedArray.h` 786). -/
def mix (hasher : UInt8 → UInt64) (acc : UInt64) (x : UInt8) : UInt64 := ((acc <<< 5) + acc) + hasher x

/-- Thread `t` goes on with its call; the places of a call are described at `Pc`. -/
def go (hasher : UInt8 → UInt64) (s : Sys) (t : Nat) : Out :=
  let to (s' : Sys) (p : Pc) : Out := .ok { s' with pc := fun u => if u = t then p else s'.pc u } none
  let ret (s' : Sys) (r : Seen) : Out := .ok { s' with pc := fun u => if u = t then .idle else s'.pc u } (some r)
  let m := s.main
  match s.pc t with
  | .idle => .stuck
  | .length => ret s (.length m.len)
  | .atCheck i => if m.len ≤ i then ret s (.at i none) else to s (.atRead i)
  | .atRead i =>
    match byteAt s.heap m i with
    | none => .ub
    | some x => ret s (.at i (some x))
  | .hashGet => if m.hash ≠ 0 then ret s (.hash m.hash) else to s (.hashTest 0 5381)
  | .hashTest i acc => if i < m.len then to s (.hashRead i acc) else to s (.hashPut (acc &&& 0x7FFFFFFF))
  | .hashRead i acc =>
    match byteAt s.heap m i with
    | none => .ub
    | some x => to s (.hashTest (i + 1) (mix hasher acc x))
  | .hashPut h => ret { s with main := { m with hash := h } } (.hash h)
  | .copyRead => to s (.copyInc m)
  | .copyInc o =>
    match addRef s.heap o 1 with
    | none => .ub
    | some h => ret { s with heap := h, others := s.others ++ [o] } (.copy o)
  | .cLen => if m.len = 0 then ret s (.cStr [0]) else to s .cByte
  | .cByte =>
    match byteAt s.heap m m.len with
    | none => .ub
    | some x => to s (if x = 0 then .cRet else .cHash)
  | .cHash => to { s with main := { m with hash := 0 } } (.cShared (m.len + 1))
  | .cShared n =>
    match m.ref with
    | none => to s (.cGrow n)
    | some a =>
      match s.heap a with
      | none => .ub
      | some b => to s (if b.refs > 1 then .cOld n else .cGrow n)
  | .cOld n => to s (.cDec n m)
  | .cDec n old =>
    match addRef s.heap m (-1) with
    | none => .ub
    | some h => to { s with heap := h } (.cNull n old)
  | .cNull n old => to { s with main := ⟨none, 0, 0, 0⟩ } (.cAlloc n old)
  | .cAlloc n old =>
    match m.ref with
    | some _ => to s (.cFill n old)
    | none =>
      to { s with heap := fun x => if x = s.next then some ⟨1, List.replicate n 0⟩ else s.heap x, next := s.next + 1,
                  main := { m with ref := some s.next } } (.cFill n old)
  | .cFill n old =>
    let k := min old.len n
    match value s.heap { old with len := k }, m.ref with
    | some v, some a =>
      match s.heap a with
      | none => .ub
      | some b =>
        if m.off + k ≤ b.data.length then
          to { s with heap := fun x => if x = a then some { b with data := b.data.take m.off ++ v ++ b.data.drop (m.off + k) } else s.heap x,
                      main := { m with len := k } } .cTerm
        else .ub
    | _, _ => .ub
  | .cGrow n =>
    match m.ref with
    | none => .ub
    | some a =>
      match s.heap a with
      | none => .ub
      | some b =>
        -- the new buffer, if one is needed, has exactly `n` bytes: simplified
        if m.off + n ≤ b.data.length then to s .cTerm
        else
          to { s with heap := fun x => if x = a then
                                some { b with data := ((b.data.drop m.off).take m.len ++ List.replicate n 0).take n } else s.heap x,
                      main := { m with off := 0 } } .cTerm
  | .cTerm =>
    match m.ref with
    | none => .ub
    | some a =>
      match s.heap a with
      | none => .ub
      | some b =>
        if m.off + m.len < b.data.length then
          to { s with heap := fun x => if x = a then some { b with data := b.data.set (m.off + m.len) 0 } else s.heap x } .cRet
        else .ub
  | .cRet =>
    match buf s.heap m with
    | none => .ub
    | some d =>
      match cBytes (d.drop m.off) with
      | none => .ub
      | some bs => ret s (.cStr bs)

/-- Thread `t` does `act`. -/
def step (hasher : UInt8 → UInt64) (s : Sys) (t : Nat) : Act → Out
  | .go => go hasher s t
  | .call c => if s.pc t = .idle then .ok { s with pc := fun u => if u = t then c.pc else s.pc u } none else .stuck
  | .read k =>
    match s.others[k]? with
    | none => .stuck
    | some o =>
      if s.pc t = .idle then
        match value s.heap o with
        | none => .ub
        | some bs => .ok s (some (.other o bs))
      else .stuck
  | .dup k =>
    match s.others[k]? with
    | none => .stuck
    | some o =>
      if s.pc t = .idle then
        match addRef s.heap o 1 with
        | none => .ub
        | some h => .ok { s with heap := h, others := s.others ++ [o] } none
      else .stuck
  | .drop k =>
    match s.others[k]? with
    | none => .stuck
    | some o =>
      if s.pc t = .idle then
        match release s.heap o with
        | none => .ub
        | some h => .ok { s with heap := h, others := s.others.eraseIdx k } none
      else .stuck

/-! ## Data races -/

/-- Plain, not atomic, memory several threads use. -/
inductive Loc
  | ref | off | len | hash
  | byte (a i : Nat)
  deriving DecidableEq

/-- The byte at index `i` of the object. -/
def byteLoc (o : Obj) (i : Nat) (w : Bool) : List (Loc × Bool) :=
  match o.ref with
  | none => []
  | some a => [(.byte a (o.off + i), w)]

/-- The bytes `i`, `i + 1`, … of the object, `n` of them. -/
def byteLocs (o : Obj) (n : Nat) (w : Bool) : List (Loc × Bool) := (List.range n).flatMap fun i => byteLoc o i w

/-- What a thread accesses in its next step; `true` marks stores.  The places are described at `Pc`. -/
def touches (m : Obj) : Pc → List (Loc × Bool)
  | .idle => []
  | .length => [(.len, false)]
  | .atCheck _ => [(.len, false)]
  | .atRead i => [(.ref, false), (.off, false)] ++ byteLoc m i false
  | .hashGet => [(.hash, false)]
  | .hashTest _ _ => [(.len, false)]
  | .hashRead i _ => [(.ref, false), (.off, false)] ++ byteLoc m i false
  | .hashPut _ => [(.hash, true)]
  | .copyRead => [(.ref, false), (.off, false), (.len, false), (.hash, false)]
  | .copyInc _ => []
  | .cLen => [(.len, false)]
  | .cByte => [(.len, false), (.ref, false), (.off, false)] ++ byteLoc m m.len false
  | .cHash => [(.len, false), (.hash, true)]
  | .cShared _ => [(.ref, false)]
  | .cOld _ => [(.ref, false), (.off, false), (.len, false)]
  | .cDec _ _ => [(.ref, false)]
  | .cNull _ _ => [(.ref, true), (.off, true), (.len, true), (.hash, true)]
  | .cAlloc _ _ => [(.ref, true)]
  | .cFill n old =>
    [(.len, true), (.ref, false), (.off, false)] ++ byteLocs old (min old.len n) false ++ byteLocs m (min old.len n) true
  | .cGrow _ => [(.ref, false), (.off, true)] ++ byteLocs m m.len false
  | .cTerm => [(.len, false), (.ref, false), (.off, false)] ++ byteLoc m m.len true
  | .cRet => [(.ref, false), (.off, false)]

/-- Two threads are about to access the same plain memory, one of them to store: undefined in C++. -/
def Races (s : Sys) : Prop :=
  ∃ t t' l w w', t ≠ t' ∧ (l, w) ∈ touches s.main (s.pc t) ∧ (l, w') ∈ touches s.main (s.pc t') ∧ (w = true ∨ w' = true)

/-! ## Executions -/

/-- States of executions from `s₀` under every interleaving, in which the calls on the common object satisfy `P`. -/
inductive Reaches (hasher : UInt8 → UInt64) (P : Call → Prop) (s₀ : Sys) : Sys → Prop
  | init : Reaches hasher P s₀ s₀
  | step {s s' t act seen} : Reaches hasher P s₀ s → (∀ c, act = .call c → P c) → step hasher s t act = .ok s' seen →
      Reaches hasher P s₀ s'

/-- Number of objects using block `a`. -/
def users (s : Sys) (a : Nat) : Nat := (s.main :: s.others).countP fun o => o.ref = some a

/-- A state in which threads may start: no call is running, the objects have values, the counts are the numbers
of objects, and the cached hash is that of the value, or not there. -/
structure Start (hasher : UInt8 → UInt64) (s : Sys) (v : List UInt8) : Prop where
  idle : ∀ t, s.pc t = .idle
  main : value s.heap s.main = some v
  hash : s.main.hash = 0 ∨ s.main.hash = Rca.hashLoop hasher 5381 v &&& 0x7FFFFFFF
  count : ∀ o ∈ s.main :: s.others, ∀ a, o.ref = some a → ∃ b, s.heap a = some b ∧ b.refs = users s a
  others : ∀ o ∈ s.others, (value s.heap o).isSome

/-- There is a NUL behind the value, as `c_str()` leaves it and as strings made from C strings have it. -/
def Terminated (s : Sys) : Prop := s.main.len = 0 ∨ byteAt s.heap s.main s.main.len = some 0

end Bdlib.Same
