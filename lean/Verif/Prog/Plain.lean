import Verif.Prog.Iter

/-!
# Code between two iterators

What code does that got `begin()` and `end()` of a `String` or an array of plain values: it reads and assigns elements.
-/

namespace Bdlib.Rca
open Bdlib

/-- Code on elements: which step is next may depend on what it read. -/
inductive Work (T : Type) where
  /-- returns; `r` says which iterator, or a number -/
  | done (r : Nat)
  /-- ends with an exception, for example of a comparison -/
  | raise (e : Exc)
  /-- `x = first[i]` -/
  | load (i : Nat) (k : T → Work T)
  /-- `first[i] = x` -/
  | store (i : Nat) (x : T) (k : Work T)

variable {T : Type}

/-- Running it, given the iterator `first`. -/
def Work.exec (first : It) : Work T → M T Nat
  | .done r => pure r
  | .raise e => M.raise e
  | .load i k => do
    let q ← first.plus i
    let x ← q.load
    (k x).exec first
  | .store i x k => do
    let q ← first.plus i
    q.store x
    k.exec first

/-- Running it with reverse iterators, given the pointer `last` in `rbegin()`: `rbegin()[i]` is the element before `last - i`. -/
def Work.rexec (last : It) : Work T → M T Nat
  | .done r => pure r
  | .raise e => M.raise e
  | .load i k => do
    let q ← last.down (i + 1)
    let x ← q.load
    (k x).rexec last
  | .store i x k => do
    let q ← last.down (i + 1)
    q.store x
    k.rexec last

/-- The arguments `s.begin(), s.end()` (`ReferenceCountedArray.h` 713-716, 732) of a call.  In which order they are evaluated is left open
by C++ (`back`: `end()` first). -/
def iters (cfg : Cfg T) (back : Bool) (o : Nat) : M T (It × It) := do
  if back then
    let e ← endI cfg o
    let b ← beginI cfg o
    return (b, e)
  else
    let b ← beginI cfg o
    let e ← endI cfg o
    return (b, e)

/-- `work(s.begin(), s.end())`, given what it does with `n` elements. -/
def onElements (cfg : Cfg T) (back : Bool) (o : Nat) (f : Nat → Work T) : M T Nat := do
  let (b, e) ← iters cfg back o
  let k ← e.minus b
  (f k).exec b

/-- `work(s.rbegin(), s.rend())` (`ReferenceCountedArray.h` 748, 764: made of `end()` and `begin()`). -/
def onReversed (cfg : Cfg T) (back : Bool) (o : Nat) (f : Nat → Work T) : M T Nat := do
  let (b, e) ← iters cfg back o
  let k ← e.minus b
  (f k).rexec e

end Bdlib.Rca
