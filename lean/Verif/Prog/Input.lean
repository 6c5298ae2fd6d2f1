import Verif.Prog.Model
import Verif.Ios.Model

/-!
# Reading Strings from an istream, on the memory machine

The String is an object whose storage others may share, appending may run out of memory, and what was read from the
stream until then is gone.  The stream itself is that of `Ios/Model.lean`.
-/

namespace Bdlib.Rca
open Bdlib Bdlib.Spec Bdlib.Str Bdlib.Ios

/-- From the stream: how the function ends, and the stream afterwards. -/
def IM (α : Type) := IStream → St UInt8 → Res UInt8 α × IStream

namespace IM
variable {α β : Type}

def pure (a : α) : IM α := fun is s => (.ok a s, is)

def bind (m : IM α) (f : α → IM β) : IM β := fun is s =>
  match m is s with
  | (.ok a s', is') => f a is' s'
  | (.throw e s', is') => (.throw e s', is')
  | (.ub, is') => (.ub, is')

instance : Monad IM where
  pure := IM.pure
  bind := IM.bind

/-- A step that does not touch the stream. -/
def lift (m : SM α) : IM α := fun is s => (m s, is)

/-- A call of the stream. -/
def io (f : IStream → IStream × α) : IM α := fun is s => (.ok (f is).2 s, (f is).1)

end IM

/-- `is.fail()` -/
def failed : IM Bool := IM.io fun is => (is, is.fail)

/-- The loop of `operator>>` (`String.cpp` 161-165), at most `n` iterations; the result is `ch`. -/
def tokenLoopP (cfg : Cfg UInt8) (o : Nat) : Nat → UInt8 → IM UInt8
  | 0, _ => IM.lift M.undef
  | n + 1, ch => do
    IM.lift (append cfg o ch)
    let ch ← IM.io fun is => Ios.get is ch
    let bad ← failed
    if bad = false ∧ Ios.isspace ch = false then tokenLoopP cfg o n ch else return ch

/-- `operator>>` (`String.cpp` 154-173). -/
def extractP (cfg : Cfg UInt8) (n o : Nat) : IM Unit := do
  IM.lift (assignCstr cfg 0 o [])
  let ch ← IM.io fun is => Ios.getChar is 0
  let bad ← failed
  if bad = false then do
    let ch ← tokenLoopP cfg o n ch
    if Ios.isspace ch = true then IM.io fun is => (Ios.putback is ch, ()) else return ()
  else return ()

/-- The loop of `getline` (`String.cpp` 180-181), at most `n` iterations. -/
def lineLoopP (cfg : Cfg UInt8) (o : Nat) : Nat → UInt8 → IM Unit
  | 0, _ => IM.lift M.undef
  | n + 1, ch => do
    let ch ← IM.io fun is => Ios.get is ch
    let bad ← failed
    if bad = false ∧ ch ≠ 10 then do
      IM.lift (append cfg o ch)
      lineLoopP cfg o n ch
    else return ()

/-- `getline` (`String.cpp` 175-184). -/
def getlineP (cfg : Cfg UInt8) (n o : Nat) : IM Unit := do
  IM.lift (assignCstr cfg 0 o [])
  lineLoopP cfg o n 0

/-- `while (getline(is, s)) kept.push_back(s);` in a program that uses the library: copies of the lines. -/
def keepLinesP (cfg : Cfg UInt8) (n o : Nat) : Nat → List Nat → IM (List Nat)
  | 0, _ => IM.lift M.undef
  | k + 1, kept => do
    getlineP cfg n o
    let bad ← failed
    if bad = true then return kept
    else do
      let c ← IM.lift (copyCtor o)
      keepLinesP cfg n o k (kept ++ [c])

/-- `while (is >> s) kept.push_back(s);` -/
def keepTokensP (cfg : Cfg UInt8) (n o : Nat) : Nat → List Nat → IM (List Nat)
  | 0, _ => IM.lift M.undef
  | k + 1, kept => do
    extractP cfg n o
    let bad ← failed
    if bad = true then return kept
    else do
      let c ← IM.lift (copyCtor o)
      keepTokensP cfg n o k (kept ++ [c])

end Bdlib.Rca
