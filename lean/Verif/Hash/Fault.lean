import Verif.Hash.Model

/-!
# Model of `HashTable` when something throws

The calls of `Hash/Model.lean`, step by step, with every step that may throw: allocating a node or the array
of buckets, making a key, making, copying or assigning a value.  Which of them do throw is given from outside.
The steps of `std::unordered_map` are in libstdc++'s order.  `==` and `std::hash` of the key do not throw.
-/

namespace Bdlib.Hash
open Bdlib.Spec

/-- What of a value or key type may throw, and what a failed assignment `old = new` leaves in `old`. -/
structure Risky (K V : Type) extends Types K V where
  keyThrows : Bool
  makeThrows : Bool
  copyThrows : Bool
  assignThrows : Bool
  torn : V → V → V

/-- Which of the next steps that may throw do throw; those after the end of the list do not. -/
abbrev Faults := List Bool

/-- How a step ends. -/
inductive End (α : Type)
  | done (a : α)
  | threw
  /-- an exception left a function that is `noexcept`: `std::terminate()` -/
  | died

/-- Steps that work on one table; what has been done to it stays when something throws. -/
abbrev X (K V α : Type) := UMap K V → Faults → End α × UMap K V × Faults

namespace X
variable {K V α β : Type}

def pure (a : α) : X K V α := fun t f => (.done a, t, f)

def bind (x : X K V α) (g : α → X K V β) : X K V β := fun t f => match x t f with
  | (.done a, t, f) => g a t f
  | (.threw, t, f) => (.threw, t, f)
  | (.died, t, f) => (.died, t, f)

instance : Monad (X K V) where
  pure := X.pure
  bind := X.bind

/-- A step that may throw. -/
def attempt : X K V Unit := fun t f => match f with
  | [] => (.done (), t, [])
  | false :: f => (.done (), t, f)
  | true :: f => (.threw, t, f)

/-- A step that may throw if `b`. -/
def attemptIf (b : Bool) : X K V Unit := if b then attempt else pure ()

def get : X K V (UMap K V) := fun t f => (.done t, t, f)
def put (t : UMap K V) : X K V Unit := fun _ f => (.done (), t, f)

/-- A function that is `noexcept`. -/
def guarded (x : X K V α) : X K V α := fun t f => match x t f with
  | (.threw, t, f) => (.died, t, f)
  | r => r

end X

variable {K V : Type} (c : Risky K V)

/-- `std::unordered_map::operator[](key)`: a node is made, with the key and a default value in it; the array of
buckets grows if it has to; the node is put in.  If a step throws before, the node goes. -/
def indexX (k : K) : X K V Unit := do
  let t ← X.get
  match t.find c.toTypes k with
  | some _ => pure ()
  | none =>
    X.attempt
    X.attemptIf c.keyThrows
    X.attemptIf c.makeThrows
    match c.grow t.count t.n with
    | some _ => X.attempt
    | none => pure ()
    X.put (t.insertNew c.toTypes (k, c.dflt))

/-- `entry = value` for the entry `operator[]` has found or made. -/
def assignX (k : K) (v : V) : X K V Unit := fun t f =>
  if c.assignThrows && f.headD false then
    (.threw, t.assign c.toTypes k (c.torn (((t.find c.toTypes k).map Prod.snd).getD c.dflt) v), f.tail)
  else (.done (), t.assign c.toTypes k v, if c.assignThrows then f.tail else f)

/-- `insert(key, value)` (`HashTable.h` 138-160). -/
def insertX (k : K) (v : V) : X K V Bool := do
  let t ← X.get
  if contains c.toTypes t k then pure false
  else
    indexX c k
    assignX c k v
    pure true

/-- `table[key] = value` (193-198). -/
def setX (k : K) (v : V) : X K V Unit := do
  indexX c k
  assignX c k v

/-- Reading `table[key]` of a table that is not const (193-198): a reference, which does not copy the value. -/
def readX (k : K) : X K V V := do
  indexX c k
  let t ← X.get
  pure ((t.find c.toTypes k).elim c.dflt Prod.snd)

/-- `getValue(key)` and `operator[] const` (172-185), which are `noexcept` and return a copy. -/
def getValueX (k : K) : X K V V := X.guarded do
  let t ← X.get
  match t.find c.toTypes k with
  | none => do X.attemptIf c.makeThrows; pure c.dflt
  | some p => do X.attemptIf c.copyThrows; pure p.2

/-- An entry is copied into a table, unless it has the key. -/
def emplaceX (p : K × V) : X K V Unit := do
  let t ← X.get
  match t.find c.toTypes p.1 with
  | some _ => pure ()
  | none =>
    X.attempt
    X.attemptIf c.keyThrows
    X.attemptIf c.copyThrows
    match c.grow t.count t.n with
    | some _ => X.attempt
    | none => pure ()
    X.put (t.insertNew c.toTypes p)

/-- Construction from a list (72), after the array of buckets. -/
def emplacesX : List (K × V) → X K V Unit
  | [] => pure ()
  | p :: l => do
    emplaceX c p
    emplacesX l

/-- Copying the entries of a table, node by node. -/
def copiesX : List (K × V) → X K V Unit
  | [] => pure ()
  | _ :: l => do
    X.attempt
    X.attemptIf c.keyThrows
    X.attemptIf c.copyThrows
    copiesX l

/-- `table = other` (98-102): the array of buckets is allocated, then the entries are copied.  libstdc++
leaves the table empty if that fails. -/
def copyX (u : UMap K V) : X K V Unit := do
  X.attempt
  let t ← X.get
  X.put t.clear
  copiesX c u.entries
  X.put u

/-! ## Calls -/

/-- A call on tables some of whose steps throw: how it ends, and the tables after it.  An object whose
constructor throws does not come to be; what was there stays. -/
def runX (s : Nat → UMap K V) (f : Faults) : Op K V → End (Out K V) × (Nat → UMap K V)
  | .new i n => match X.attempt (UMap.empty n) f with
    | (.done _, t, _) => (.done .unit, setFn s i t)
    | (.threw, _, _) => (.threw, s)
    | (.died, _, _) => (.died, s)
  | .newList i l => match (do X.attempt; emplacesX c l) (UMap.empty l.length) f with
    | (.done _, t, _) => (.done .unit, setFn s i t)
    | (.threw, _, _) => (.threw, s)
    | (.died, _, _) => (.died, s)
  | .insert i k v => match insertX c k v (s i) f with
    | (.done b, t, _) => (.done (.bool b), setFn s i t)
    | (.threw, t, _) => (.threw, setFn s i t)
    | (.died, t, _) => (.died, setFn s i t)
  | .getValue i k => match getValueX c k (s i) f with
    | (.done v, t, _) => (.done (.value v), setFn s i t)
    | (.threw, t, _) => (.threw, setFn s i t)
    | (.died, t, _) => (.died, setFn s i t)
  | .index i k => match readX c k (s i) f with
    | (.done v, t, _) => (.done (.value v), setFn s i t)
    | (.threw, t, _) => (.threw, setFn s i t)
    | (.died, t, _) => (.died, setFn s i t)
  | .set i k v => match setX c k v (s i) f with
    | (.done _, t, _) => (.done .unit, setFn s i t)
    | (.threw, t, _) => (.threw, setFn s i t)
    | (.died, t, _) => (.died, setFn s i t)
  | .copy i j => if i = j then (.done .unit, s) else match copyX c (s j) (s i) f with
    | (.done _, t, _) => (.done .unit, setFn s i t)
    | (.threw, t, _) => (.threw, setFn s i t)
    | (.died, t, _) => (.died, setFn s i t)
  /- nothing in these may throw -/
  | op => (.done (run c.toTypes s op).1, (run c.toTypes s op).2)

/-- Calls, each with its faults: how they end, and the tables after them. -/
def runsX : List (Op K V × Faults) → (Nat → UMap K V) → List (End (Out K V)) × (Nat → UMap K V)
  | [], s => ([], s)
  | (op, f) :: ops, s => ((runX c s f op).1 :: (runsX ops (runX c s f op).2).1, (runsX ops (runX c s f op).2).2)

end Bdlib.Hash
