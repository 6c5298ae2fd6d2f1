import Verif.Prog.Model
import Verif.Hash.Model
import Verif.Spec.Tables

/-!
# `HashTable<String, String>` on the memory machine

`std::unordered_map` as in `Hash/Model.lean`: buckets of entries, an arbitrary policy `grow` for their number.  Here the key and
the value of an entry are Strings of the machine, whose storage other Strings may share; they are made, hashed, compared,
assigned and destroyed by the functions of `Rca/Model.lean` and `Prog/Model.lean`, in libstdc++'s order (hash codes are not stored
in the nodes: `std::hash<String>` is `noexcept`, `String.h` 656-661).  Memory for nodes and arrays of buckets is granted or
refused by `fits`, asked with the number of requests made before.
Simplified: a bucket is scanned by `==` alone (libstdc++ also hashes the keys it passes, to see where the bucket ends).
-/

namespace Bdlib.Rca
open Bdlib Bdlib.Spec Bdlib.Str Bdlib.Hash

/-- The tables, with the handles of keys and values in their entries, and the number of requests for memory so far. -/
structure Tabs where
  tab : Nat → UMap Nat Nat := fun _ => UMap.empty 100
  asked : Nat := 0

/-- From the tables: how the function ends, and the tables afterwards. -/
def TM (α : Type) := Tabs → St UInt8 → Res UInt8 α × Tabs

namespace TM
variable {α β : Type}

def pure (a : α) : TM α := fun w s => (.ok a s, w)

def bind (m : TM α) (f : α → TM β) : TM β := fun w s =>
  match m w s with
  | (.ok a s', w') => f a w' s'
  | (.throw e s', w') => (.throw e s', w')
  | (.ub, w') => (.ub, w')

instance : Monad TM where
  pure := TM.pure
  bind := TM.bind

/-- A step on Strings. -/
def lift (m : SM α) : TM α := fun w s => (m s, w)

/-- Table `i`. -/
def get (i : Nat) : TM (UMap Nat Nat) := fun w s => (.ok (w.tab i) s, w)

def set (i : Nat) (t : UMap Nat Nat) : TM Unit := fun w s => (.ok () s, { w with tab := setFn w.tab i t })

/-- Memory for a node or an array of buckets. -/
def alloc (fits : Nat → Bool) : TM Unit := fun w s =>
  (if fits w.asked then .ok () s else .throw .badAlloc s, { w with asked := w.asked + 1 })

/-- What is done when an exception passes. -/
def onThrow (m : TM α) (c : TM Unit) : TM α := fun w s =>
  match m w s with
  | (.throw e s', w') => match c w' s' with
    | (.ok _ s'', w'') => (.throw e s'', w'')
    | (_, w'') => (.ub, w'')
  | r => r

end TM

/-- The outside of a table of Strings: C library, memory, policy for the number of buckets. -/
structure Lib where
  L : Libc
  fits : Nat → Bool
  grow : Nat → Nat → Option Nat

variable (cfg : Cfg UInt8) (lib : Lib)

/-- Looking for a key in a bucket. -/
def scanP (k : Nat) : List (Nat × Nat) → SM (Option (Nat × Nat))
  | [] => return none
  | p :: l => do
    if ← eqP lib.L k p.1 then return some p else scanP k l

/-- The bucket of a key. -/
def bucketP (t : UMap Nat Nat) (k : Nat) : SM Nat := do
  let h ← hash cfg k
  return h.toNat % t.n

/-- `find(key)`. -/
def lookP (t : UMap Nat Nat) (k : Nat) : SM (Option (Nat × Nat)) := do
  let i ← bucketP cfg t k
  scanP lib k (t.bkt i)

/-- An entry is put into a bucket. -/
def putAt (t : UMap Nat Nat) (i : Nat) (p : Nat × Nat) : UMap Nat Nat :=
  { t with bkt := setFn t.bkt i (p :: t.bkt i), count := t.count + 1 }

/-- The entries are put into the buckets of `u`. -/
def refillP : List (Nat × Nat) → UMap Nat Nat → SM (UMap Nat Nat)
  | [], u => return u
  | p :: l, u => do
    let i ← bucketP cfg u p.1
    refillP l (putAt u i p)

/-- `std::unordered_map::operator[](key)`: the value of the entry, which is made if there is none.  The node is made with the
key (copied, or moved if it is an rvalue) and an empty value in it; then the array of buckets grows if it has to. -/
def indexT (i : Nat) (rk : Bool) (k : Nat) : TM Nat := do
  let t ← TM.get i
  let h ← TM.lift (hash cfg k)
  match ← TM.lift (scanP lib k (t.bkt (h.toNat % t.n))) with
  | some p => return p.2
  | none =>
    TM.alloc lib.fits
    let a ← TM.lift (if rk then moveCtor cfg k else copyCtor k)
    let b ← TM.lift ctor
    match lib.grow t.count t.n with
    | none => TM.set i (putAt t (h.toNat % t.n) (a, b))
    | some n =>
      TM.onThrow (TM.alloc lib.fits) (TM.lift do destroy cfg b; destroy cfg a)
      let u ← TM.lift (refillP cfg t.entries (UMap.empty n))
      TM.set i (putAt u (h.toNat % u.n) (a, b))
    return b

/-- `contains(key)` (`HashTable.h` 162-165). -/
def containsT (i k : Nat) : TM Bool := do
  let t ← TM.get i
  if isEmpty t then return false else return (← TM.lift (lookP cfg lib t k)).isSome

/-- `insert(key, value)` (`HashTable.h` 138-160). -/
def insertT (i : Nat) (rk rv : Bool) (k v : Nat) : TM Bool := do
  if ← containsT cfg lib i k then return false
  else
    let b ← indexT cfg lib i rk k
    TM.lift (if rv then moveAssign cfg b v else copyAssign b v)
    return true

/-- The Strings of a node are destroyed. -/
def dropP (p : Nat × Nat) : SM Unit := do
  destroy cfg p.2
  destroy cfg p.1

/-- `remove(key)` (`HashTable.h` 167-170) and `std::unordered_map::erase(key)`. -/
def removeT (i k : Nat) : TM Bool := do
  let t ← TM.get i
  if isEmpty t then return false
  else
    let j ← TM.lift (bucketP cfg t k)
    match ← TM.lift (scanP lib k (t.bkt j)) with
    | none => return false
    | some p =>
      TM.set i { t with bkt := setFn t.bkt j ((t.bkt j).eraseP (· = p)), count := t.count - 1 }
      TM.lift (dropP cfg p)
      return true

/-- `getValue(key)` and `operator[] const` (`HashTable.h` 172-185). -/
def getValueT (i k : Nat) : TM Nat := do
  let t ← TM.get i
  match ← TM.lift (lookP cfg lib t k) with
  | none => TM.lift ctor
  | some p => TM.lift (copyCtor p.2)

/-- All nodes go. -/
def dropAllP : List (Nat × Nat) → SM Unit
  | [] => return ()
  | p :: l => do
    dropP cfg p
    dropAllP l

/-- `clear()` (`HashTable.h` 87-89), and what the destructor does. -/
def clearT (i : Nat) : TM Unit := do
  let t ← TM.get i
  TM.set i t.clear
  TM.lift (dropAllP cfg t.entries)

/-- Copies of nodes are put into table `i`. -/
def copyNodesT (i : Nat) : List (Nat × Nat) → TM Unit
  | [] => return ()
  | p :: l => do
    TM.alloc lib.fits
    let a ← TM.lift (copyCtor p.1)
    let b ← TM.lift (copyCtor p.2)
    let t ← TM.get i
    let j ← TM.lift (bucketP cfg t a)
    TM.set i (putAt t j (a, b))
    copyNodesT i l

/-- `i = j` (`HashTable.h` 98-102): an array of buckets as large as that of `j`, then copies of the nodes; if one of them cannot
be made, those made are destroyed.  Simplified: libstdc++ reuses the nodes of `i`. -/
def copyT (i j : Nat) : TM Unit := do
  if i = j then return ()
  else
    TM.alloc lib.fits
    clearT cfg i
    let u ← TM.get j
    TM.set i (UMap.empty u.n)
    TM.onThrow (copyNodesT cfg lib i u.entries) (clearT cfg i)

/-- `i = std::move(j)` (`HashTable.h` 104-113). -/
def moveT (i j : Nat) : TM Unit := do
  if i = j then return ()
  else
    clearT cfg i
    let u ← TM.get j
    TM.set i u
    TM.set j (UMap.empty 1)

/-- `swap(i, j)` (`HashTable.h` 91-96). -/
def swapT (i j : Nat) : TM Unit := do
  let t ← TM.get i
  let u ← TM.get j
  TM.set i u
  TM.set j t

/-- One call. -/
def callT : TCall → TM TOut
  | .insert i rk rv k v => do return .bool (← insertT cfg lib i rk rv k v)
  | .remove i k => do return .bool (← removeT cfg lib i k)
  | .contains i k => do return .bool (← containsT cfg lib i k)
  | .getValue i k => do return .obj (← getValueT cfg lib i k)
  | .find i k => do return .entry (← TM.lift (lookP cfg lib (← TM.get i) k))
  | .index i rk k => do return .obj (← indexT cfg lib i rk k)
  | .size i => do return .nat (Hash.size (← TM.get i))
  | .isEmpty i => do return .bool (Hash.isEmpty (← TM.get i))
  | .iterate i => do return .list (← TM.get i).entries
  | .clear i => do clearT cfg i; return .unit
  | .copy i j => do copyT cfg lib i j; return .unit
  | .move i j => do moveT cfg i j; return .unit
  | .swap i j => do swapT i j; return .unit

end Bdlib.Rca
