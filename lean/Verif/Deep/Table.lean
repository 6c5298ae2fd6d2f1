import Verif.Deep.Look
import Verif.Hash.Model
import Verif.Prog.Table

/-!
# `HashTable<K, V>` for `String`s and arrays nested to any depth

The tables of `Prog/Table.lean`, with keys of depth `i` and values of depth `j`, in a program that has objects of depth
`0`, …, `n` (`tower`).  The keys and values in the nodes are objects of the memories of those depths; they are made, hashed,
compared, assigned and destroyed by the functions of their classes, in libstdc++'s order.  Simplified as in `Prog/Table.lean`:
a bucket is scanned by `==` alone, and a copied table does not reuse the nodes of the table it replaces.
-/

namespace Bdlib.Deep
open Bdlib Bdlib.Spec Bdlib.Hash
open Bdlib.Rca (Tabs putAt)

/-- Depth `i` is one of the depths `0`, …, `n`. -/
inductive At : Nat → Nat → Type
  | here {n : Nat} : At n n
  | up {i n : Nat} (q : At i n) : At i (n + 1)

/-- Code that works on objects of one depth, in a program with objects of other depths. -/
def At.lift {p : Params} {i n : Nat} {α : Type} : At i n → Pg (tower p i).Mem α → Pg (tower p n).Mem α
  | .here, m => m
  | .up (n := n) q, m => elts (c := level p n) (q.lift m)

/-- The tables and the memories. -/
structure Desk (p : Params) (n : Nat) where
  tabs : Tabs := {}
  mem : (tower p n).Mem := (tower p n).init

/-- The depths of keys and values; memory for nodes and arrays of buckets, granted or refused by `fits`, asked with the number of
requests made before; policy for the number of buckets. -/
structure Shelf (i j n : Nat) where
  key : At i n
  value : At j n
  fits : Nat → Bool
  grow : Nat → Nat → Option Nat

section
variable {p : Params} {n : Nat} {α : Type}

/-- A step on the objects. -/
def onMem (m : Pg (tower p n).Mem α) : Pg (Desk p n) α := fun d =>
  match m d.mem with
  | .ok a s => .ok a { d with mem := s }
  | .throw e s => .throw e { d with mem := s }
  | .ub => .ub

/-- Table `t`. -/
def getTab (t : Nat) : Pg (Desk p n) (UMap Nat Nat) := fun d => .ok (d.tabs.tab t) d

def setTab (t : Nat) (u : UMap Nat Nat) : Pg (Desk p n) Unit := fun d =>
  .ok () { d with tabs := { d.tabs with tab := setFn d.tabs.tab t u } }

/-- Memory for a node or an array of buckets. -/
def ask (fits : Nat → Bool) : Pg (Desk p n) Unit := fun d =>
  if fits d.tabs.asked then .ok () { d with tabs := { d.tabs with asked := d.tabs.asked + 1 } }
  else .throw .badAlloc { d with tabs := { d.tabs with asked := d.tabs.asked + 1 } }

end

section
variable (p : Params) {i j n : Nat} (c : Shelf i j n)

/-- Looking for a key in a bucket. -/
def scanD (k : Nat) : List (Nat × Nat) → Pg (tower p n).Mem (Option (Nat × Nat))
  | [] => return none
  | e :: l => do
    if ← c.key.lift (eqAt p i k e.1) then return some e else scanD k l

/-- The bucket of a key. -/
def bucketD (t : UMap Nat Nat) (k : Nat) : Pg (tower p n).Mem Nat := do
  let h ← c.key.lift (hashAt p i k)
  return h.toNat % t.n

/-- `find(key)`. -/
def lookD (t : UMap Nat Nat) (k : Nat) : Pg (tower p n).Mem (Option (Nat × Nat)) := do
  let x ← bucketD p c t k
  scanD p c k (t.bkt x)

/-- The entries are put into the buckets of `u`. -/
def refillD : List (Nat × Nat) → UMap Nat Nat → Pg (tower p n).Mem (UMap Nat Nat)
  | [], u => return u
  | e :: l, u => do
    let x ← bucketD p c u e.1
    refillD l (putAt u x e)

/-- The objects of a node are destroyed. -/
def dropD (e : Nat × Nat) : Pg (tower p n).Mem Unit := do
  c.value.lift ((tower p j).delete e.2)
  c.key.lift ((tower p i).delete e.1)

/-- `std::unordered_map::operator[](key)`: the value of the entry, which is made if there is none.  The node is made with the
key (copied, or moved if it is an rvalue) and a new value in it; then the array of buckets grows if it has to. -/
def indexD (t : Nat) (rk : Bool) (k : Nat) : Pg (Desk p n) Nat := do
  let u ← getTab t
  let h ← onMem (c.key.lift (hashAt p i k))
  match ← onMem (scanD p c k (u.bkt (h.toNat % u.n))) with
  | some e => return e.2
  | none =>
    ask c.fits
    let a ← onMem (c.key.lift (if rk then (tower p i).newMove k else (tower p i).newCopy k))
    let b ← onMem (c.value.lift (tower p j).new)
    match c.grow u.count u.n with
    | none => setTab t (putAt u (h.toNat % u.n) (a, b))
    | some r =>
      Pg.onThrow (ask c.fits) (onMem (dropD p c (a, b)))
      let u' ← onMem (refillD p c u.entries (UMap.empty r))
      setTab t (putAt u' (h.toNat % u'.n) (a, b))
    return b

/-- `contains(key)` (`HashTable.h` 162-165). -/
def containsD (t k : Nat) : Pg (Desk p n) Bool := do
  let u ← getTab t
  if Hash.isEmpty u then return false else return (← onMem (lookD p c u k)).isSome

/-- `insert(key, value)` (`HashTable.h` 138-160). -/
def insertD (t : Nat) (rk rv : Bool) (k v : Nat) : Pg (Desk p n) Bool := do
  if ← containsD p c t k then return false
  else
    let b ← indexD p c t rk k
    onMem (c.value.lift (if rv then (tower p j).assignMove b v else (tower p j).assign b v))
    return true

/-- `remove(key)` (`HashTable.h` 167-170) and `std::unordered_map::erase(key)`. -/
def removeD (t k : Nat) : Pg (Desk p n) Bool := do
  let u ← getTab t
  if Hash.isEmpty u then return false
  else
    let x ← onMem (bucketD p c u k)
    match ← onMem (scanD p c k (u.bkt x)) with
    | none => return false
    | some e =>
      setTab t { u with bkt := setFn u.bkt x ((u.bkt x).eraseP (· = e)), count := u.count - 1 }
      onMem (dropD p c e)
      return true

/-- `getValue(key)` and `operator[] const` (`HashTable.h` 172-185). -/
def getValueD (t k : Nat) : Pg (Desk p n) Nat := do
  let u ← getTab t
  match ← onMem (lookD p c u k) with
  | none => onMem (c.value.lift (tower p j).new)
  | some e => onMem (c.value.lift ((tower p j).newCopy e.2))

/-- All nodes go. -/
def dropAllD : List (Nat × Nat) → Pg (tower p n).Mem Unit
  | [] => return ()
  | e :: l => do
    dropD p c e
    dropAllD l

/-- `clear()` (`HashTable.h` 87-89), and what the destructor does. -/
def clearD (t : Nat) : Pg (Desk p n) Unit := do
  let u ← getTab t
  setTab t u.clear
  onMem (dropAllD p c u.entries)

/-- Copies of nodes are put into table `t`. -/
def copyNodesD (t : Nat) : List (Nat × Nat) → Pg (Desk p n) Unit
  | [] => return ()
  | e :: l => do
    ask c.fits
    let a ← onMem (c.key.lift ((tower p i).newCopy e.1))
    let b ← onMem (c.value.lift ((tower p j).newCopy e.2))
    let u ← getTab t
    let x ← onMem (bucketD p c u a)
    setTab t (putAt u x (a, b))
    copyNodesD t l

/-- `t = u` (`HashTable.h` 98-102): an array of buckets as large as that of `u`, then copies of the nodes; if one of them cannot
be made, those made are destroyed. -/
def copyD (t u : Nat) : Pg (Desk p n) Unit := do
  if t = u then return ()
  else
    ask c.fits
    clearD p c t
    let m ← getTab u
    setTab t (UMap.empty m.n)
    Pg.onThrow (copyNodesD p c t m.entries) (clearD p c t)

/-- `t = std::move(u)` (`HashTable.h` 104-113). -/
def moveD (t u : Nat) : Pg (Desk p n) Unit := do
  if t = u then return ()
  else
    clearD p c t
    let m ← getTab u
    setTab t m
    setTab u (UMap.empty 1)

/-- `swap(t, u)` (`HashTable.h` 91-96). -/
def swapD (t u : Nat) : Pg (Desk p n) Unit := do
  let m ← getTab t
  let m' ← getTab u
  setTab t m'
  setTab u m

/-- One call. -/
def callD : TCall → Pg (Desk p n) TOut
  | .insert t rk rv k v => do return .bool (← insertD p c t rk rv k v)
  | .remove t k => do return .bool (← removeD p c t k)
  | .contains t k => do return .bool (← containsD p c t k)
  | .getValue t k => do return .obj (← getValueD p c t k)
  | .find t k => do return .entry (← onMem (lookD p c (← getTab t) k))
  | .index t rk k => do return .obj (← indexD p c t rk k)
  | .size t => do return .nat (Hash.size (← getTab t))
  | .isEmpty t => do return .bool (Hash.isEmpty (← getTab t))
  | .iterate t => do return .list (← getTab t).entries
  | .clear t => do clearD p c t; return .unit
  | .copy t u => do copyD p c t u; return .unit
  | .move t u => do moveD p c t u; return .unit
  | .swap t u => do swapD p t u; return .unit

end

end Bdlib.Deep
