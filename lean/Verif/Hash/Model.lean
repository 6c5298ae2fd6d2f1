import Verif.Spec.Map

/-!
# Model of `HashTable`

`HashTable` wraps `std::unordered_map`.  The latter is modelled as an array of buckets, each a list of
entries; a key is looked for in the bucket its hash selects, by `==`.  When the number of buckets is changed,
and in which order entries are visited, is up to the library: `grow` is arbitrary, and order is never used.
Allocation does not fail.
-/

namespace Bdlib.Hash
open Bdlib.Spec

/-- `==` and `std::hash` of a key type; default value of the value type; the library's policy for growing:
the new number of buckets for a size and number of buckets. -/
structure Types (K V : Type) where
  eq : K → K → Bool
  hash : K → Nat
  dflt : V
  grow : Nat → Nat → Option Nat

def setFn {β : Type} (f : Nat → β) (a : Nat) (b : β) : Nat → β := fun x => if x = a then b else f x

/-- `std::unordered_map`: `n` buckets and the number of entries. -/
structure UMap (K V : Type) where
  n : Nat
  bkt : Nat → List (K × V)
  count : Nat

variable {K V : Type} (c : Types K V)

namespace UMap

/-- No entries, `n` buckets (at least one). -/
def empty (n : Nat) : UMap K V := ⟨max n 1, fun _ => [], 0⟩

/-- Iteration from `begin()` to `end()`. -/
def entries (m : UMap K V) : List (K × V) := (List.range m.n).flatMap m.bkt

/-- `find(key)`; `none` is `end()`. -/
def find (m : UMap K V) (k : K) : Option (K × V) := (m.bkt (c.hash k % m.n)).find? fun p => c.eq p.1 k

/-- An entry is put into its bucket. -/
def push (m : UMap K V) (p : K × V) : UMap K V :=
  { m with bkt := setFn m.bkt (c.hash p.1 % m.n) (p :: m.bkt (c.hash p.1 % m.n)), count := m.count + 1 }

/-- The number of buckets changes. -/
def rehash (m : UMap K V) (n : Nat) : UMap K V := m.entries.foldl (push c) (empty n)

/-- A new entry is inserted, after growing if the policy says so. -/
def insertNew (m : UMap K V) (p : K × V) : UMap K V :=
  match c.grow m.count m.n with
  | some n => (m.rehash c n).push c p
  | none => m.push c p

/-- `operator[](key)`: the entry is made with a default value if there is none. -/
def index (m : UMap K V) (k : K) : UMap K V :=
  match m.find c k with
  | some _ => m
  | none => m.insertNew c (k, c.dflt)

/-- Assignment to the value of the entry with the key. -/
def assign (m : UMap K V) (k : K) (v : V) : UMap K V :=
  { m with bkt := setFn m.bkt (c.hash k % m.n) ((m.bkt (c.hash k % m.n)).map fun p => if c.eq p.1 k then (p.1, v) else p) }

/-- `erase(key)`: the number of entries removed. -/
def erase (m : UMap K V) (k : K) : Nat × UMap K V :=
  match m.find c k with
  | none => (0, m)
  | some _ => (1, { m with
      bkt := setFn m.bkt (c.hash k % m.n) ((m.bkt (c.hash k % m.n)).eraseP fun p => c.eq p.1 k), count := m.count - 1 })

/-- `clear()`. -/
def clear (m : UMap K V) : UMap K V := ⟨m.n, fun _ => [], 0⟩

/-- `emplace`: nothing happens if the key is there. -/
def emplace (m : UMap K V) (p : K × V) : UMap K V :=
  match m.find c p.1 with
  | some _ => m
  | none => m.insertNew c p

end UMap

/-! ## `HashTable` (`HashTable.h`) -/

/-- `size()` (125-127). -/
def size (t : UMap K V) : Nat := t.count

/-- `isEmpty()` (131-133) and `operator bool` (134-136, its negation). -/
def isEmpty (t : UMap K V) : Bool := t.count = 0

/-- `contains(key)` (162-165). -/
def contains (t : UMap K V) (k : K) : Bool := if isEmpty t then false else (t.find c k).isSome

/-- `insert(key, value)` (138-160; the four overloads differ in what is moved). -/
def insert (t : UMap K V) (k : K) (v : V) : Bool × UMap K V :=
  if contains c t k then (false, t) else (true, (t.index c k).assign c k v)

/-- `remove(key)` (167-170). -/
def remove (t : UMap K V) (k : K) : Bool × UMap K V :=
  if isEmpty t then (false, t) else (decide ((t.erase c k).1 > 0), (t.erase c k).2)

/-- `getValue(key)` and `operator[] const` (172-185). -/
def getValue (t : UMap K V) (k : K) : V := match t.find c k with
  | none => c.dflt
  | some p => p.2

/-- Reading `table[key]` of a table that is not const (193-198). -/
def index (t : UMap K V) (k : K) : V × UMap K V := (((t.index c k).find c k).elim c.dflt Prod.snd, t.index c k)

/-- `table[key] = value` (193-198). -/
def set (t : UMap K V) (k : K) (v : V) : UMap K V := (t.index c k).assign c k v

/-- Construction from a list (72). -/
def ofList (l : List (K × V)) : UMap K V := l.foldl (UMap.emplace c) (UMap.empty l.length)

/-! ## Histories -/

/-- Calls on tables, which are numbered. -/
inductive Op (K V : Type)
  | new (i n : Nat)
  | newList (i : Nat) (l : List (K × V))
  | insert (i : Nat) (k : K) (v : V)
  | remove (i : Nat) (k : K)
  | contains (i : Nat) (k : K)
  | getValue (i : Nat) (k : K)
  | find (i : Nat) (k : K)
  | index (i : Nat) (k : K)
  | set (i : Nat) (k : K) (v : V)
  | size (i : Nat)
  | isEmpty (i : Nat)
  | iterate (i : Nat)
  | clear (i : Nat)
  /-- `i = j` (and the copy constructor) -/
  | copy (i j : Nat)
  /-- `i = std::move(j)`: the library leaves `j` empty -/
  | move (i j : Nat)
  | swap (i j : Nat)

inductive Out (K V : Type)
  | unit
  | bool (b : Bool)
  | value (v : V)
  | found (p : Option (K × V))
  | nat (n : Nat)
  | list (l : List (K × V))

/-- One call. -/
def run (s : Nat → UMap K V) : Op K V → Out K V × (Nat → UMap K V)
  | .new i n => (.unit, setFn s i (UMap.empty n))
  | .newList i l => (.unit, setFn s i (ofList c l))
  | .insert i k v => (.bool (insert c (s i) k v).1, setFn s i (insert c (s i) k v).2)
  | .remove i k => (.bool (remove c (s i) k).1, setFn s i (remove c (s i) k).2)
  | .contains i k => (.bool (contains c (s i) k), s)
  | .getValue i k => (.value (getValue c (s i) k), s)
  | .find i k => (.found ((s i).find c k), s)
  | .index i k => (.value (index c (s i) k).1, setFn s i (index c (s i) k).2)
  | .set i k v => (.unit, setFn s i (set c (s i) k v))
  | .size i => (.nat (size (s i)), s)
  | .isEmpty i => (.bool (isEmpty (s i)), s)
  | .iterate i => (.list (s i).entries, s)
  | .clear i => (.unit, setFn s i (s i).clear)
  | .copy i j => (.unit, setFn s i (s j))
  | .move i j => (.unit, if i = j then s else setFn (setFn s i (s j)) j (UMap.empty 1))
  | .swap i j => (.unit, setFn (setFn s i (s j)) j (s i))

/-- The state and results after a sequence of calls, all tables being empty at first. -/
def runs (ops : List (Op K V)) (s : Nat → UMap K V) : List (Out K V) × (Nat → UMap K V) := match ops with
  | [] => ([], s)
  | op :: ops => ((run c s op).1 :: (runs ops (run c s op).2).1, (runs ops (run c s op).2).2)

end Bdlib.Hash
