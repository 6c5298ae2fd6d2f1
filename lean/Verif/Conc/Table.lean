import Verif.Hash.Lemmas

/-!
# Threads that look things up in the same table

`contains`, `getValue`, `operator[] const` and `find` (`HashTable.h` 79-84, 162-185) on one table, by any number of
threads at once; nobody changes the table.  Keys are objects that remember their hash in a plain `mutable` member
(`ReferenceCountedArray.h` 338), 0 if it is not known; `hash()` reads it, computes the hash if it is 0, and stores it
(780-788).  These are the only stores a lookup makes; everything else it reads (the elements of the keys, the buckets)
nobody writes.

The library's `unordered_map` keeps all entries in one chain, those of a bucket one after the other.  A lookup asks the
key for its hash, goes to the first entry of the bucket, and compares; to know where the bucket ends it needs the bucket
of the next entry.  As `std::hash<String>` is `noexcept` (`String.h` 658), libstdc++ does not keep the hashes of the
entries and asks the key in the entry; `keeps` says whether the library keeps them.

A step is one access to a remembered hash, or one comparison.  Memory is sequentially consistent; `Races` says where
C++ gives no guarantee.  Copying the value found (an atomic increment for a `String`) is not modelled.
-/

namespace Bdlib.Table
open Bdlib.Hash

/-- The table, as the threads find it.  Objects are numbered; the key of the entry in place `p` of the chain is object
`p`, others are keys asked for (which may be keys of the table, too).  `order` is the order of the buckets in the
chain. -/
structure Lib (K V : Type) where
  c : Types K V
  t : UMap K V
  order : List Nat
  val : Nat → K
  keeps : Bool

variable {K V : Type}

/-- All entries. -/
def Lib.chain (L : Lib K V) : List (K × V) := L.order.flatMap L.t.bkt

/-- Where a bucket starts in the chain, if it has entries. -/
def Lib.start (L : Lib K V) (b : Nat) : Option Nat :=
  if L.t.bkt b = [] then none else some ((L.order.takeWhile (· ≠ b)).flatMap L.t.bkt).length

/-- Where a thread is in looking up object `q`. -/
inductive Pc
  | idle
  /-- about to read the hash the key remembers (`ReferenceCountedArray.h` 781) -/
  | get (q : Nat)
  /-- about to store it (`ReferenceCountedArray.h` 787) -/
  | put (q : Nat)
  /-- about to compare with the key in place `p` (`String.h` 544-547) -/
  | eq (q h p : Nat)
  /-- about to read the hash the key in place `p` remembers (`ReferenceCountedArray.h` 781) -/
  | nget (q h p : Nat)
  /-- about to store it (`ReferenceCountedArray.h` 787) -/
  | nput (q h p : Nat)
  deriving DecidableEq

/-- `hash`: what the objects remember; `log`: thread, object looked up, entry found. -/
structure Sys (K V : Type) where
  hash : Nat → Nat
  pc : Nat → Pc
  log : List (Nat × Nat × Option (K × V))

def Sys.to (s : Sys K V) (t : Nat) (p : Pc) : Sys K V := { s with pc := setFn s.pc t p }

/-- The lookup is over. -/
def Sys.ret (s : Sys K V) (t q : Nat) (r : Option (K × V)) : Sys K V := { s.to t .idle with log := s.log ++ [(t, q, r)] }

/-- The hash of the key is known: to its bucket. -/
def enter (L : Lib K V) (s : Sys K V) (t q h : Nat) : Sys K V :=
  match L.start (h % L.t.n) with
  | none => s.ret t q none
  | some p => s.to t (.eq q h p)

/-- The hash of the key in place `p` is known: is it in the same bucket. -/
def further (L : Lib K V) (s : Sys K V) (t q h p x : Nat) : Sys K V :=
  if x % L.t.n = h % L.t.n then s.to t (.eq q h p) else s.ret t q none

/-- Thread `t` goes on; `none`: undefined. -/
def go (L : Lib K V) (s : Sys K V) (t : Nat) : Option (Sys K V) :=
  match s.pc t with
  | .idle => some s
  | .get q => some (if s.hash q ≠ 0 then enter L s t q (s.hash q) else s.to t (.put q))
  | .put q => some (enter L { s with hash := setFn s.hash q (L.c.hash (L.val q)) } t q (L.c.hash (L.val q)))
  | .eq q h p =>
    match L.chain[p]? with
    | none => none
    | some e =>
      some (if L.c.eq e.1 (L.val q) then s.ret t q (some e)
      else if p + 1 < L.chain.length then s.to t (.nget q h (p + 1)) else s.ret t q none)
  | .nget q h p =>
    some (if L.keeps then further L s t q h p (L.c.hash (L.val p))
    else if s.hash p ≠ 0 then further L s t q h p (s.hash p) else s.to t (.nput q h p))
  | .nput q h p => some (further L { s with hash := setFn s.hash p (L.c.hash (L.val p)) } t q h p (L.c.hash (L.val p)))

/-- Thread `t` starts to look up object `q`. -/
def look (s : Sys K V) (t q : Nat) : Sys K V := s.to t (.get q)

/-- Every interleaving; thread `t` looks up object `q` only if `P t q`. -/
inductive Reaches (L : Lib K V) (P : Nat → Nat → Prop) (s₀ : Sys K V) : Sys K V → Prop
  | init : Reaches L P s₀ s₀
  | look {s : Sys K V} {t q : Nat} : Reaches L P s₀ s → s.pc t = .idle → P t q → Reaches L P s₀ (look s t q)
  | go {s s' : Sys K V} {t : Nat} : Reaches L P s₀ s → go L s t = some s' → Reaches L P s₀ s'

/-- The remembered hash a thread accesses in its next step, and whether it stores. -/
def touches (L : Lib K V) : Pc → Option (Nat × Bool)
  | .idle | .eq _ _ _ => none
  | .get q => some (q, false)
  | .put q => some (q, true)
  | .nget _ _ p => if L.keeps then none else some (p, false)
  | .nput _ _ p => some (p, true)

/-- Two threads are about to access the same memory, one of them to store: undefined in C++. -/
def Races (L : Lib K V) (s : Sys K V) : Prop :=
  ∃ t t' l w w', t ≠ t' ∧ touches L (s.pc t) = some (l, w) ∧ touches L (s.pc t') = some (l, w') ∧ (w = true ∨ w' = true)

/-- The chain has every bucket once, keys in the chain are those of the entries, and what objects remember is their hash. -/
structure Start (L : Lib K V) (s : Sys K V) : Prop where
  once : L.order.Nodup
  all : ∀ b < L.t.n, b ∈ L.order
  keys : ∀ p e, L.chain[p]? = some e → L.val p = e.1
  hash : ∀ i, s.hash i = 0 ∨ s.hash i = L.c.hash (L.val i)
  idle : ∀ t, s.pc t = .idle
  log : s.log = []

end Bdlib.Table
