import Verif.Deep.Look
import Verif.Prog.Iter

/-!
# Algorithms of the standard library on arrays of objects

`std::sort(a.begin(), a.end())`, `std::reverse`, `std::rotate`, `std::unique`, …: code that knows nothing about arrays.  It gets two
iterators and does with the elements between them, and with objects of its own, what any code may do with objects: moves, copies and
comparisons.
-/

namespace Bdlib.Deep
open Bdlib Bdlib.Spec Bdlib.Rca Bdlib.Str
open Pg (undef)

/-- What an algorithm is given to compare elements: `operator==`; `operator<` of `String`s; `x.length() < y.length()`. -/
inductive Cmp : Nat → Type where
  | eq {n : Nat} : Cmp n
  | less : Cmp 0
  | shorter {n : Nat} : Cmp n

/-- `x.length()` of the objects of depth `n` (`ReferenceCountedArray.h` 667-669). -/
def lenAt (p : Params) : (n : Nat) → Nat → Pg (tower p n).Mem Nat
  | 0 => fun x => .ofM (Rca.length x)
  | n + 1 => fun x => (arrs (Rca.length x) : P (level p n) Nat)

/-- The code of the comparison (`String.h` 543-547, 563-566, `Array.h` 178-180). -/
def cmpAt (p : Params) : {n : Nat} → Cmp n → Nat → Nat → Pg (tower p n).Mem Bool
  | n, .eq => eqAt p n
  | _, .less => fun x y => do return decide ((← Pg.ofM (compareP p.libc x y)) < 0)
  | n, .shorter => fun x y => do
    let i ← lenAt p n x
    let j ← lenAt p n y
    return decide (i < j)

/-- An object an algorithm works with: the element `first[i]`, or one of its own, the one made last being number 0. -/
inductive Place where
  | elem (i : Nat)
  | temp (t : Nat)
deriving DecidableEq

/-- An algorithm, as the steps it takes: which step is next may depend on how comparisons came out.  Objects of its own which it has
not destroyed are destroyed when it ends. -/
inductive Algo (n : Nat) where
  /-- returns; `r` says which iterator (`std::unique` returns `first + r`) -/
  | done (r : Nat)
  /-- ends with an exception, for example of a comparison -/
  | raise (e : Exc)
  /-- `d = std::move(s)` -/
  | move (d s : Place) (k : Algo n)
  /-- `d = s` -/
  | copy (d s : Place) (k : Algo n)
  /-- `T t(std::move(s))` -/
  | take (s : Place) (k : Algo n)
  /-- `T t(s)` -/
  | dup (s : Place) (k : Algo n)
  /-- the end of the life of the object made last -/
  | drop (k : Algo n)
  /-- a comparison -/
  | test (q : Cmp n) (x y : Place) (k : Bool → Algo n)

/-- `std::swap(x, y)`, `std::iter_swap`. -/
def Algo.swap {n : Nat} (i j : Nat) (k : Algo n) : Algo n :=
  .take (.elem i) (.move (.elem i) (.elem j) (.move (.elem j) (.temp 0) (.drop k)))

/-- `throw` -/
def throwing {S α : Type} (e : Exc) : Pg S α := fun s => .throw e s

section
variable (c : Conf)

/-- The first of the two iterators an algorithm gets: `begin()`, or `rbegin()`, made of the pointer `end()`
(`ReferenceCountedArray.h` 748). -/
inductive Start where
  | up (first : It)
  | down (last : It)

/-- The cell of `first[i]`: for a reverse iterator, the one before `last - i`. -/
def Start.cell : Start → Nat → M Nat It
  | .up first, i => first.plus i
  | .down last, i => last.down (i + 1)

/-- The object: the one in the cell of `first[i]`, or the one of the algorithm. -/
def Place.get (first : Start) (ts : List Nat) : Place → P c Nat
  | .elem i => arrs (do let q ← first.cell i; It.load q)
  | .temp t => match ts[t]? with
    | some h => pure h
    | none => undef

variable {n : Nat} (cmp : Cmp n → Nat → Nat → Pg c.elt.Mem Bool)

/-- Running an algorithm that got the iterator `first` and has made the objects `ts`. -/
def Algo.exec (first : Start) : Algo n → List Nat → P c Nat
  | .done r, ts => do deletes c ts; return r
  | .raise e, ts => do deletes c ts; throwing e
  | .move d s k, ts => do
    let x ← d.get c first ts
    let y ← s.get c first ts
    assignMove c x y
    k.exec first ts
  | .copy d s k, ts => do
    let x ← d.get c first ts
    let y ← s.get c first ts
    assign c x y
    k.exec first ts
  | .take s k, ts => do
    let y ← s.get c first ts
    let t ← newMove c y
    k.exec first (t :: ts)
  | .dup s k, ts => do
    let y ← s.get c first ts
    let t ← newCopy c y
    k.exec first (t :: ts)
  | .drop k, t :: ts => do
    delete c t
    k.exec first ts
  | .drop _, [] => undef
  | .test q x y k, ts => do
    let x ← x.get c first ts
    let y ← y.get c first ts
    let r ← elts (cmp q x y)
    (k r).exec first ts

/-- `begin()` (`ReferenceCountedArray.h` 713-716). -/
def beginAt (o : Nat) : P c It := do
  getOwnCopy c o
  arrs (cbeginI o)

/-- `end()` (`ReferenceCountedArray.h` 732). -/
def endAt (o : Nat) : P c It := do
  let b ← beginAt c o
  arrs (do b.plus (← Rca.length o))

/-- The iterator given to the algorithm. -/
def startOf (rev : Bool) (b e : It) : Start :=
  match rev with
  | false => .up b
  | true => .down e

/-- `algorithm(a.begin(), a.end())`, or with `rev` `algorithm(a.rbegin(), a.rend())` (`ReferenceCountedArray.h` 713-716, 732, 748, 764),
given what the algorithm does with `n` elements.  In which order the two iterators are made is left open by C++ (`back`: the one made of
`end()` first). -/
def algorithm (rev back : Bool) (o : Nat) (f : Nat → Algo n) : P c Nat := do
  if back then
    let e ← endAt c o
    let b ← beginAt c o
    let k ← arrs (It.minus e b)
    (f k).exec c cmp (startOf rev b e) []
  else
    let b ← beginAt c o
    let e ← endAt c o
    let k ← arrs (It.minus e b)
    (f k).exec c cmp (startOf rev b e) []

end

end Bdlib.Deep
