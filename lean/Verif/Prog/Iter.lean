import Verif.Prog.Model

/-!
# Iterators

Iterators are raw pointers (`ReferenceCountedArray.h` 242-246).  `none` is the null pointer, which `cbegin()` returns for
an object that has never had storage.
-/

namespace Bdlib.Rca
open Bdlib

variable {T : Type}

abbrev It := Option Ptr

/-- `cbegin()`, `begin() const`, `data()` (`ReferenceCountedArray.h` 718-726). -/
def cbeginI (o : Nat) : M T It := do
  let ob ← getObj o
  match ob.ref with
  | none => return none
  | some a => let b ← getBlk a; return some ⟨a, b.gen, ob.offset⟩

/-- `it + n`; adding to the null pointer is undefined unless `n` is 0. -/
def It.plus (p : It) (n : Nat) : M T It :=
  match p with
  | none => if n = 0 then pure none else M.undef
  | some p => pure (some { p with idx := p.idx + n })

/-- `it - 1`; leaving the buffer is undefined. -/
def It.back (p : It) : M T It :=
  match p with
  | none => M.undef
  | some p => if p.idx = 0 then M.undef else pure (some { p with idx := p.idx - 1 })

/-- `it - n`; leaving the buffer is undefined. -/
def It.down (p : It) : Nat → M T It
  | 0 => pure p
  | n + 1 => do (← p.back).down n

/-- `*it`, read and written. -/
def It.load (p : It) : M T T := match p with
  | none => M.undef
  | some p => loadPtr p
def It.store (p : It) (x : T) : M T Unit := match p with
  | none => M.undef
  | some p => storePtr p x

/-- `it - other`; undefined for pointers into different buffers. -/
def It.minus (p q : It) : M T Nat :=
  match p, q with
  | none, none => pure 0
  | some p, some q => if p.addr = q.addr ∧ p.gen = q.gen ∧ q.idx ≤ p.idx then pure (p.idx - q.idx) else M.undef
  | _, _ => M.undef

/-- `cend()`, `end() const` (`ReferenceCountedArray.h` 734-742). -/
def cendI (o : Nat) : M T It := do
  let p ← cbeginI o
  p.plus (← length o)

/-- `begin()` (`ReferenceCountedArray.h` 713-716). -/
def beginI (cfg : Cfg T) (o : Nat) : M T It := do
  getOwnCopy cfg o
  cbeginI o

/-- `end()` (`ReferenceCountedArray.h` 732). -/
def endI (cfg : Cfg T) (o : Nat) : M T It := do
  let p ← beginI cfg o
  p.plus (← length o)

/-! ## Loops of the user -/

/-- `for (; p != e; ++p) use(*p);`: the elements used, in order.  A loop that has not ended after `fuel` rounds counts as
undefined. -/
def walk : Nat → It → It → M T (List T)
  | 0, _, _ => M.undef
  | fuel + 1, p, e => if p = e then pure [] else do
    let x ← p.load
    let p ← p.plus 1
    let xs ← walk fuel p e
    return x :: xs

/-- The same with reverse iterators made from `e` and `b` (`ReferenceCountedArray.h` 748-774): `*it` is the element before. -/
def walkBack : Nat → It → It → M T (List T)
  | 0, _, _ => M.undef
  | fuel + 1, p, b => if p = b then pure [] else do
    let p ← p.back
    let x ← p.load
    let xs ← walkBack fuel p b
    return x :: xs

/-- `for (; p != e; ++p) *p = f(*p);` -/
def assignEach (f : T → T) : Nat → It → It → M T Unit
  | 0, _, _ => M.undef
  | fuel + 1, p, e => if p = e then pure () else do
    let x ← p.load
    p.store (f x)
    let p ← p.plus 1
    assignEach f fuel p e

/-- `for (const auto& x : std::as_const(a))`. -/
def eachConst (fuel o : Nat) : M T (List T) := do
  let b ← cbeginI o
  let e ← cendI o
  walk fuel b e

/-- `for (auto it = a.crbegin(); it != a.crend(); ++it)`. -/
def eachBack (fuel o : Nat) : M T (List T) := do
  let e ← cendI o
  let b ← cbeginI o
  walkBack fuel e b

/-- `for (auto& x : a) x = f(x);` -/
def rangeFor (cfg : Cfg T) (f : T → T) (fuel o : Nat) : M T Unit := do
  let b ← beginI cfg o
  let e ← endI cfg o
  assignEach f fuel b e

/-- `for (auto it = a.cbegin(); it != a.end(); ++it)` on an object that is not const. -/
def eachMixed (cfg : Cfg T) (fuel o : Nat) : M T (List T) := do
  let b ← cbeginI o
  let e ← endI cfg o
  walk fuel b e

/-! ## Inserting at an iterator -/

/-- `insert(const_iterator, item)` (`ReferenceCountedArray.h` 1029-1039) with an item outside the buffer. -/
def insertIt (cfg : Cfg T) (o : Nat) (pos : It) (x : T) : M T It := do
  let index ← pos.minus (← cbeginI o)
  insertItem cfg o index x
  (← beginI cfg o).plus index

end Bdlib.Rca
