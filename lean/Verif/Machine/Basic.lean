/-!
# The memory machine

State of the modelled C++ program as far as `ReferenceCountedArray` objects of
one instantiation are concerned: heap blocks (`ArrayRef`), live objects, and a
monad with three outcomes: normal result, exception, undefined behaviour.
-/

namespace Bdlib

/-- The C++ exceptions that can leave the modelled code: `std::out_of_range`
(`ReferenceCountedArray.h` 419-422) and `std::bad_alloc` (any `new`/`allocate`). -/
inductive Exc where
  | outOfRange
  | badAlloc
  deriving DecidableEq, Repr

/-- `ArrayRef` (`ReferenceCountedArray.h` 50-145).  `cells` is the buffer `buf[0..size)`
(`size` = `cells.length`; `buf == nullptr` iff `size == 0`), `refs` the reference
count.  `gen` is ghost: the identity of the buffer, renewed at every allocation, so
that raw pointers into a replaced buffer are recognised as dangling. -/
structure Block (T : Type) where
  gen : Nat
  cells : List T
  refs : Int
  deriving DecidableEq, Repr

/-- The data members of `ReferenceCountedArray` (`ReferenceCountedArray.h` 317-336):
`Ref` (a block address), `offset`, `sublen`, `my_hash` (0 = stale). -/
structure Obj where
  ref : Option Nat := none
  offset : Nat := 0
  sublen : Nat := 0
  hash : UInt64 := 0
  deriving DecidableEq, Repr

/-- Machine state.  Block addresses and object handles are list positions and are
never reused; `none` marks a deleted block / destroyed object.  `gen` counts
allocation attempts.  `freed` is ghost: the contents of every buffer at the moment it
was handed back to the allocator, latest first. -/
structure St (T : Type) where
  heap : List (Option (Block T)) := []
  objs : List (Option Obj) := []
  gen : Nat := 0
  freed : List (List T) := []
  deriving DecidableEq, Repr

/-- What is left open by the C++ standard, the platform or the template arguments.
* `nul`: `some '\0'` for `String` (which overrides `reserve`), `none` for `Array<T>`.
* `junk g i`: content of cell `i` of the `g`-th allocated buffer before it is written
  (for class types this is `T()`, `ReferenceCountedArray.h` 87-88).
* `moved x`: what a moved-from `x` holds.
* `scale n`: `size_t(n * 1.5)` (`ReferenceCountedArray.h` 81, 225); only its use in
  `max` matters for correctness.
* `allocOk g n`: does the `g`-th allocation attempt, of `n` elements, succeed?
* `resetMoved`: is `CPPUNIT_VERSION` defined (`ReferenceCountedArray.h` 446-450, 552-556)?
* `hasher`: `std::hash<T>`.
* `wipe g i`: the byte `String::cleanse` (`String.h` 71-84) stores in cell `i` of buffer
  `g`; it is computed from a counter and addresses, never from the contents (see
  `Verif/Cleanse.lean`).
* `slack`: ghost, read by no operation.  With `slack = 1` the invariant additionally says that
  every non-empty object has a spare cell behind its last element; this is what `c_str()` needs. -/
structure Cfg (T : Type) where
  nul : Option T
  junk : Nat → Nat → T
  moved : T → T
  scale : Nat → Nat
  allocOk : Nat → Nat → Bool
  resetMoved : Bool
  hasher : T → UInt64
  wipe : Nat → Nat → T
  slack : Nat := 0

/-- Cells an object with `n` elements must have available from its offset on: `n`, and `slack`
more unless it is empty.  Used by the invariant only. -/
def Cfg.need {T : Type} (cfg : Cfg T) (n : Nat) : Nat := if n = 0 then 0 else n + cfg.slack

/-- The ghost `slack` matches the run-time type: a spare cell is only promised for strings. -/
def Cfg.Valid {T : Type} (cfg : Cfg T) : Prop := cfg.slack = 0 ∨ (cfg.slack = 1 ∧ cfg.nul.isSome)

theorem Cfg.le_need {T : Type} (cfg : Cfg T) (n : Nat) : n ≤ cfg.need n := by
  unfold Cfg.need; split <;> omega

/-- Outcome of running a piece of the program. -/
inductive Res (T α : Type) where
  | ok (a : α) (s : St T)
  | throw (e : Exc) (s : St T)
  | ub
  deriving DecidableEq, Repr

/-- Programs: state passing with exceptions and undefined behaviour. -/
def M (T α : Type) : Type := St T → Res T α

namespace M
variable {T α β : Type}

def pure (a : α) : M T α := fun s => .ok a s

def bind (m : M T α) (f : α → M T β) : M T β := fun s =>
  match m s with
  | .ok a s' => f a s'
  | .throw e s' => .throw e s'
  | .ub => .ub

instance : Monad (M T) where
  pure := M.pure
  bind := M.bind

/-- Stack unwinding: if `m` throws, run `c` and rethrow. -/
def onThrow (m : M T α) (c : M T Unit) : M T α := fun s =>
  match m s with
  | .ok a s' => .ok a s'
  | .throw e s' =>
    match c s' with
    | .ok _ s'' => .throw e s''
    | .throw _ _ => .ub
    | .ub => .ub
  | .ub => .ub

def raise (e : Exc) : M T α := fun s => .throw e s
def undef : M T α := fun _ => .ub
def get : M T (St T) := fun s => .ok s s
def set (s : St T) : M T Unit := fun _ => .ok () s
end M

/-- `r` is not undefined behaviour, satisfies `Q` if it returned and `E` if it threw. -/
def Res.Sat {T α : Type} (r : Res T α) (Q : α → St T → Prop) (E : Exc → St T → Prop) : Prop :=
  match r with
  | .ok a s => Q a s
  | .throw e s => E e s
  | .ub => False

/-- The state an outcome leaves behind, if it is not undefined behaviour. -/
def Res.state? {T α : Type} : Res T α → Option (St T)
  | .ok _ s => some s
  | .throw _ s => some s
  | .ub => none

section SatLemmas
variable {T α β : Type} {Q : β → St T → Prop} {E : Exc → St T → Prop}

theorem sat_bind {m : M T α} {f : α → M T β} {s : St T}
    (h : (m s).Sat (fun a s' => (f a s').Sat Q E) E) : ((m >>= f) s).Sat Q E := by
  show (M.bind m f s).Sat Q E
  unfold M.bind
  cases hm : m s with
  | ok a s' => rw [hm] at h; exact h
  | throw e s' => rw [hm] at h; exact h
  | ub => rw [hm] at h; exact h

theorem sat_pure {a : β} {s : St T} (h : Q a s) : ((Pure.pure a : M T β) s).Sat Q E := h

theorem sat_mono {r : Res T β} {Q' : β → St T → Prop} {E' : Exc → St T → Prop}
    (h : r.Sat Q' E') (hq : ∀ a s, Q' a s → Q a s) (he : ∀ e s, E' e s → E e s) : r.Sat Q E := by
  cases r with
  | ok a s => exact hq _ _ h
  | throw e s => exact he _ _ h
  | ub => exact h

/-- Sequencing with an established specification for the first part. -/
theorem sat_bind' {m : M T α} {f : α → M T β} {s : St T}
    {Q' : α → St T → Prop} {E' : Exc → St T → Prop}
    (h : (m s).Sat Q' E') (hq : ∀ a s', Q' a s' → (f a s').Sat Q E)
    (he : ∀ e s', E' e s' → E e s') : ((m >>= f) s).Sat Q E :=
  sat_bind (sat_mono h hq he)

end SatLemmas

/-! ## size_t arithmetic -/

/-- `2^64`, the modulus of `size_t`. -/
def two64 : Nat := 18446744073709551616

/-- `size_t` subtraction: wraps around. -/
def sub64 (a b : Nat) : Nat := if b ≤ a then a - b else two64 + a - b

/-- `npos = static_cast<size_t>(-1)` (`ReferenceCountedArray.h` 216). -/
def npos : Nat := 18446744073709551615

/-! ## Primitive accesses -/

namespace St
variable {T : Type}

/-- The live object behind a handle. -/
def obj (s : St T) (o : Nat) : Option Obj := (s.objs[o]?).join
/-- The live block at an address. -/
def blk (s : St T) (a : Nat) : Option (Block T) := (s.heap[a]?).join
def setObj (s : St T) (o : Nat) (x : Option Obj) : St T := { s with objs := s.objs.set o x }
def setBlk (s : St T) (a : Nat) (x : Option (Block T)) : St T := { s with heap := s.heap.set a x }

end St

section Prims
variable {T : Type}

/-- Access an object's members; undefined if it does not exist (any more). -/
def getObj (o : Nat) : M T Obj := fun s =>
  match s.obj o with
  | some ob => .ok ob s
  | none => .ub

def putObj (o : Nat) (ob : Obj) : M T Unit := fun s => .ok () (s.setObj o (some ob))

/-- Access a block; undefined if it was deleted. -/
def getBlk (a : Nat) : M T (Block T) := fun s =>
  match s.blk a with
  | some b => .ok b s
  | none => .ub

def putBlk (a : Nat) (b : Block T) : M T Unit := fun s => .ok () (s.setBlk a (some b))

/-- An allocation attempt for `n` elements; returns the ghost identity. -/
def alloc (cfg : Cfg T) (n : Nat) : M T Nat := fun s =>
  let g := s.gen + 1
  if cfg.allocOk g n then .ok g { s with gen := g } else .throw .badAlloc { s with gen := g }

/-- `n` cells starting at index `i`. -/
def window (cells : List T) (i n : Nat) : List T := (cells.drop i).take n

/-- Overwrite cells from index `i` on with `vs`. -/
def overwrite (cells : List T) (i : Nat) (vs : List T) : List T :=
  cells.take i ++ vs ++ cells.drop (i + vs.length)

/-- Read `n` cells at `Buf(i)` of object `o` (`Buf`, `ReferenceCountedArray.h` 301-310).
An empty range is never dereferenced. -/
def readRange (o i n : Nat) : M T (List T) := do
  let ob ← getObj o
  if n = 0 then return []
  match ob.ref with
  | none => M.undef
  | some a =>
    let b ← getBlk a
    if ob.offset + i + n ≤ b.cells.length then return window b.cells (ob.offset + i) n
    else M.undef

/-- Write `vs` at `Buf(i)` of object `o`. -/
def writeRange (o i : Nat) (vs : List T) : M T Unit := do
  let ob ← getObj o
  if vs.isEmpty then return ()
  match ob.ref with
  | none => M.undef
  | some a =>
    let b ← getBlk a
    if ob.offset + i + vs.length ≤ b.cells.length then
      putBlk a { b with cells := overwrite b.cells (ob.offset + i) vs }
    else M.undef

end Prims

end Bdlib
