import Verif.Cstr.Model

/-!
# Programs that keep C strings

A program with any number of `char*` variables, each null, pointing at a string literal, or owning a block, and the functions of
`Cstrings.cpp` that allocate.  The allocator may refuse any request; the wrappers of `calloc` and `realloc` then end the process.
-/

namespace Bdlib.Cstr
open Bdlib Bdlib.Str

/-- How a piece of the program ends. -/
inductive Fate (α : Type) where
  | ok (a : α)
  /-- `exit(status)` -/
  | exit (status : Nat)
  | ub

/-- The allocator: whether the `n`-th request, for `k` bytes, is granted; whether `realloc` moves; what is in fresh bytes. -/
structure Alloc where
  grants : Nat → Nat → Bool
  moves : Nat → Bool
  junk : Nat → UInt8

/-- The memory and the variables. -/
structure Vars where
  heap : Heap := []
  ptr : Nat → Option Nat := fun _ => none
  /-- requests so far -/
  asked : Nat := 0
  /-- ghost: the blocks that are string literals -/
  lits : List Nat := []

def setVar (f : Nat → Option Nat) (x : Nat) (v : Option Nat) : Nat → Option Nat := fun y => if y = x then v else f y

/-- Without a result, the process has run into undefined behaviour (the functions of `Cstr/Model.lean` do not throw). -/
def Fate.of {α β : Type} (e : Eff α) (f : α → Fate β) : Fate β :=
  match e with
  | .ret a => f a
  | _ => .ub

/-- `x = strdup(y + k)`: `calloc` (`Cstrings.cpp` 133-141) ends the process with status 5, so that the test for a null pointer in `strdup`
(`Cstrings.cpp` 117) never succeeds; the rest is `Cstr.strdup`. -/
def dupTo (A : Alloc) (w : Vars) (x y k : Nat) : Fate Vars :=
  match w.ptr y with
  | none => .ub
  | some a =>
    Fate.of (w.heap.from (a, k)) fun src =>
    Fate.of (strlen src) fun len =>
    if A.grants w.asked (len + 1) then
      Fate.of (strdup src) fun b => .ok ⟨w.heap ++ [some b], setVar w.ptr x (some w.heap.length), w.asked + 1, w.lits⟩
    else .exit 5

/-- `x = strldup(y + k, max)` (`Cstrings.cpp` 122-131); `calloc` as above. -/
def ldupTo (A : Alloc) (w : Vars) (x y k max : Nat) : Fate Vars :=
  match w.ptr y with
  | none => .ub
  | some a =>
    Fate.of (w.heap.from (a, k)) fun src =>
    Fate.of (strlen src) fun slen =>
    if A.grants w.asked ((if slen < max then slen else max) + 1) then
      Fate.of (strldup src max) fun b => .ok ⟨w.heap ++ [some b], setVar w.ptr x (some w.heap.length), w.asked + 1, w.lits⟩
    else .exit 5

/-- `str_redup(&x, y + k)` (`Cstrings.cpp` 97-110); `realloc` (`Cstrings.cpp` 143-151) ends the process with status 5. -/
def redupTo (A : Alloc) (w : Vars) (x y k : Nat) : Fate Vars :=
  match w.ptr y with
  | none => .ub
  | some a =>
    Fate.of (w.heap.from (a, k)) fun src =>
    Fate.of (strlen src) fun len =>
    if A.grants w.asked (len + 1) then
      Fate.of (strRedup w.heap (A.moves w.asked) (A.junk w.asked) (w.ptr x) (some (a, k))) fun r =>
        .ok ⟨r.2, setVar w.ptr x r.1, w.asked + 1, w.lits⟩
    else .exit 5

/-- `str_redup(&x, nullptr)` (`Cstrings.cpp` 102-106). -/
def redupNull (A : Alloc) (w : Vars) (x : Nat) : Fate Vars :=
  Fate.of (strRedup w.heap (A.moves w.asked) (A.junk w.asked) (w.ptr x) none) fun r => .ok ⟨r.2, setVar w.ptr x r.1, w.asked, w.lits⟩

/-- `free(x); x = nullptr;` by the program. -/
def freeVar (w : Vars) (x : Nat) : Fate Vars :=
  match w.ptr x with
  | none => .ok w
  | some a => Fate.of (w.heap.free a) fun h => .ok ⟨h, setVar w.ptr x none, w.asked, w.lits⟩

/-- What the program does. -/
inductive Call
  /-- `x = "t"`: a string literal -/
  | lit (x : Nat) (t : Bytes)
  | dup (x y k : Nat)
  | ldup (x y k max : Nat)
  | redup (x y k : Nat)
  | redupNull (x : Nat)
  | free (x : Nat)

/-- `Call` to the functions above; a literal is a block that is there from some time on. -/
def call (A : Alloc) (w : Vars) : Call → Fate Vars
  | .lit x t => .ok ⟨w.heap ++ [some (t ++ [0])], setVar w.ptr x (some w.heap.length), w.asked, w.heap.length :: w.lits⟩
  | .dup x y k => dupTo A w x y k
  | .ldup x y k max => ldupTo A w x y k max
  | .redup x y k => redupTo A w x y k
  | .redupNull x => redupNull A w x
  | .free x => freeVar w x

/-- A program: one call after the other, until the process ends. -/
def play (A : Alloc) : Vars → List Call → Fate Vars
  | w, [] => .ok w
  | w, c :: cs =>
    match call A w c with
    | .ok w' => play A w' cs
    | .exit n => .exit n
    | .ub => .ub

end Bdlib.Cstr
