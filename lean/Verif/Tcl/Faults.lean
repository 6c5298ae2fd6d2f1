import Verif.Tcl.Links

/-!
# Commands and linked variables with exceptions and failing allocations

`Tcl/Script.lean` and `Tcl/Links.lean` once more, with everything that may throw: memory for Strings, conversions,
the program's functions and hooks.  `mem n` says whether the `n`-th allocation succeeds.  Tcl itself ends the
program when it is out of memory, so its allocations do not appear.  Names are NUL-terminated in their buffers, so
`*name` does not allocate (C66).
-/

namespace Bdlib.Tcl
open Bdlib Bdlib.Str Bdlib.Spec

/-- What is thrown: a `String`, or anything else (`std::bad_alloc`, …). -/
inductive Thrown
  | text (b : Bytes)
  | other
  deriving DecidableEq

/-- How a piece of code ends: with the number of allocations so far and the state `S` it leaves. -/
inductive Ran (S α : Type)
  | ret (a : α) (n : Nat) (s : S)
  | throw (e : Thrown) (n : Nat) (s : S)
  | ub

/-- Code that may change a state, allocate and throw. -/
def X (S α : Type) := Nat → S → Ran S α

variable {S α β : Type}

def X.bind (m : X S α) (f : α → X S β) : X S β := fun n s =>
  match m n s with
  | .ret a n s => f a n s
  | .throw e n s => .throw e n s
  | .ub => .ub

instance : Monad (X S) where
  pure a := fun n s => .ret a n s
  bind := X.bind

/-- `throw`. -/
def X.raise (e : Thrown) : X S α := fun n s => .throw e n s

/-- Undefined behaviour. -/
def X.undef : X S α := fun _ _ => .ub

/-- `try { m } catch …`. -/
def X.catching (m : X S α) (h : Thrown → X S α) : X S α := fun n s =>
  match m n s with
  | .throw e n s => h e n s
  | r => r

def X.read : X S S := fun n s => .ret s n s
def X.modify (f : S → S) : X S Unit := fun n s => .ret () n (f s)

/-- One allocation: `std::bad_alloc` if there is no memory. -/
def X.alloc (mem : Nat → Bool) : X S Unit := fun n s => if mem n then .ret () (n + 1) s else .throw .other (n + 1) s

theorem X.bind_ret {m : X S α} {f : α → X S β} {n n' : Nat} {s s' : S} {a : α} (h : m n s = .ret a n' s') :
    (m >>= f) n s = f a n' s' := by
  show X.bind m f n s = _
  unfold X.bind; rw [h]

theorem X.bind_throw {m : X S α} {f : α → X S β} {n n' : Nat} {s s' : S} {e : Thrown} (h : m n s = .throw e n' s') :
    (m >>= f) n s = .throw e n' s' := by
  show X.bind m f n s = _
  unfold X.bind; rw [h]

theorem X.bind_ub {m : X S α} {f : α → X S β} {n : Nat} {s : S} (h : m n s = .ub) : (m >>= f) n s = .ub := by
  show X.bind m f n s = _
  unfold X.bind; rw [h]

theorem X.alloc_ok {mem : Nat → Bool} {n : Nat} (h : mem n = true) (s : S) : X.alloc mem n s = .ret () (n + 1) s := by
  unfold X.alloc; rw [if_pos h]

theorem X.alloc_no {mem : Nat → Bool} {n : Nat} (h : mem n = false) (s : S) : X.alloc mem n s = .throw .other (n + 1) s := by
  unfold X.alloc; rw [h]; rfl

/-! ## Commands -/

/-- A registered command (`ScriptInterp.h` 72-101): conversions and default values of the parameters, the
function, and the conversion of its result, as in the program: they may do and throw anything. -/
structure FCmd (S O P R : Type) where
  params : List ((O → X S P) × X S P)
  min : Nat
  max : Nat
  usage : Option Bytes
  fn : List P → X S R
  out : R → X S Bytes

variable {O P R : Type}

/-- One argument (`ScriptInterpTCLCallbacks.h` 48-54). -/
def argumentF (p : (O → X S P) × X S P) (i : Nat) (objv : List O) : X S P :=
  if objv.length - 1 ≥ i + 1 then
    match objv[i + 1]? with
    | some o => p.1 o
    | none => .undef
  else p.2

/-- The arguments, the leftmost first (`ScriptInterpTCLCallbacks.h` 46-55). -/
def argumentsF : List ((O → X S P) × X S P) → (i : Nat) → (objv : List O) → X S (List P)
  | [], _, _ => pure []
  | p :: ps, i, objv => do
    let a ← argumentF p i objv
    let as ← argumentsF ps (i + 1) objv
    return a :: as

/-- `String::printf` (`String.cpp` 245-254): the result is allocated. -/
def printfF (mem : Nat → Bool) (text : Bytes) : X S Bytes := do
  match printf text with
  | .ret b => do X.alloc mem; return b
  | _ => .undef

/-- The error text for a wrong number of arguments (`ScriptInterpTCL.cpp` 73-77); `+=` allocates, too. -/
def wrongArgsF (mem : Nat → Bool) (name : Bytes) (min given : Nat) (usage : Option Bytes) : X S Bytes := do
  let e ← printfF mem ([87, 114, 111, 110, 103, 32, 35, 32, 97, 114, 103, 115, 46, 32, 69, 120, 112, 101, 99, 116, 101, 100, 32]
    ++ decimal min ++ [44, 32, 103, 111, 116, 32] ++ decimal given ++ [46])
  match usage with
  | none => return e
  | some u =>
    let f ← printfF mem ([32, 83, 104, 111, 117, 108, 100, 32, 98, 101, 32, 34] ++ cstr name ++ [32] ++ cstr u ++ [34])
    X.alloc mem
    return e ++ f

/-- "Unhandled exception." -/
def unhandled : Bytes := [85, 110, 104, 97, 110, 100, 108, 101, 100, 32, 101, 120, 99, 101, 112, 116, 105, 111, 110, 46]

/-- `_createCommand_callback` (`ScriptInterpTCL.cpp` 65-96) with words `objv`.  Before the `try` the name is made a
String (68) and a wrong number of arguments is reported (71-81); the second handler makes a String of its text
(91-93). -/
def dispatchF (mem : Nat → Bool) (str : O → Bytes) (c : FCmd S O P R) (objv : List O) : X S (Reply Bytes) := do
  match objv with
  | [] => .undef
  | o :: _ =>
    X.alloc mem
    if sub64 objv.length 1 < c.min ∨ sub64 objv.length 1 > c.max then
      let e ← wrongArgsF mem (str o) c.min (objv.length - 1) c.usage
      return .error e
    else
      X.catching (do
          let as ← argumentsF c.params 0 objv
          let r ← c.fn as
          let b ← c.out r
          return .ok b)
        fun
        | .text e => return .error e
        | .other => do
          X.alloc mem
          return .error unhandled

/-! ## Linked variables -/

variable {V H : Type}

/-- What the program's part of linked variables does: `parse` is `tcl_to_c_cast`, `moved` what moving leaves
behind, `hook` the hooks. -/
structure Side (V H : Type) where
  parse : Bytes → X (LinkSt V H) V
  moved : V → V
  hook : H → Seen V → Seen V → X (LinkSt V H) Unit

/-- `String(name)` for a C string (`String.h` 101-108): no allocation for the empty one. -/
def nameString (mem : Nat → Bool) (n : Bytes) : X S Unit := if n = [] then pure () else X.alloc mem

/-- `link_var_hooks.find(name1)` and the call (`ScriptInterpTCL.h` 239-242). -/
def callHook (mem : Nat → Bool) (P : Side V H) (n : Bytes) (old new : Seen V) : X (LinkSt V H) Unit := do
  nameString mem n
  let s ← X.read
  match s.hooks n with
  | none => pure ()
  | some h => do
    X.modify fun s => { s with log := s.log ++ [(h, old, new)] }
    P.hook h old new

/-- `tcl_traceSet` (`ScriptInterpTCL.h` 229-245) with `TraceSet` (`ScriptInterpTCL.cpp` 123-129): the value is moved
out of the variable before the new one is made. -/
def traceSetF (mem : Nat → Bool) (P : Side V H) (n x : Bytes) (a : Nat) : X (LinkSt V H) Unit := do
  nameString mem n
  let s ← X.read
  X.modify fun s => { s with vals := put s.vals a (P.moved (s.vals a)) }
  let v ← P.parse x
  X.modify fun s => { s with vals := put s.vals a v }
  callHook mem P n (.val (s.vals a)) (.val v)

/-- Copying the old bytes, if there is a hook to show them to (`ScriptInterpTCL.h` 257-262). -/
def copyOld (mem : Nat → Bool) (hook : Option H) : X (LinkSt V H) Unit := match hook with
  | none => pure ()
  | some _ => X.alloc mem

/-- `tcl_traceSetPtr` (`ScriptInterpTCL.h` 247-273): the hook is looked up first; a copy of the old bytes is
allocated if there is one. -/
def traceSetPtrF (mem : Nat → Bool) (P : Side V H) (n x : Bytes) (d : Nat) : X (LinkSt V H) Unit := do
  nameString mem n
  nameString mem n
  let s ← X.read
  match s.data[d]? with
  | some (some (b, size)) =>
    copyOld mem (s.hooks n)
    match storeBuf size (s.bufs b) x with
    | none => .undef
    | some y =>
      X.modify fun s => { s with bufs := put s.bufs b y }
      match s.hooks n with
      | none => pure ()
      | some h =>
        X.modify fun t => { t with log := t.log ++ [(h, .bytes ((s.bufs b).take size), .bytes y)] }
        P.hook h (.bytes ((s.bufs b).take size)) (.bytes y)
  | _ => .undef

/-- A write trace (`ScriptInterpTCL.h` 229-273, `ScriptInterpTCL.cpp` 107-111): is it an error. -/
def writeTraceF (mem : Nat → Bool) (P : Side V H) (n x : Bytes) : Kind → X (LinkSt V H) Bool
  | .var a => do traceSetF mem P n x a; return false
  | .buf d => do traceSetPtrF mem P n x d; return false
  | .const _ | .text _ => return true

/-- The write traces one after the other. -/
def writeTracesF (mem : Nat → Bool) (P : Side V H) (n x : Bytes) : List Trace → X (LinkSt V H) Bool
  | [] => return false
  | t :: ts => if t.reads then writeTracesF mem P n x ts else do
    if ← writeTraceF mem P n x t.kind then return true
    writeTracesF mem P n x ts

/-- Setting a variable (by a script, or `Tcl_SetVar`). -/
def writeVarF (mem : Nat → Bool) (P : Side V H) (n x : Bytes) : X (LinkSt V H) Got := do
  let s ← X.read
  X.modify fun s => { s with vars := put s.vars n (some ⟨x, tracesOf s n⟩) }
  let err ← writeTracesF mem P n x (tracesOf s n)
  return if err then .refused else .done

/-- `setupTraces` (`ScriptInterpTCL.cpp` 98-105): the table of hooks may have to grow. -/
def setupTracesF (mem : Nat → Bool) (P : Side V H) (n : Bytes) (k : Kind) (hook : Option H) : X (LinkSt V H) Unit := do
  let _ ← writeVarF mem P n []
  X.modify fun s => { s with vars := put s.vars n (some ⟨[], ⟨false, k⟩ :: ⟨true, k⟩ :: tracesOf s n⟩) }
  match hook with
  | none => pure ()
  | some h => do
    let s ← X.read
    (match s.hooks n with
    | some _ => pure ()
    | none => X.alloc mem)
    X.modify fun s => { s with hooks := put s.hooks n (some h) }

/-- The new `trace_ptr_data` (`ScriptInterpTCL.h` 337). -/
def newData (b size : Nat) : X (LinkSt V H) Nat := fun n s => .ret s.data.length n { s with data := s.data ++ [some (b, size)] }

/-- `linkVar` for a buffer (`ScriptInterpTCL.h` 335-343): the `trace_ptr_data` is allocated first and held by a
`unique_ptr`, which deletes it if anything throws. -/
def linkBufF (mem : Nat → Bool) (P : Side V H) (n : Bytes) (b size : Nat) (hook : Option H) : X (LinkSt V H) Unit := do
  X.alloc mem
  let d ← newData b size
  X.catching (do
      setupTracesF mem P n (.buf d) hook
      let s ← X.read
      match s.ptrs n with
      | some _ => pure ()
      | none => X.alloc mem)
    fun e => do
      X.modify fun s => { s with data := s.data.set d none }
      X.raise e
  X.modify fun s => { s with data := freeData s n, ptrs := put s.ptrs n (some d) }

/-- The four `linkVar`s (`ScriptInterpTCL.h` 323-372). -/
def linkVarF (mem : Nat → Bool) (P : Side V H) (n : Bytes) (t : Target) (hook : Option H) : X (LinkSt V H) Unit :=
  match t with
  | .var a => setupTracesF mem P n (.var a) hook
  | .const a => setupTracesF mem P n (.const a) hook
  | .text b => setupTracesF mem P n (.text b) hook
  | .buf b size => linkBufF mem P n b size hook

end Bdlib.Tcl
