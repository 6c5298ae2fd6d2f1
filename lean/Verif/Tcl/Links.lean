import Verif.Tcl.Script
import Verif.Spec.Links

/-!
# Model of linked variables

One interpreter.  Its variables have traces as `Tcl_TraceVar(3)` describes: the newest first, read traces run
before the value is read, write traces after it was set; if a write trace gives an error the others do not run;
unsetting a variable removes its traces; no trace of a variable runs while one runs.  Names are used by scripts
as the program gave them.  `none` is undefined behaviour.
-/

namespace Bdlib.Tcl
open Bdlib Bdlib.Str Bdlib.Spec

variable {V H : Type}

/-- What the traces are for, with their client data (`ScriptInterpTCL.h` 323-372): a variable, a read-only
variable, a `trace_ptr_data`, a read-only text. -/
inductive Kind
  | var (a : Nat)
  | const (a : Nat)
  | buf (d : Nat)
  | text (b : Nat)
  deriving DecidableEq

structure Trace where
  reads : Bool
  kind : Kind

/-- A variable of the interpreter. -/
structure TclVar where
  value : Bytes
  traces : List Trace

/-- C variables and buffers, the interpreter's variables, `link_var_hooks`, `trace_ptrs`, the `trace_ptr_data`
objects (`none`: deleted), and the calls of hooks so far. -/
structure LinkSt (V H : Type) where
  vals : Nat → V
  bufs : Nat → Bytes
  vars : Bytes → Option TclVar
  hooks : Bytes → Option H
  ptrs : Bytes → Option Nat
  data : List (Option (Nat × Nat))
  log : List (H × Seen V × Seen V)

def LinkSt.init (vals : Nat → V) (bufs : Nat → Bytes) : LinkSt V H :=
  ⟨vals, bufs, fun _ => none, fun _ => none, fun _ => none, [], []⟩

/-- `String(ptr)` for text in a buffer: without a NUL in it, reading goes past the end. -/
def bufText (x : Bytes) : Option Bytes := if 0 ∈ x then some (cstr x) else none

/-- A read trace: `tcl_traceGet`, `tcl_traceGetPtrData`, `tcl_traceGetPtr` (`ScriptInterpTCL.h` 206-227) and
`TraceGet` (`ScriptInterpTCL.cpp` 113-121): the variable is set to the C string of the value, if there is one
(`c_to_tcl_cast` is `toTcl`). -/
def readTrace (toTcl : V → Option Bytes) (s : LinkSt V H) (value : Bytes) : Kind → Option Bytes
  | .var a | .const a => match toTcl (s.vals a) with
    | none => some value
    | some x => some (cstr x)
  | .buf d => match s.data[d]? with
    | some (some (b, _)) => bufText (s.bufs b)
    | _ => none
  | .text b => bufText (s.bufs b)

/-- The read traces one after the other. -/
def readTraces (toTcl : V → Option Bytes) (s : LinkSt V H) : List Trace → Bytes → Option Bytes
  | [], value => some value
  | t :: ts, value => if t.reads then match readTrace toTcl s value t.kind with
      | none => none
      | some value => readTraces toTcl s ts value
    else readTraces toTcl s ts value

/-- A script reads a variable. -/
def readVar (toTcl : V → Option Bytes) (s : LinkSt V H) (n : Bytes) : Option (LinkSt V H × Got) :=
  match s.vars n with
  | none => some (s, .unknown)
  | some v => match readTraces toTcl s v.traces v.value with
    | none => none
    | some x => some ({ s with vars := put s.vars n (some { v with value := x }) }, .value x)

/-- Calling the hook of a name (`ScriptInterpTCL.h` 240-243, 269-271). -/
def hookCalls (s : LinkSt V H) (n : Bytes) (old new : Seen V) : List (H × Seen V × Seen V) := match s.hooks n with
  | none => []
  | some h => [(h, old, new)]

/-- `memmove(ptr, src, size); ptr[size - 1] = '\0'` (`ScriptInterpTCL.h` 264-268) from text `x`, which has a
NUL after it: undefined if `size` is 0, if the buffer is smaller or if the text is more than one byte shorter. -/
def storeBuf (size : Nat) (old x : Bytes) : Option Bytes :=
  if size = 0 ∨ size > old.length ∨ size > x.length + 1 then none
  else some (((x ++ [0]).take size ++ old.drop size).set (size - 1) 0)

/-- A write trace: `tcl_traceSet`, `tcl_traceSetPtr` (`ScriptInterpTCL.h` 229-273) and `TraceSetRO`
(`ScriptInterpTCL.cpp` 107-111).  The second result: is it an error.  `parse` is `tcl_to_c_cast` (`none`: a
null pointer is dereferenced, as for `Array<String>`). -/
def writeTrace (parse : Bytes → Option V) (s : LinkSt V H) (n x : Bytes) : Kind → Option (LinkSt V H × Bool)
  | .var a => match parse x with
    | none => none
    | some v => some ({ s with vals := put s.vals a v, log := s.log ++ hookCalls s n (.val (s.vals a)) (.val v) }, false)
  | .buf d => match s.data[d]? with
    | some (some (b, size)) => match storeBuf size (s.bufs b) x with
      | none => none
      | some y => some ({ s with bufs := put s.bufs b y, log := s.log ++ hookCalls s n (.bytes ((s.bufs b).take size)) (.bytes y) }, false)
    | _ => none
  | .const _ | .text _ => some (s, true)

/-- The write traces one after the other. -/
def writeTraces (parse : Bytes → Option V) (n x : Bytes) : List Trace → LinkSt V H → Option (LinkSt V H × Bool)
  | [], s => some (s, false)
  | t :: ts, s => if t.reads then writeTraces parse n x ts s else match writeTrace parse s n x t.kind with
    | none => none
    | some (s, true) => some (s, true)
    | some (s, false) => writeTraces parse n x ts s

/-- The traces of a variable. -/
def tracesOf (s : LinkSt V H) (n : Bytes) : List Trace := match s.vars n with
  | none => []
  | some v => v.traces

/-- Setting a variable (by a script, or `Tcl_SetVar`). -/
def writeVar (parse : Bytes → Option V) (s : LinkSt V H) (n x : Bytes) : Option (LinkSt V H × Got) :=
  match writeTraces parse n x (tracesOf s n) { s with vars := put s.vars n (some ⟨x, tracesOf s n⟩) } with
  | none => none
  | some (s, err) => some (s, if err then .refused else .done)

/-- `setupTraces` (`ScriptInterpTCL.cpp` 98-105). -/
def setupTraces (parse : Bytes → Option V) (s : LinkSt V H) (n : Bytes) (k : Kind) (hook : Option H) : Option (LinkSt V H) :=
  match writeVar parse s n [] with
  | none => none
  | some (s, _) =>
    let s := { s with vars := put s.vars n (some ⟨[], ⟨false, k⟩ :: ⟨true, k⟩ :: tracesOf s n⟩) }
    match hook with
    | none => some s
    | some h => some { s with hooks := put s.hooks n (some h) }

/-- Deleting the `trace_ptr_data` of a name. -/
def freeData (s : LinkSt V H) (n : Bytes) : List (Option (Nat × Nat)) := match s.ptrs n with
  | none => s.data
  | some d => s.data.set d none

/-- The four `linkVar`s (`ScriptInterpTCL.h` 323-372). -/
def linkVar (parse : Bytes → Option V) (s : LinkSt V H) (n : Bytes) (t : Target) (hook : Option H) : Option (LinkSt V H) :=
  match t with
  | .var a => setupTraces parse s n (.var a) hook
  | .const a => setupTraces parse s n (.const a) hook
  | .text b => setupTraces parse s n (.text b) hook
  | .buf b size =>
    let d := s.data.length
    match setupTraces parse { s with data := s.data ++ [some (b, size)] } n (.buf d) hook with
    | none => none
    | some s => some { s with data := freeData s n, ptrs := put s.ptrs n (some d) }

/-- `unlinkVar` (`ScriptInterpTCL.h` 378-382). -/
def unlinkVar (s : LinkSt V H) (n : Bytes) : LinkSt V H :=
  { s with vars := put s.vars n none, hooks := put s.hooks n none, data := freeData s n, ptrs := put s.ptrs n none }

/-- One operation. -/
def runLink (toTcl : V → Option Bytes) (parse : Bytes → Option V) (s : LinkSt V H) : LinkOp Bytes V H → Option (LinkSt V H × Got)
  | .link n t h => (linkVar parse s n t h).map (·, .nothing)
  | .unlink n => some (unlinkVar s n, .nothing)
  | .read n => readVar toTcl s n
  | .write n x => writeVar parse s n x
  | .set a v => some ({ s with vals := put s.vals a v }, .nothing)
  | .fill b x => some ({ s with bufs := put s.bufs b x }, .nothing)

def runLinks (toTcl : V → Option Bytes) (parse : Bytes → Option V) (s : LinkSt V H) : List (LinkOp Bytes V H) → Option (LinkSt V H × List Got)
  | [] => some (s, [])
  | op :: ops => match runLink toTcl parse s op with
    | none => none
    | some (s, o) => match runLinks toTcl parse s ops with
      | none => none
      | some (s, os) => some (s, o :: os)

end Bdlib.Tcl
