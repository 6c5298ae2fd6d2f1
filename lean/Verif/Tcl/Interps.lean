import Verif.Tcl.Links
import Verif.Spec.Interps

/-!
# Model of linked variables with several interpreters

As in `Tcl/Links.lean`, but any number of `ScriptInterpTCL` objects exist, are made and destroyed, scripts may
unset variables, and neither scripts nor the program need spell a name in one way (`tclName`: the global variable a
spelling means, e.g. `x` for `::x`; a local variable that `upvar` or `global` ties to it is a spelling too).  A variable may be
an element of an array, `a(k)`: traces are told the name in two parts, and `name1` is the first, e.g. `a`.
`trace_ptrs` belongs to the interpreter, `link_var_hooks` is static: one for all (`ScriptInterpTCL.h` 197, 285).
-/

namespace Bdlib.Tcl
open Bdlib Bdlib.Str Bdlib.Spec

variable {V H : Type}

/-- The part of `LinkSt` that each interpreter has: variables, `trace_ptrs`, the `trace_ptr_data` objects. -/
structure TclInterp where
  vars : Bytes → Option TclVar
  ptrs : Bytes → Option Nat
  data : List (Option (Nat × Nat))

/-- A new interpreter (`ScriptInterpTCL.h` 288-290). -/
def TclInterp.new : TclInterp := ⟨fun _ => none, fun _ => none, []⟩

/-- All interpreters (`none`: no such object), and what they share. -/
structure Interps (V H : Type) where
  interp : Nat → Option TclInterp
  vals : Nat → V
  bufs : Nat → Bytes
  hooks : Bytes → Option H
  log : List (H × Seen V × Seen V)

def Interps.init (vals : Nat → V) (bufs : Nat → Bytes) : Interps V H := ⟨fun _ => none, vals, bufs, fun _ => none, []⟩

/-- What code running for an interpreter works on. -/
def Interps.view (w : Interps V H) (p : TclInterp) : LinkSt V H := ⟨w.vals, w.bufs, p.vars, w.hooks, p.ptrs, p.data, w.log⟩

/-- Afterwards. -/
def Interps.back (w : Interps V H) (i : Nat) (s : LinkSt V H) : Interps V H :=
  ⟨put w.interp i (some ⟨s.vars, s.ptrs, s.data⟩), s.vals, s.bufs, s.hooks, s.log⟩

/-- Something done with an interpreter; undefined if there is none. -/
def Interps.at (w : Interps V H) (i : Nat) (f : LinkSt V H → Option (LinkSt V H × Got)) : Option (Interps V H × Got) :=
  match w.interp i with
  | none => none
  | some p => match f (w.view p) with
    | none => none
    | some (s, g) => some (w.back i s, g)

/-- A script sets a variable it calls `spelled`: the write traces look the hook up under that name
(`name1`; `ScriptInterpTCL.h` 240, 252). -/
def writeVarAs (tclName name1 : Bytes → Bytes) (parse : Bytes → Option V) (s : LinkSt V H) (spelled x : Bytes) : Option (LinkSt V H × Got) :=
  let n := tclName spelled
  match writeTraces parse (name1 spelled) x (tracesOf s n) { s with vars := put s.vars n (some ⟨x, tracesOf s n⟩) } with
  | none => none
  | some (s, err) => some (s, if err then .refused else .done)

/-- `setupTraces` (`ScriptInterpTCL.cpp` 98-105): the variable is the one `n` means, the hook is entered under `n` as it is. -/
def setupTracesAs (tclName name1 : Bytes → Bytes) (parse : Bytes → Option V) (s : LinkSt V H) (n : Bytes) (k : Kind) (hook : Option H) : Option (LinkSt V H) :=
  match writeVarAs tclName name1 parse s n [] with
  | none => none
  | some (s, _) =>
    let s := { s with vars := put s.vars (tclName n) (some ⟨[], ⟨false, k⟩ :: ⟨true, k⟩ :: tracesOf s (tclName n)⟩) }
    match hook with
    | none => some s
    | some h => some { s with hooks := put s.hooks n (some h) }

/-- The four `linkVar`s (`ScriptInterpTCL.h` 323-372); the `trace_ptr_data` is kept under the name as it is. -/
def linkVarAs (tclName name1 : Bytes → Bytes) (parse : Bytes → Option V) (s : LinkSt V H) (n : Bytes) (t : Target) (hook : Option H) : Option (LinkSt V H) :=
  match t with
  | .var a => setupTracesAs tclName name1 parse s n (.var a) hook
  | .const a => setupTracesAs tclName name1 parse s n (.const a) hook
  | .text b => setupTracesAs tclName name1 parse s n (.text b) hook
  | .buf b size =>
    let d := s.data.length
    match setupTracesAs tclName name1 parse { s with data := s.data ++ [some (b, size)] } n (.buf d) hook with
    | none => none
    | some s => some { s with data := freeData s n, ptrs := put s.ptrs n (some d) }

/-- `unlinkVar` (`ScriptInterpTCL.h` 378-382): the variable `n` means is unset, hook and `trace_ptr_data` go by `n` as it is. -/
def unlinkVarAs (tclName : Bytes → Bytes) (s : LinkSt V H) (n : Bytes) : LinkSt V H :=
  { s with vars := put s.vars (tclName n) none, hooks := put s.hooks n none, data := freeData s n, ptrs := put s.ptrs n none }

/-- A script unsets a variable: it and its traces are gone; no trace is told (there is no unset trace,
`ScriptInterpTCL.cpp` 98-105). -/
def unsetVar (s : LinkSt V H) (n : Bytes) : LinkSt V H := { s with vars := put s.vars n none }

/-- `~ScriptInterpTCL` (`ScriptInterpTCL.h` 291-296): all hooks are forgotten, then the interpreter's own data
and the interpreter. -/
def destroyInterps (w : Interps V H) (i : Nat) : Option (Interps V H × Got) :=
  match w.interp i with
  | none => none
  | some _ => some ({ w with interp := put w.interp i none, hooks := fun _ => none }, .nothing)

/-- One operation; names are given in some spelling. -/
def runWorld (tclName name1 : Bytes → Bytes) (toTcl : V → Option Bytes) (parse : Bytes → Option V) (w : Interps V H) :
    WorldOp V H → Option (Interps V H × Got)
  | .on (.link (i, n) t h) => w.at i fun s => (linkVarAs tclName name1 parse s n t h).map (·, .nothing)
  | .on (.unlink (i, n)) => w.at i fun s => some (unlinkVarAs tclName s n, .nothing)
  | .on (.read (i, n)) => w.at i fun s => readVar toTcl s (tclName n)
  | .on (.write (i, n) x) => w.at i fun s => writeVarAs tclName name1 parse s n x
  | .on (.set a v) => some ({ w with vals := put w.vals a v }, .nothing)
  | .on (.fill b x) => some ({ w with bufs := put w.bufs b x }, .nothing)
  | .unset i n => w.at i fun s => some (unsetVar s (tclName n), .nothing)
  | .create i => some ({ w with interp := put w.interp i (some TclInterp.new) }, .nothing)
  | .destroy i => destroyInterps w i

def runWorlds (tclName name1 : Bytes → Bytes) (toTcl : V → Option Bytes) (parse : Bytes → Option V) (w : Interps V H) :
    List (WorldOp V H) → Option (Interps V H × List Got)
  | [] => some (w, [])
  | op :: ops => match runWorld tclName name1 toTcl parse w op with
    | none => none
    | some (w, o) => match runWorlds tclName name1 toTcl parse w ops with
      | none => none
      | some (w, os) => some (w, o :: os)

end Bdlib.Tcl
