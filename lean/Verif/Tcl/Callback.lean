import Verif.Tcl.Eval
import Verif.Tcl.Registry
import Verif.Spec.Events

/-!
# Model of callbacks handed over by scripts

The program of the test (`tests/ScriptInterpTCLTest.cpp` 447-452): a command with a parameter of type
`ScriptCallbackerPtr`, whose function keeps it in a map.
-/

namespace Bdlib.Tcl
open Bdlib Bdlib.Str

/-- `ScriptCallbackerTCL` (`ScriptInterp.h` 44-56, `ScriptInterpTCL.h` 120-133): a plain pointer to the interpreter
object and a copy of the text.  The objects are immutable and held by `shared_ptr`, so they are modelled as values. -/
structure Callbacker where
  si : Nat
  cmd : Bytes

/-- `tcl_to_c_cast<ScriptCallbackerPtr>::from` (`ScriptInterpTCL.cpp` 302-314). -/
def toCallbacker (C : Library) (si : Nat) (o : Obj) : Callbacker := ⟨si, C.text o⟩

/-- The registry, and the callbacks the program keeps. -/
structure Cbs (E F : Type) where
  reg : Reg F
  bound : E → Option Callbacker

def Cbs.init {E F : Type} : Cbs E F := ⟨.init [], fun _ => none⟩

variable {E F : Type} [DecidableEq E]

/-- The command being executed converts its argument and keeps it: `si` is that of the `ScriptCmd`
(`ScriptInterpTCL.cpp` 84-85, `ScriptInterpTCLCallbacks.h` 46-54), not of the interpreter that called. -/
def bindCb (C : Library) (s : Cbs E F) (e : E) (o : Obj) : Option (Cbs E F) :=
  match s.reg.frames with
  | [] => none
  | id :: _ => match s.reg.cmds[id]? with
    | none => none
    | some c => some { s with bound := fun e' => if e' = e then some (toCallbacker C c.si o) else s.bound e' }

/-- `ScriptCallbackerTCL::call` (`ScriptInterpTCL.h` 128-131) up to the evaluation: the interpreter and the script.
Undefined if the interpreter object is gone. -/
def Callbacker.script (live : List Nat) (cb : Callbacker) (params : List Bytes) : Eff (Nat × Bytes) := do
  let script ← callScript cb.cmd params
  if cb.si ∈ live then return (cb.si, script) else .ub

/-- `ScriptCallbackerTCL::call` (`ScriptInterpTCL.h` 128-131) with the evaluation; `st` are the states of the
interpreters that exist. -/
def Callbacker.call {S : Type} (I : Interp S) (fuel : Nat) (st : Nat → Option S) (cb : Callbacker) (params : List Bytes) :
    Eff ((Nat → Option S) × Bytes) := do
  let script ← callScript cb.cmd params
  match st cb.si with
  | none => .ub
  | some s =>
    let (s', r) ← eval I fuel s script
    return (fun j => if j = cb.si then some s' else st j, r)

/-- What happens when a callback is called. -/
inductive Happens (F : Type)
  | nothing
  | begins (f : F)
  | evaluates (i : Nat) (script : Bytes)
  deriving DecidableEq

end Bdlib.Tcl
