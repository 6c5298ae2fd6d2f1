import Verif.Tcl.Links
import Verif.Spec.Hooks

/-!
# Model of linked variables whose hooks use the interpreter

`Tcl/Links.lean` once more, where hooks run: `stack` are the variables whose traces are running, the innermost first,
with whether the rest of their traces is dropped, as it is when a variable is unset (`Tcl_TraceVar(3)`).  No
trace of a variable runs while one runs, also if it was unset and made again in between.  Hooks are
pointers to functions (`ScriptInterp.h` 107), so removing one while it runs does not matter.  Hooks that throw are in
`Tcl/Faults.lean`.
-/

namespace Bdlib.Tcl
open Bdlib Bdlib.Str Bdlib.Spec

variable {V H : Type}

/-- The state, and the running traces. -/
structure RSt (V H : Type) where
  st : LinkSt V H
  stack : List (Bytes × Bool)

def RSt.init (vals : Nat → V) (bufs : Nat → Bytes) : RSt V H := ⟨.init vals bufs, []⟩

/-- How hooks run. -/
abbrev Runner (V H : Type) := H → Seen V → Seen V → RSt V H → Finish (RSt V H) Unit

def busy (s : RSt V H) (n : Bytes) : Bool := s.stack.any (·.1 = n)

/-- A script reads a variable. -/
def readVarR (toTcl : V → Option Bytes) (s : RSt V H) (n : Bytes) : Finish (RSt V H) Got :=
  if busy s n then match s.st.vars n with
    | none => .ret s .unknown
    | some v => .ret s (.value v.value)
  else match readVar toTcl s.st n with
    | none => .wrong
    | some (st, g) => .ret { s with st := st } g

/-- Calling a hook (`ScriptInterpTCL.h` 241-243, 269-271). -/
def callHookR (run : Runner V H) (s : RSt V H) (hook : Option H) (old new : Seen V) : Finish (RSt V H) Unit := match hook with
  | none => .ret s ()
  | some h => run h old new { s with st := { s.st with log := s.st.log ++ [(h, old, new)] } }

/-- A write trace: `tcl_traceSet`, `tcl_traceSetPtr` (`ScriptInterpTCL.h` 229-273) and `TraceSetRO`
(`ScriptInterpTCL.cpp` 107-111); the hook is looked up after the value is stored (240), for a buffer before (254).
After the hook only the copy of the old value is destroyed.  The result: is it an error. -/
def writeTraceR (parse : Bytes → Option V) (run : Runner V H) (s : RSt V H) (n x : Bytes) : Kind → Finish (RSt V H) Bool
  | .var a => match parse x with
    | none => .wrong
    | some v =>
      let s' := { s with st := { s.st with vals := put s.st.vals a v } }
      match callHookR run s' (s'.st.hooks n) (.val (s.st.vals a)) (.val v) with
      | .ret s _ => .ret s false
      | .cut s => .cut s
      | .wrong => .wrong
  | .buf d =>
    let hook := s.st.hooks n
    match s.st.data[d]? with
    | some (some (b, size)) => match storeBuf size (s.st.bufs b) x with
      | none => .wrong
      | some y =>
        match callHookR run { s with st := { s.st with bufs := put s.st.bufs b y } } hook (.bytes ((s.st.bufs b).take size)) (.bytes y) with
        | .ret s _ => .ret s false
        | .cut s => .cut s
        | .wrong => .wrong
    | _ => .wrong
  | .const _ | .text _ => .ret s true

/-- The write traces one after the other, until the rest is dropped. -/
def writeTracesR (parse : Bytes → Option V) (run : Runner V H) (n x : Bytes) : List Trace → RSt V H → Finish (RSt V H) Bool
  | [], s => .ret s false
  | t :: ts, s => if t.reads then writeTracesR parse run n x ts s else match writeTraceR parse run s n x t.kind with
    | .wrong => .wrong
    | .cut s => .cut s
    | .ret s true => .ret s true
    | .ret s false => match s.stack with
      | (_, true) :: _ => .ret s false
      | _ => writeTracesR parse run n x ts s

/-- Setting a variable (by a script, or `Tcl_SetVar`): without traces, if one of its traces is running. -/
def writeVarR (parse : Bytes → Option V) (run : Runner V H) (s : RSt V H) (n x : Bytes) : Finish (RSt V H) Got :=
  let s' := { s with st := { s.st with vars := put s.st.vars n (some ⟨x, tracesOf s.st n⟩) } }
  if busy s n ∨ tracesOf s.st n = [] then .ret s' .done
  else match writeTracesR parse run n x (tracesOf s.st n) { s' with stack := (n, false) :: s.stack } with
    | .wrong => .wrong
    | .cut s => .cut s
    | .ret s err => .ret { s with stack := s.stack.tail } (if err then .refused else .done)

/-- `setupTraces` (`ScriptInterpTCL.cpp` 98-105). -/
def setupTracesR (parse : Bytes → Option V) (run : Runner V H) (s : RSt V H) (n : Bytes) (k : Kind) (hook : Option H) : Finish (RSt V H) Unit :=
  match writeVarR parse run s n [] with
  | .wrong => .wrong
  | .cut s => .cut s
  | .ret s _ =>
    let s := { s with st := { s.st with vars := put s.st.vars n (some ⟨[], ⟨false, k⟩ :: ⟨true, k⟩ :: tracesOf s.st n⟩) } }
    match hook with
    | none => .ret s ()
    | some h => .ret { s with st := { s.st with hooks := put s.st.hooks n (some h) } } ()

/-- The four `linkVar`s (`ScriptInterpTCL.h` 323-372). -/
def linkVarR (parse : Bytes → Option V) (run : Runner V H) (s : RSt V H) (n : Bytes) (t : Target) (hook : Option H) : Finish (RSt V H) Unit :=
  match t with
  | .var a => setupTracesR parse run s n (.var a) hook
  | .const a => setupTracesR parse run s n (.const a) hook
  | .text b => setupTracesR parse run s n (.text b) hook
  | .buf b size =>
    let d := s.st.data.length
    match setupTracesR parse run { s with st := { s.st with data := s.st.data ++ [some (b, size)] } } n (.buf d) hook with
    | .wrong => .wrong
    | .cut s => .cut s
    | .ret s _ => .ret { s with st := { s.st with data := freeData s.st n, ptrs := put s.st.ptrs n (some d) } } ()

/-- `unlinkVar` (`ScriptInterpTCL.h` 378-382): the traces of the variable that have not yet run are dropped. -/
def unlinkVarR (s : RSt V H) (n : Bytes) : RSt V H :=
  { st := unlinkVar s.st n, stack := s.stack.map fun e => if e.1 = n then (e.1, true) else e }

/-- One call. -/
def runLinkR (toTcl : V → Option Bytes) (parse : Bytes → Option V) (run : Runner V H) (s : RSt V H) : LinkOp Bytes V H → Finish (RSt V H) Got
  | .link n t h => match linkVarR parse run s n t h with
    | .wrong => .wrong
    | .cut s => .cut s
    | .ret s _ => .ret s .nothing
  | .unlink n => .ret (unlinkVarR s n) .nothing
  | .read n => readVarR toTcl s n
  | .write n x => writeVarR parse run s n x
  | .set a v => .ret { s with st := { s.st with vals := put s.st.vals a v } } .nothing
  | .fill b x => .ret { s with st := { s.st with bufs := put s.st.bufs b x } } .nothing

/-- A program, or what a hook does. -/
def runProgR (toTcl : V → Option Bytes) (parse : Bytes → Option V) (run : Runner V H) : HookProg Bytes V H → RSt V H → Finish (RSt V H) Unit
  | .done, s => .ret s ()
  | .call op next, s => match runLinkR toTcl parse run s op with
    | .ret s g => runProgR toTcl parse run (next g s.st.vals s.st.bufs) s
    | .cut s => .cut s
    | .wrong => .wrong

/-- Hooks nested at most `depth` deep. -/
def runHookR (toTcl : V → Option Bytes) (parse : Bytes → Option V) (body : H → Seen V → Seen V → (Nat → V) → (Nat → Bytes) → HookProg Bytes V H) : (depth : Nat) → Runner V H
  | 0, _, _, _, s => .cut s
  | depth + 1, h, old, new, s => runProgR toTcl parse (runHookR toTcl parse body depth) (body h old new s.st.vals s.st.bufs) s

end Bdlib.Tcl
