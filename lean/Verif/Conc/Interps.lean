import Verif.Machine.Basic

/-!
# Interpreters in different threads

Tcl wants an interpreter to be used by the thread that made it, and a program may have one `ScriptInterpTCL` per thread.  But the commands
of all interpreters are in one static table, and so are the hooks of all linked variables (`ScriptInterpTCL.h` 142-143, 285;
`ScriptInterpTCL.cpp` 13-14), and nothing protects them.  Here every thread has an interpreter of its own and makes a sequence of calls; a
step of a thread is one access to a table, with the private computation around it.  Memory is sequentially consistent; where two accesses
are a data race, on which C++ gives no guarantee, `Races` says so.

Not here: the static counter of `cleanse()` (`Conc/Wipe.lean`), accesses within a table (the lookups of `Conc/Table.lean`), and what the
interpreters, commands and hooks do.
-/

namespace Bdlib.Interps
open Bdlib

/-- The static tables. -/
inductive Tab
  /-- `CmdHandlerData` -/
  | cmds
  /-- `link_var_hooks` -/
  | hooks
  deriving DecidableEq

/-- What a thread does with its interpreter; for `call` and `set` by running a script. -/
inductive Op
  /-- `createCommand(n, f)`, of function `f` -/
  | create (n f : Nat)
  /-- `deleteCommand(n)` -/
  | delete (n : Nat)
  /-- a script calls the command `n` -/
  | call (n : Nat)
  /-- `linkVar(n, v, h)`, with the hook `h` or without -/
  | link (n : Nat) (h : Option Nat)
  /-- `unlinkVar(n)` -/
  | unlink (n : Nat)
  /-- a script sets the linked variable `n` -/
  | set (n : Nat)
  /-- a script reads the linked variable `n` -/
  | get (n : Nat)
  /-- `~ScriptInterpTCL()` -/
  | destroy
  deriving DecidableEq

/-- Where a thread is: the access it makes next. -/
inductive Pc
  /-- between calls -/
  | idle
  /-- `CmdHandlerData[cmdName] = ccd` (`ScriptInterpTCL.h` 186) -/
  | cmdPut (n f : Nat)
  /-- `CmdHandlerData.erase(cmdName)` looks for the entry (`ScriptInterpTCL.h` 313) -/
  | cmdSeek (n : Nat)
  /-- … and takes it out -/
  | cmdErase (n : Nat)
  /-- `CmdHandlerData[cmdName]` looks for the entry (`ScriptInterpTCL.cpp` 69) -/
  | cmdFind (n : Nat)
  /-- … and adds a null pointer if there is none; then `ccd->callbackParamMin` (`ScriptInterpTCL.cpp` 71) is undefined -/
  | cmdNull (n : Nat)
  /-- `link_var_hooks[varName] = hook_func` (`ScriptInterpTCL.cpp` 104) -/
  | hookPut (n h : Nat)
  /-- `link_var_hooks.erase(varName)` looks for the entry (`ScriptInterpTCL.h` 380) -/
  | hookSeek (n : Nat)
  /-- … and takes it out -/
  | hookErase (n : Nat)
  /-- `link_var_hooks.find(name1)` (`ScriptInterpTCL.h` 240, 254) -/
  | hookFind (n : Nat)
  /-- `link_var_hook->second(…)` (`ScriptInterpTCL.h` 242, 270), of the entry with hook `h` that was found -/
  | hookUse (n h : Nat)
  /-- `CmdHandlerData.clear()` (`ScriptInterpTCL.h` 292) -/
  | cmdClear
  /-- `link_var_hooks.clear()` (`ScriptInterpTCL.h` 293) -/
  | hookClear
  deriving DecidableEq

/-- The table that is accessed next, and whether it is changed. -/
def Pc.access : Pc → Option (Tab × Bool)
  | .idle => none
  | .cmdPut _ _ => some (.cmds, true)
  | .cmdSeek _ => some (.cmds, false)
  | .cmdErase _ => some (.cmds, true)
  | .cmdFind _ => some (.cmds, false)
  | .cmdNull _ => some (.cmds, true)
  | .hookPut _ _ => some (.hooks, true)
  | .hookSeek _ => some (.hooks, false)
  | .hookErase _ => some (.hooks, true)
  | .hookFind _ => some (.hooks, false)
  | .hookUse _ _ => some (.hooks, false)
  | .cmdClear => some (.cmds, true)
  | .hookClear => some (.hooks, true)

/-- The first access of a call. -/
def Op.start : Op → Pc
  | .create n f => .cmdPut n f
  | .delete n => .cmdSeek n
  | .call n => .cmdFind n
  | .link n (some h) => .hookPut n h
  | .link _ none => .idle
  | .unlink n => .hookSeek n
  | .set n => .hookFind n
  | .get _ => .idle
  | .destroy => .cmdClear

structure Thr where
  pc : Pc := .idle
  todo : List Op

/-- What happened: thread `t` ran the function of a command, or the hook of a variable. -/
inductive Ran
  | cmd (t n f : Nat)
  | hook (t n h : Nat)
  /-- no hook was found -/
  | noHook (t n : Nat)
  deriving DecidableEq

structure Sys where
  /-- names to functions; `some none` is a null pointer -/
  cmds : Nat → Option (Option Nat)
  hooks : Nat → Option Nat
  thr : Nat → Thr
  log : List Ran := []
  /-- something undefined has happened: a null pointer was followed, or an entry used after its removal -/
  bad : Bool := false

def upd {α : Type} (f : Nat → α) (a : Nat) (b : α) : Nat → α := fun x => if x = a then b else f x

def Sys.goto (s : Sys) (t : Nat) (pc : Pc) : Sys := { s with thr := upd s.thr t { s.thr t with pc := pc } }

/-- One step of thread `t`: it begins its next call, or makes the access it is about to make.  `ScriptInterpTCL.h` and
`ScriptInterpTCL.cpp` as cited at `Pc`. -/
def step (s : Sys) (t : Nat) : Sys :=
  match (s.thr t).pc with
  | .idle =>
    match (s.thr t).todo with
    | [] => s
    | op :: rest => { s with thr := upd s.thr t ⟨op.start, rest⟩ }
  | .cmdPut n f => { s.goto t .idle with cmds := upd s.cmds n (some (some f)) }
  | .cmdSeek n => s.goto t (if s.cmds n = none then .idle else .cmdErase n)
  | .cmdErase n => { s.goto t .idle with cmds := upd s.cmds n none }
  | .cmdFind n =>
    match s.cmds n with
    | some (some f) => { s.goto t .idle with log := s.log ++ [.cmd t n f] }
    | some none => { s.goto t .idle with bad := true }
    | none => s.goto t (.cmdNull n)
  | .cmdNull n => { s.goto t .idle with cmds := upd s.cmds n (some none), bad := true }
  | .hookPut n h => { s.goto t .idle with hooks := upd s.hooks n (some h) }
  | .hookSeek n => s.goto t (if s.hooks n = none then .idle else .hookErase n)
  | .hookErase n => { s.goto t .idle with hooks := upd s.hooks n none }
  | .hookFind n =>
    match s.hooks n with
    | some h => s.goto t (.hookUse n h)
    | none => { s.goto t .idle with log := s.log ++ [.noHook t n] }
  | .hookUse n h =>
    if s.hooks n = some h then { s.goto t .idle with log := s.log ++ [.hook t n h] }
    else { s.goto t .idle with bad := true }
  | .cmdClear => { s.goto t .hookClear with cmds := fun _ => none }
  | .hookClear => { s.goto t .idle with hooks := fun _ => none }

/-- An execution: the threads in the order in which they take steps. -/
def run (s : Sys) (sched : List Nat) : Sys := sched.foldl step s

/-- Two threads are about to access one table, and one of them changes it: nothing orders them. -/
def Races (s : Sys) : Prop :=
  ∃ t t', t ≠ t' ∧ ∃ tab w w', (s.thr t).pc.access = some (tab, w) ∧ (s.thr t').pc.access = some (tab, w') ∧ (w = true ∨ w' = true)

/-- Threads that have not begun; what is registered was registered before they were started. -/
def start (cmds : Nat → Option (Option Nat)) (hooks : Nat → Option Nat) (jobs : Nat → List Op) : Sys :=
  { cmds := cmds, hooks := hooks, thr := fun t => { todo := jobs t } }

end Bdlib.Interps
