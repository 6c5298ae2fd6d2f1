/-!
# Specification: commands of interpreters

Every interpreter has its own commands.  `running` are the commands being executed, innermost first.
-/

namespace Bdlib.Spec

/-- What a program (or a script it runs) does with commands; interpreters are numbered. -/
inductive CmdOp (N F : Type)
  /-- `interp.createCommand(name, fn)` -/
  | create (i : Nat) (name : N) (fn : F)
  /-- `interp.deleteCommand(name)` -/
  | delete (i : Nat) (name : N)
  /-- a script of the interpreter calls a command, and its function begins -/
  | enter (i : Nat) (name : N)
  /-- the innermost function ends -/
  | leave

structure Cmds (N F : Type) where
  cmd : Nat → N → Option F
  running : List N

/-- No commands. -/
def Cmds.empty {N F : Type} : Cmds N F := ⟨fun _ _ => none, []⟩

variable {N F : Type} [DecidableEq N]

/-- The commands after an operation, and the function that begins, if any. -/
def Cmds.step (s : Cmds N F) : CmdOp N F → Cmds N F × Option F
  | .create i n f => ({ s with cmd := fun j m => if j = i ∧ m = n then some f else s.cmd j m }, none)
  | .delete i n => ({ s with cmd := fun j m => if j = i ∧ m = n then none else s.cmd j m }, none)
  | .enter i n => match s.cmd i n with
    | none => (s, none)
    | some f => ({ s with running := n :: s.running }, some f)
  | .leave => ({ s with running := s.running.tail }, none)

def Cmds.steps (s : Cmds N F) : List (CmdOp N F) → Cmds N F × List (Option F)
  | [] => (s, [])
  | op :: ops =>
    let (s', o) := s.step op
    let (s'', os) := s'.steps ops
    (s'', o :: os)

/-- With interpreters that come and go. -/
inductive CmdWorldOp (N F : Type)
  | on (op : CmdOp N F)
  /-- a script of the interpreter removes a command (`rename name ""`) -/
  | drop (i : Nat) (name : N)
  /-- a new interpreter -/
  | make (i : Nat)
  /-- the end of an interpreter -/
  | destroy (i : Nat)

/-- With an interpreter go its commands and no others. -/
def Cmds.worldStep (s : Cmds N F) : CmdWorldOp N F → Cmds N F × Option F
  | .on op => s.step op
  | .drop i n => ({ s with cmd := fun j m => if j = i ∧ m = n then none else s.cmd j m }, none)
  | .make _ => (s, none)
  | .destroy i => ({ s with cmd := fun j m => if j = i then none else s.cmd j m }, none)

/-- Scripts may spell a name in several ways; `tclName` gives the name meant. -/
def CmdWorldOp.meant (tclName : N → N) : CmdWorldOp N F → CmdWorldOp N F
  | .on (.enter i n) => .on (.enter i (tclName n))
  | .drop i n => .drop i (tclName n)
  | op => op

def Cmds.worldSteps (tclName : N → N) (s : Cmds N F) : List (CmdWorldOp N F) → Cmds N F × List (Option F)
  | [] => (s, [])
  | op :: ops =>
    let (s', o) := s.worldStep (op.meant tclName)
    let (s'', os) := s'.worldSteps tclName ops
    (s'', o :: os)

end Bdlib.Spec
