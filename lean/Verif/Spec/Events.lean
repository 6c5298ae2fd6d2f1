import Verif.Spec.Registry
import Verif.Spec.TclWords

/-!
# Specification: callbacks that scripts hand over

A script calls a command of the program with the text of a command of its own.  The program keeps it, under a name
of its choice, and calls it later with parameters: the interpreter of that script then executes the words of the
text, then the parameters, one word each and as they are.
-/

namespace Bdlib.Spec

/-- What a program does: with commands (also scripts calling them), and with callbacks (`A` are the values of the
interpreters). -/
inductive EventOp (E F A : Type)
  | world (op : CmdWorldOp (List UInt8) F)
  /-- the command being executed is given `a` as a callback and keeps it as `e` -/
  | bind (e : E) (a : A)
  /-- the callback `e` is forgotten -/
  | unbind (e : E)
  /-- the callback `e` is called -/
  | fire (e : E) (params : List (List UInt8))

/-- What can be seen of it: a function of the program begins, or an interpreter begins to execute a command (`none`
if it is not one). -/
inductive Sight (F : Type)
  | nothing
  | begins (f : F)
  | executes (i : Nat) (command : Option (List (List Tok)))

/-- Commands, the interpreters of the commands being executed (innermost first), and the callbacks: whose, and the
text. -/
structure Events (E F : Type) where
  cmds : Cmds (List UInt8) F
  inside : List Nat
  bound : E → Option (Nat × List UInt8)

def Events.empty {E F : Type} : Events E F := ⟨.empty, [], fun _ => none⟩

variable {E F A : Type} [DecidableEq E]

def Sight.ofBegin : Option F → Sight F
  | none => .nothing
  | some f => .begins f

/-- The interpreters of running commands after an operation. -/
def Events.insideAfter (s : Events E F) : CmdWorldOp (List UInt8) F → List Nat
  | .on (.enter i n) => match s.cmds.cmd i n with
    | none => s.inside
    | some _ => i :: s.inside
  | .on .leave => s.inside.tail
  | _ => s.inside

/-- `text` is the text of a value. -/
def Events.step (tclName : List UInt8 → List UInt8) (text : A → List UInt8) (s : Events E F) : EventOp E F A → Events E F × Sight F
  | .world op =>
    ({ s with cmds := (s.cmds.worldStep (op.meant tclName)).1, inside := s.insideAfter (op.meant tclName) },
      .ofBegin (s.cmds.worldStep (op.meant tclName)).2)
  | .bind e a => match s.inside with
    | [] => (s, .nothing)
    | i :: _ => ({ s with bound := fun e' => if e' = e then some (i, text a) else s.bound e' }, .nothing)
  | .unbind e => ({ s with bound := fun e' => if e' = e then none else s.bound e' }, .nothing)
  | .fire e params => match s.bound e with
    | none => (s, .nothing)
    | some (i, command) => (s, .executes i ((words command).map (· ++ params.map literal)))

def Events.steps (tclName : List UInt8 → List UInt8) (text : A → List UInt8) (s : Events E F) : List (EventOp E F A) → Events E F × List (Sight F)
  | [] => (s, [])
  | op :: ops =>
    let (s', o) := s.step tclName text op
    let (s'', os) := s'.steps tclName text ops
    (s'', o :: os)

end Bdlib.Spec
