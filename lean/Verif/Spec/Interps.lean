import Verif.Spec.Links

/-!
# Specification: linked variables of several interpreters

A variable is an interpreter and a name.  What is linked in one interpreter does not matter to the others.
-/

namespace Bdlib.Spec

/-- What can happen, in terms of variables. -/
inductive WorldOp (V H : Type)
  /-- linking, unlinking, reading and writing variables, changes by the program -/
  | on (op : LinkOp (Nat × List UInt8) V H)
  /-- a script unsets a variable -/
  | unset (i : Nat) (n : List UInt8)
  /-- a new interpreter -/
  | create (i : Nat)
  /-- the end of an interpreter -/
  | destroy (i : Nat)

variable {V H : Type}

/-- Scripts and the program may spell the name of a variable in several ways; `tclName` gives the name of the variable meant. -/
def WorldOp.meant (tclName : List UInt8 → List UInt8) : WorldOp V H → WorldOp V H
  | .on (.link (i, n) t h) => .on (.link (i, tclName n) t h)
  | .on (.unlink (i, n)) => .on (.unlink (i, tclName n))
  | .on (.read (i, n)) => .on (.read (i, tclName n))
  | .on (.write (i, n) x) => .on (.write (i, tclName n) x)
  | .unset i n => .unset i (tclName n)
  | op => op

/-- The effect: a script that unsets a variable ends its link; with an interpreter go its variables and links,
and nothing else. -/
def Links.worldStep (toTcl : V → Option (List UInt8)) (parse : List UInt8 → Option V) (s : Links (Nat × List UInt8) V H) :
    WorldOp V H → Links (Nat × List UInt8) V H × Got
  | .on op => s.step toTcl parse op
  | .unset i n => ({ s with link := put s.link (i, n) none, plain := put s.plain (i, n) none }, .nothing)
  | .create _ => (s, .nothing)
  | .destroy i => ({ s with link := fun x => if x.1 = i then none else s.link x, plain := fun x => if x.1 = i then none else s.plain x }, .nothing)

def Links.worldSteps (tclName : List UInt8 → List UInt8) (toTcl : V → Option (List UInt8)) (parse : List UInt8 → Option V) (s : Links (Nat × List UInt8) V H) :
    List (WorldOp V H) → Links (Nat × List UInt8) V H × List Got
  | [] => (s, [])
  | op :: ops =>
    let (s', o) := s.worldStep toTcl parse (op.meant tclName)
    let (s'', os) := s'.worldSteps tclName toTcl parse ops
    (s'', o :: os)

end Bdlib.Spec
