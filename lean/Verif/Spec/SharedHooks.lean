import Verif.Spec.Interps

/-!
# Specification: what hooks of linked variables do when there are several interpreters

There is one table of hooks, by name, for all interpreters.  Giving a hook to `linkVar` enters it, `unlinkVar` removes what is there under
the name, the end of any interpreter empties the table; nothing else changes it.  A script that changes a linked variable
calls what the table has under the name as the script spells it, without the index if it is an element of an array (`name1`).
-/

namespace Bdlib.Spec

variable {V H : Type}

/-- The table after an operation. -/
def tableStep (table : List UInt8 → Option H) : WorldOp V H → List UInt8 → Option H
  | .on (.link (_, n) _ (some h)) => put table n (some h)
  | .on (.unlink (_, n)) => put table n none
  | .destroy _ => fun _ => none
  | _ => table

/-- The hooks an operation calls. -/
def callsOf (tclName name1 : List UInt8 → List UInt8) (parse : List UInt8 → Option V) (s : Links (Nat × List UInt8) V H) (table : List UInt8 → Option H) :
    WorldOp V H → List (H × Seen V × Seen V)
  | .on (.write (i, n) x) => match s.link (i, tclName n) with
    | some (.var a, _) => match parse x with
      | none => []
      | some v => called (table (name1 n)) (.val (s.vals a)) (.val v)
    | some (.buf b size, _) => called (table (name1 n)) (.bytes ((s.bufs b).take size)) (.bytes (stored size (s.bufs b) x))
    | _ => []
  | _ => []

/-- All calls of hooks in a history. -/
def sharedCalls (tclName name1 : List UInt8 → List UInt8) (toTcl : V → Option (List UInt8)) (parse : List UInt8 → Option V) (s : Links (Nat × List UInt8) V H)
    (table : List UInt8 → Option H) : List (WorldOp V H) → List (H × Seen V × Seen V)
  | [] => []
  | op :: ops => callsOf tclName name1 parse s table op ++
      sharedCalls tclName name1 toTcl parse (s.worldStep toTcl parse (op.meant tclName)).1 (tableStep table op) ops

/-- The names given for buffers and not taken back, with their interpreter; all of an interpreter's go with it. -/
def heldStep (held : Nat × List UInt8 → Prop) : WorldOp V H → Nat × List UInt8 → Prop
  | .on (.link x (.buf _ _) _) => fun y => y = x ∨ held y
  | .on (.unlink x) => fun y => y ≠ x ∧ held y
  | .destroy i => fun y => y.1 ≠ i ∧ held y
  | .create i => fun y => y.1 ≠ i ∧ held y
  | _ => held

end Bdlib.Spec
