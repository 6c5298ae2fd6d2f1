import Verif.Spec.Registry

/-!
# Specification: commands kept in one table

What the library does with commands in all programs: the functions are in one table for all interpreters, by the name given to `createCommand`.
`table` has the function and which `createCommand` (the first is 0) gave it, `running` those being executed, innermost first.
-/

namespace Bdlib.Spec

/-- Everything that is done with commands. -/
inductive AnyCmdOp (N F : Type)
  | world (op : CmdWorldOp N F)
  /-- a script of the interpreter renames a command -/
  | rename (i : Nat) (a b : N)

structure SharedCmds (N F : Type) where
  table : N → Option (Nat × F)
  running : List Nat
  made : Nat

def SharedCmds.empty {N F : Type} : SharedCmds N F := ⟨fun _ => none, [], 0⟩

variable {N F : Type} [DecidableEq N]

/-- One operation, with the function that began, if any: only the function in the table under the name as typed can begin. -/
inductive SharedCmds.Step : SharedCmds N F → AnyCmdOp N F → Option F → SharedCmds N F → Prop
  | create (s : SharedCmds N F) (i : Nat) (n : N) (f : F) :
      Step s (.world (.on (.create i n f))) none { s with table := fun m => if m = n then some (s.made, f) else s.table m, made := s.made + 1 }
  | delete (s : SharedCmds N F) (i : Nat) (n : N) :
      Step s (.world (.on (.delete i n))) none { s with table := fun m => if m = n then none else s.table m }
  | unknown (s : SharedCmds N F) (i : Nat) (n : N) : Step s (.world (.on (.enter i n))) none s
  | enter (s : SharedCmds N F) (i : Nat) (n : N) {id : Nat} {f : F} (h : s.table n = some (id, f)) :
      Step s (.world (.on (.enter i n))) (some f) { s with running := id :: s.running }
  | leave (s : SharedCmds N F) {id : Nat} {r : List Nat} (h : s.running = id :: r) : Step s (.world (.on .leave)) none { s with running := r }
  | drop (s : SharedCmds N F) (i : Nat) (n : N) : Step s (.world (.drop i n)) none s
  | make (s : SharedCmds N F) (i : Nat) : Step s (.world (.make i)) none s
  | destroy (s : SharedCmds N F) (i : Nat) : Step s (.world (.destroy i)) none { s with table := fun _ => none }
  | rename (s : SharedCmds N F) (i : Nat) (a b : N) : Step s (.rename i a b) none s

/-- A history, with what began at each operation. -/
inductive SharedCmds.Steps : SharedCmds N F → List (AnyCmdOp N F) → List (Option F) → SharedCmds N F → Prop
  | nil (s : SharedCmds N F) : Steps s [] [] s
  | cons {s t u : SharedCmds N F} {op : AnyCmdOp N F} {o : Option F} {ops : List (AnyCmdOp N F)} {os : List (Option F)} (h : Step s op o t)
      (hs : Steps t ops os u) : Steps s (op :: ops) (o :: os) u

/-- The function given to the `id`-th `createCommand` is still needed. -/
def SharedCmds.Needed (s : SharedCmds N F) (id : Nat) : Prop := (∃ n f, s.table n = some (id, f)) ∨ id ∈ s.running

end Bdlib.Spec
