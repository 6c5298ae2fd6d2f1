import Verif.Str.Model

/-!
# Model of the command registry

`CmdHandlerData` is one map for all interpreters (it is static), from the name to a `shared_ptr<ScriptCmd>`.
The interpreters have their own tables of commands, all with the same C function.
-/

namespace Bdlib.Tcl
open Bdlib Bdlib.Str

variable {F : Type}

/-- `ScriptCmd` (`ScriptInterp.h` 72-101), with the reference count of its `shared_ptr`s. -/
structure ScriptCmd (F : Type) where
  si : Nat
  name : Bytes
  fn : F
  registered : Bool
  refs : Nat

/-- The state: all `ScriptCmd`s made so far (also those destroyed, which have no references), the map (a null
pointer is `none`), the commands of the interpreters, the pointers held by running calls (innermost first), and
the interpreters that exist. -/
structure Reg (F : Type) where
  cmds : List (ScriptCmd F)
  map : List (Bytes × Option Nat)
  table : List (Nat × Bytes)
  frames : List Nat
  live : List Nat

def Reg.init (live : List Nat) : Reg F := ⟨[], [], [], [], live⟩

/-- The entry of the map for a name. -/
def entry : List (Bytes × Option Nat) → Bytes → Option (Option Nat)
  | [], _ => none
  | (n, p) :: m, k => if n = k then some p else entry m k

/-- The map without a name. -/
def without (m : List (Bytes × Option Nat)) (k : Bytes) : List (Bytes × Option Nat) := m.filter fun e => e.1 ≠ k

/-- Change a `ScriptCmd`. -/
def Reg.upd (s : Reg F) (id : Nat) (f : ScriptCmd F → ScriptCmd F) : Reg F := { s with cmds := s.cmds.modify id f }

/-- A `shared_ptr` to command `id` goes away; with the last one `~ScriptCmdTCL` (`ScriptInterpTCL.h` 160-162,
170-176) deletes the interpreter's command of that name.  `none`: the interpreter is gone (use after free).
`tclName` is how the interpreter understands a name: up to a NUL, without a leading `::`. -/
def release (tclName : Bytes → Bytes) (s : Reg F) (id : Nat) : Option (Reg F) :=
  match s.cmds[id]? with
  | none => none
  | some c =>
    if c.refs > 1 then some (s.upd id fun c => { c with refs := c.refs - 1 })
    else if ¬ c.registered then some (s.upd id fun c => { c with refs := 0 })
    else if c.si ∈ s.live then
      some { s.upd id (fun c => { c with refs := 0, registered := false }) with table := s.table.filter fun e => e ≠ (c.si, tclName c.name) }
    else none

/-- Releasing what an entry held. -/
def releaseEntry (tclName : Bytes → Bytes) (s : Reg F) : Option (Option Nat) → Option (Reg F)
  | some (some id) => release tclName s id
  | _ => some s

/-- `_createCommand` (`ScriptInterpTCL.h` 179-188) and `registerCmd` (163-169): the new `ScriptCmd` has a local
pointer; it replaces the entry in the map, whose old pointer is released; then the interpreter's command is
made, and the local pointer goes away. -/
def create (tclName : Bytes → Bytes) (s : Reg F) (i : Nat) (name : Bytes) (fn : F) : Option (Reg F) := do
  let id := s.cmds.length
  let s1 := { s with cmds := s.cmds ++ [⟨i, name, fn, false, 2⟩], map := (name, some id) :: without s.map name }
  let s2 ← releaseEntry tclName s1 (entry s.map name)
  let s3 := { s2.upd id (fun c => { c with registered := true }) with table := (i, tclName name) :: s2.table.filter fun e => e ≠ (i, tclName name) }
  release tclName s3 id

/-- `deleteCommand` (`ScriptInterpTCL.h` 312-314). -/
def delete (tclName : Bytes → Bytes) (s : Reg F) (name : Bytes) : Option (Reg F) :=
  releaseEntry tclName { s with map := without s.map name } (entry s.map name)

/-- A script calls a command: the interpreter looks it up, and `_createCommand_callback` takes a pointer
(`ScriptInterpTCL.cpp` 68-72).  For a name that is not in the map, `operator[]` makes a null pointer, which is
then dereferenced: `none`. -/
def enter (tclName : Bytes → Bytes) (s : Reg F) (i : Nat) (typed : Bytes) : Option (Reg F × Option F) :=
  if (i, tclName typed) ∈ s.table then
    match entry s.map typed with
    | some (some id) => match s.cmds[id]? with
      | some c => some ({ s.upd id (fun c => { c with refs := c.refs + 1 }) with frames := id :: s.frames }, some c.fn)
      | none => none
    | _ => none
  else some (s, none)

/-- A running call ends: its pointer goes away (`ScriptInterpTCL.cpp` 69, 96). -/
def leave (tclName : Bytes → Bytes) (s : Reg F) : Option (Reg F) :=
  match s.frames with
  | [] => none
  | id :: fs => release tclName { s with frames := fs } id

/-- Releasing the entries of a map one by one. -/
def releaseAll (tclName : Bytes → Bytes) (s : Reg F) : List (Bytes × Option Nat) → Option (Reg F)
  | [] => some s
  | (_, p) :: m => match releaseEntry tclName s (some p) with
    | none => none
    | some s => releaseAll tclName s m

/-- `~ScriptInterpTCL` (`ScriptInterpTCL.h` 291-296): the whole map is cleared, then the interpreter deleted. -/
def destroyInterp (tclName : Bytes → Bytes) (s : Reg F) (i : Nat) : Option (Reg F) := do
  let s ← releaseAll tclName { s with map := [] } s.map
  return { s with live := s.live.filter (· ≠ i), table := s.table.filter fun e => e.1 ≠ i }

/-- A script renames a command (`rename a b`). -/
def rename (tclName : Bytes → Bytes) (s : Reg F) (i : Nat) (a b : Bytes) : Option (Reg F) :=
  if (i, tclName a) ∈ s.table then some { s with table := (i, tclName b) :: s.table.filter fun e => e ≠ (i, tclName a) }
  else some s

/-- A script removes a command (`rename a ""`): the map is not told (no delete procedure is given to
`Tcl_CreateObjCommand`, `ScriptInterpTCL.h` 166-167). -/
def dropCmd (tclName : Bytes → Bytes) (s : Reg F) (i : Nat) (a : Bytes) : Reg F :=
  { s with table := s.table.filter fun e => e ≠ (i, tclName a) }

/-- A new interpreter (`ScriptInterpTCL.h` 288-290). -/
def makeInterp (s : Reg F) (i : Nat) : Reg F := { s with live := i :: s.live }

end Bdlib.Tcl
