import Verif.Str.Model
import Verif.Str.Witness

/-!
# Model of `loadScript`, `ScriptCallbackerTCL::call` and of calls from scripts
-/

namespace Bdlib.Tcl
open Bdlib Bdlib.Str

/-- The text a C function sees. -/
def cstr (v : Bytes) : Bytes := v.takeWhile (· ≠ 0)

theorem cstr_self : ∀ {v : Bytes}, 0 ∉ v → cstr v = v
  | [], _ => rfl
  | c :: v, h => by
    have h0 : c ≠ 0 := fun e => h (e ▸ List.mem_cons_self)
    have := cstr_self (v := v) fun hm => h (List.mem_cons_of_mem _ hm)
    unfold cstr at this ⊢
    rw [List.takeWhile_cons_of_pos (by simp [h0]), this]

/-! ## Loading -/

inductive LoadError | ok | error | wrongInterp
  deriving DecidableEq

/-- The result of `loadScript`, and the files evaluated. -/
structure Loaded where
  code : LoadError
  files : List Bytes
  resultStr : Bytes
  deriving DecidableEq

/-- `loadScript` (`ScriptInterpTCL.cpp` 50-60).  `evalFile` is `Tcl_EvalFile`: the result text if it fails. -/
def loadScript (L : Libc) (evalFile : Bytes → Option Bytes) (fileName resultStr : Bytes) : Eff Loaded := do
  let p ← rfind L fileName [46, 116, 99, 108] (sub64 fileName.length 4)
  if p = npos then return ⟨.wrongInterp, [], resultStr⟩
  match evalFile (cstr fileName) with
  | some e => return ⟨.error, [cstr fileName], e⟩
  | none => return ⟨.ok, [cstr fileName], resultStr⟩

/-! ## Calling back into a script -/

/-- The script `ScriptCallbackerTCL::call` evaluates (`ScriptInterpTCL.h` 128-131). -/
def callScript (cmd : Bytes) (params : List Bytes) : Eff Bytes := do
  let j ← join params [32] true
  printf (cstr cmd ++ [32] ++ cstr j)

/-! ## Calls from a script -/

/-- How the C++ function ends. -/
inductive Ends (R : Type)
  | ret (r : R)
  | throwString (s : Bytes)
  | throwOther

/-- What the script gets. -/
inductive Reply (R : Type)
  | ok (r : R)
  | error (msg : Bytes)

/-- A registered command (`ScriptInterp.h` 72-101): for each parameter the conversion, which may throw a
text (the library's own do not, but a program may add some), and default value, and the function. -/
structure Cmd (O P R : Type) where
  params : List ((O → Except Bytes P) × P)
  min : Nat
  max : Nat
  usage : Option Bytes
  fn : List P → Ends R

/-- `createCommand` (`ScriptInterpTCL.h` 301-310). -/
def createCommand {O P R : Type} (params : List ((O → Except Bytes P) × P)) (fn : List P → Ends R) (usage : Option Bytes) (minParams : Nat) : Cmd O P R :=
  ⟨params, if minParams = npos then params.length else minParams, params.length, usage, fn⟩

/-- Decimal digits (`%zu`, `%d`). -/
def decimal (n : Nat) : Bytes := (Nat.toDigits 10 n).map fun c => c.toNat.toUInt8

/-- One argument: `objv[i + 1]` converted if `argc - 1 >= i + 1`, else the default
(`ScriptInterpTCLCallbacks.h` 48-54). -/
def argument {O P : Type} (p : (O → Except Bytes P) × P) (i : Nat) (objv : List O) : Eff (Except Bytes P) :=
  if objv.length - 1 ≥ i + 1 then rd objv (i + 1) >>= fun o => pure (p.1 o) else pure (.ok p.2)

/-- The arguments for the function (`ScriptInterpTCLCallbacks.h` 46-55).  C++ leaves open which argument is
made first; here it is the leftmost, so its exception comes first. -/
def arguments {O P : Type} : List ((O → Except Bytes P) × P) → (i : Nat) → (objv : List O) → Eff (Except Bytes (List P))
  | [], _, _ => .ret (.ok [])
  | p :: ps, i, objv => do
    match ← argument p i objv with
    | .error e => return .error e
    | .ok a =>
      match ← arguments ps (i + 1) objv with
      | .error e => return .error e
      | .ok as => return .ok (a :: as)

/-- The error text for a wrong number of arguments (`ScriptInterpTCL.cpp` 73-77). -/
def wrongArgs (name : Bytes) (min given : Nat) (usage : Option Bytes) : Eff Bytes := do
  -- "Wrong # args. Expected %zu, got %d."
  let e ← printf ([87, 114, 111, 110, 103, 32, 35, 32, 97, 114, 103, 115, 46, 32, 69, 120, 112, 101, 99, 116, 101, 100, 32]
    ++ decimal min ++ [44, 32, 103, 111, 116, 32] ++ decimal given ++ [46])
  match usage with
  | none => return e
  -- " Should be \"%s %s\""
  | some u =>
    let f ← printf ([32, 83, 104, 111, 117, 108, 100, 32, 98, 101, 32, 34] ++ cstr name ++ [32] ++ cstr u ++ [34])
    return e ++ f

/-- `_createCommand_callback` for a command (`ScriptInterpTCL.cpp` 65-96) with words `objv` (the first is the
name); the first result: the arguments the function was run with, if it was. -/
def dispatch {O P R : Type} (str : O → Bytes) (c : Cmd O P R) (objv : List O) : Eff (Option (List P) × Reply R) := do
  let name := str (← rd objv 0)
  if sub64 objv.length 1 < c.min ∨ sub64 objv.length 1 > c.max then
    let e ← wrongArgs name c.min (objv.length - 1) c.usage
    return (none, .error e)
  match ← arguments c.params 0 objv with
  | .error e => return (none, .error e)
  | .ok args => match c.fn args with
    | .ret r => return (some args, .ok r)
    | .throwString s => return (some args, .error s)
    -- "Unhandled exception."
    | .throwOther => return (some args, .error [85, 110, 104, 97, 110, 100, 108, 101, 100, 32, 101, 120, 99, 101, 112, 116, 105, 111, 110, 46])

end Bdlib.Tcl
