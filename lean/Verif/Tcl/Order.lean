import Verif.Tcl.Script
import Verif.Tcl.Faults

/-!
# The arguments of a command, made in any order

`ScriptInterpTCLCallbacks.h` 46-55 expands two packs side by side: the types of the parameters, and the indices that `indices.h` makes.
The expansion is an argument list of a function call, so the arguments may be made in any order.
-/

namespace Bdlib.Tcl
open Bdlib Bdlib.Str

/-- `make_indices_impl<n, indices<is...>>::type` (`indices.h` 11-29). -/
def indicesImpl : Nat → List Nat → List Nat
  | 0, is => is
  | n + 1, is => indicesImpl n (n :: is)

/-- `make_indices<n>()` (`indices.h` 31-35). -/
def makeIndices (n : Nat) : List Nat := indicesImpl n []

variable {O P R : Type}

/-- The two packs side by side (`ScriptInterpTCLCallbacks.h` 48-54, 62-63): each parameter with its index. -/
def packs (params : List ((O → Except Bytes P) × P)) : List (((O → Except Bytes P) × P) × Nat) := params.zip (makeIndices params.length)

/-- Arguments made so far. -/
abbrev Made (P : Type) := Nat → Option P

/-- Making the arguments at the positions `order` of the list, one after the other (`ScriptInterpTCLCallbacks.h` 46-55); the first
exception ends it. -/
def makeIn (ps : List (((O → Except Bytes P) × P) × Nat)) (objv : List O) : List Nat → Made P → Eff (Except Bytes (Made P))
  | [], m => .ret (.ok m)
  | k :: ks, m =>
    match ps[k]? with
    | none => .ub
    | some (p, i) => do
      match ← argument p i objv with
      | .error e => return .error e
      | .ok a => makeIn ps objv ks fun j => if j = k then some a else m j

/-- The arguments in the order of the parameters. -/
def gather (m : Made P) : List Nat → Option (List P)
  | [] => some []
  | k :: ks => match m k, gather m ks with
    | some a, some as => some (a :: as)
    | _, _ => none

/-- `_createCommand_callback` (`ScriptInterpTCL.cpp` 65-96) like `dispatch`, where the arguments are made in the order `order`. -/
def dispatchIn (order : List Nat) (str : O → Bytes) (c : Cmd O P R) (objv : List O) : Eff (Option (List P) × Reply R) := do
  let name := str (← rd objv 0)
  if sub64 objv.length 1 < c.min ∨ sub64 objv.length 1 > c.max then
    let e ← wrongArgs name c.min (objv.length - 1) c.usage
    return (none, .error e)
  match ← makeIn (packs c.params) objv order fun _ => none with
  | .error e => return (none, .error e)
  | .ok m => match gather m (List.range c.params.length) with
    | none => Eff.ub
    | some args => match c.fn args with
      | .ret r => return (some args, .ok r)
      | .throwString s => return (some args, .error s)
      | .throwOther => return (some args, .error [85, 110, 104, 97, 110, 100, 108, 101, 100, 32, 101, 120, 99, 101, 112, 116, 105, 111, 110, 46])

/-! ## With conversions that may do and throw anything -/

variable {S : Type}

/-- Like `makeIn`, for conversions with effects (`ScriptInterpTCLCallbacks.h` 46-55). -/
def makeInF (ps : List (((O → X S P) × X S P) × Nat)) (objv : List O) : List Nat → Made P → X S (Made P)
  | [], m => pure m
  | k :: ks, m =>
    match ps[k]? with
    | none => .undef
    | some (p, i) => do
      let a ← argumentF p i objv
      makeInF ps objv ks fun j => if j = k then some a else m j

/-- Like `dispatchF` (`ScriptInterpTCL.cpp` 65-96), where the arguments are made in the order `order`. -/
def dispatchInF (mem : Nat → Bool) (order : List Nat) (str : O → Bytes) (c : FCmd S O P R) (objv : List O) : X S (Reply Bytes) := do
  match objv with
  | [] => .undef
  | o :: _ =>
    X.alloc mem
    if sub64 objv.length 1 < c.min ∨ sub64 objv.length 1 > c.max then
      let e ← wrongArgsF mem (str o) c.min (objv.length - 1) c.usage
      return .error e
    else
      X.catching (do
          let m ← makeInF (c.params.zip (makeIndices c.params.length)) objv order fun _ => none
          match gather m (List.range c.params.length) with
          | none => .undef
          | some as =>
            let r ← c.fn as
            let b ← c.out r
            return .ok b)
        fun
        | .text e => return .error e
        | .other => do
          X.alloc mem
          return .error unhandled

end Bdlib.Tcl
