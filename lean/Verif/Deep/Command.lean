import Verif.Deep.Spec
import Verif.Deep.Script
import Verif.Deep.Table

/-!
# Commands whose functions take and return live objects

`Tcl/Script.lean` and `Tcl/Faults.lean` model the call of a function by a script with values.  Here the arguments, the parameters
and the result are objects in a program with any number of other objects: temporaries are converted from the words of the
script, parameters are moved from them, the function makes calls on them and on the other objects, the object it returns is moved,
converted and destroyed, and whatever throws leaves through all of this.
-/

namespace Bdlib.Deep
open Bdlib Bdlib.Spec Bdlib.Rca Bdlib.Tcl Bdlib.Hash
open Pg (undef)

/-- The type of a parameter or a result: `String`, `Array<String>`, `Array<Array<String>>`, …, by its depth. -/
structure Kind (n : Nat) where
  depth : Nat
  pos : At depth n

/-- A function of the program: it makes calls, goes on according to how they end, and returns an object or throws. -/
inductive Body (n : Nat) where
  | ret (r : Nat)
  | raise (e : Exc)
  | call (c : Call n) (k : End n → Body n)

/-- Running a function. -/
def Body.exec {n : Nat} (p : Params) : Body n → Pg (Mem p n) Nat
  | .ret r => return r
  | .raise e => fun w => .throw e w
  | .call c k => fun w => match result (run p c w) with
    | some (out, w') => (k out).exec p w'
    | none => .ub

variable {n : Nat} {α β : Type}

/-- Objects of the types `ks` are made in the order of the list; then `f` runs; then they are destroyed, the last first, also if `f`
or the making of a later one throws.  Which order is left open by C++ for the arguments of a function. -/
def holding (p : Params) (ks : List (Kind n)) (mk : Nat → (k : Kind n) → Pg (Mem p k.depth) Nat) :
    List Nat → (Nat → Nat) → ((Nat → Nat) → Pg (Mem p n) α) → Pg (Mem p n) α
  | [], h, f => f h
  | i :: l, h, f => match ks[i]? with
    | none => undef
    | some k => do
      let t ← k.pos.lift (mk i k)
      let a ← (holding p ks mk l (setFn h i t) f).onThrow (k.pos.lift ((tower p k.depth).delete t))
      k.pos.lift ((tower p k.depth).delete t)
      return a

/-- One argument (`ScriptInterpTCLCallbacks.h` 48-54): converted from a word, or made by the default constructor if the script gave
too few. -/
def argTemp (p : Params) (C : Library) (objv : List Tcl.Obj) (i : Nat) (k : Kind n) : Pg (Mem p k.depth) Nat :=
  if objv.length - 1 ≥ i + 1 then
    match objv[i + 1]? with
    | some o => fromTcl p C k.depth o
    | none => undef
  else (tower p k.depth).new

/-- The arguments are temporaries of `real_call`, made in the order `o1`; the parameters of the function are made by moving from
them (`std::forward<Params>(args)...`, `ScriptInterpTCLCallbacks.h` 14), in the order `o2`. -/
def withArgs (p : Params) (C : Library) (ks : List (Kind n)) (o1 o2 : List Nat) (objv : List Tcl.Obj)
    (f : (Nat → Nat) → Pg (Mem p n) α) (g : α → Pg (Mem p n) β) : Pg (Mem p n) β :=
  holding p ks (argTemp p C objv) o1 (fun _ => 0) fun ts => do
    let a ← holding p ks (fun i k => (tower p k.depth).newMove (ts i)) o2 (fun _ => 0) f
    g a

/-- `ScriptCommandHandlerTCL::call` with `ScriptCallbackDispatchTCL::dispatch` (`ScriptInterpTCLCallbacks.h` 12-18, 37-64): what the
function returns is moved into `result` and destroyed, the parameters are destroyed, `result` is converted and destroyed, the
temporaries are destroyed.  The result of the script is the value; a null pointer is undefined. -/
def command (p : Params) (C : Library) (ks : List (Kind n)) (res : Kind n) (o1 o2 : List Nat) (f : (Nat → Nat) → Body n)
    (objv : List Tcl.Obj) : Pg (Mem p n) Tcl.Obj :=
  withArgs p C ks o1 o2 objv (fun us => do
      let r ← (f us).exec p
      let z ← res.pos.lift ((tower p res.depth).newMove r)
      res.pos.lift ((tower p res.depth).delete r)
      return z)
    fun z => do
      match ← res.pos.lift (toTcl p res.depth z) with
      | some o => do
        res.pos.lift ((tower p res.depth).delete z)
        return o
      | none => undef

/-- The same for a function that returns nothing (`ScriptInterpTCLCallbacks.h` 22-29). -/
def commandVoid (p : Params) (C : Library) (ks : List (Kind n)) (o1 o2 : List Nat) (f : (Nat → Nat) → Body n)
    (objv : List Tcl.Obj) : Pg (Mem p n) Unit :=
  withArgs p C ks o1 o2 objv (fun us => do
      let _ ← (f us).exec p
      return ()) fun _ => return ()

end Bdlib.Deep
