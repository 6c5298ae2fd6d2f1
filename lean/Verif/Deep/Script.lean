import Verif.Deep.Model
import Verif.Tcl.Eval

/-!
# Strings and arrays of live objects to and from Tcl

`Tcl/Eval.lean` models the conversions as functions on values.  Here they are the programs they are: they make objects,
move them into arrays and destroy temporaries, and any allocation may fail.  `ScriptInterpTCL.cpp` has the conversions
of `String`, `Array<String>` and `Array<Array<String>>`, the last two with the same text; here there is one for every
depth.  The interpreter is not null (see `toArray` in `Tcl/Eval.lean` for a null one).
-/

namespace Bdlib.Deep
open Bdlib Bdlib.Spec Bdlib.Rca Bdlib.Tcl
open Pg (undef)

/-- `for (int i = 0; i < objc; ++i) ret << tcl_to_c_cast<…>::from(objv[i], si)`
(`ScriptInterpTCL.cpp` 328-329, 346-347): the element is a temporary that is moved into the array, or not if that
throws, and destroyed. -/
def takeAll (c : Conf) (conv : Tcl.Obj → Pg c.elt.Mem Nat) (a : Nat) : List Tcl.Obj → P c Unit
  | [] => return ()
  | o :: os => do
    let t ← elts (conv o)
    (appendMove c a t).onThrow (delete c t)
    delete c t
    takeAll c conv a os

/-- `tcl_to_c_cast<String>::from` (`ScriptInterpTCL.cpp` 156-166), `tcl_to_c_cast<Array<String>>::from` (316-332) and
`tcl_to_c_cast<Array<Array<String>>>::from` (334-350).  The array is returned without a copy; if an exception leaves
the loop it is destroyed. -/
def fromTcl (p : Params) (C : Library) : (n : Nat) → Tcl.Obj → Pg (tower p n).Mem Nat
  | 0, o => match p.str.nul with
    | some z => Pg.ofM (Rca.strCtor p.str z (C.text o))
    | none => undef
  | n + 1, o => (match C.elements o with
    | none => arrs Rca.ctor
    | some os => do
      let a ← sizeCtor (level p n) os.length
      (takeAll (level p n) (fromTcl p C n) a os).onThrow (destroy (level p n) a)
      return a : P (level p n) Nat)

/-- The bytes `Tcl_NewStringObj(cbegin(), length())` copies (`ScriptInterpTCL.h` 436-437). -/
def bytesFrom (t : Nat) : Nat → Nat → M UInt8 (List UInt8)
  | _, 0 => return []
  | i, k + 1 => do
    match ← Rca.read t i with
    | some x => return x :: (← bytesFrom t (i + 1) k)
    | none => fun _ => .ub

/-- `c_to_tcl_cast<const String&>::from` (`ScriptInterpTCL.h` 434-438); `none` is `nullptr`. -/
def textOf (t : Nat) : M UInt8 (Option Tcl.Obj) := do
  let n ← Rca.length t
  if n < 2147483647 then return some (.str (← bytesFrom t 0 n)) else return none

/-- `for (const auto& element : array) Tcl_ListObjAppendElement(interp, value, …)`
(`ScriptInterpTCL.cpp` 135-138, 147-150); appending a null pointer is undefined. -/
def giveAll (c : Conf) (conv : Nat → Pg c.elt.Mem (Option Tcl.Obj)) (a : Nat) : Nat → Nat → P c (List Tcl.Obj)
  | _, 0 => return []
  | i, k + 1 => do
    let t ← cell c a i
    match ← elts (conv t) with
    | some o => return o :: (← giveAll c conv a (i + 1) k)
    | none => undef

/-- `c_to_tcl_cast<const String&>::from`, `c_to_tcl_cast<const Array<String>&>::from` (`ScriptInterpTCL.cpp` 131-141) and
`c_to_tcl_cast<const Array<Array<String>>&>::from` (143-153). -/
def toTcl (p : Params) : (n : Nat) → Nat → Pg (tower p n).Mem (Option Tcl.Obj)
  | 0, t => Pg.ofM (textOf t)
  | n + 1, a => (do
    let k ← arrs (Rca.length a)
    let os ← giveAll (level p n) (toTcl p n) a 0 k
    return some (.list os) : P (level p n) _)

/-- A program that has also objects of greater depth. -/
def deeper {p : Params} {n : Nat} {α : Type} (m : Pg (tower p n).Mem α) : (d : Nat) → Pg (tower p (n + d)).Mem α
  | 0 => m
  | d + 1 => elts (c := level p (n + d)) (deeper m d)

end Bdlib.Deep
