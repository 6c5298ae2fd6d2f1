import Verif.Tcl.Script

/-!
# Model of `ScriptInterpTCL::eval` and of the conversions of texts, lists and truth values
-/

namespace Bdlib.Tcl
open Bdlib Bdlib.Str

/-! ## Evaluating -/

/-- An interpreter: evaluating a script (`Tcl_EvalEx`, assumed to return) changes the state and gives a result
(`TCL_OK`) or an error. -/
structure Interp (S : Type) where
  evalEx : S → Bytes → S × Except Bytes Bytes

/-- The script `Tcl_EvalEx(interp, v.c_str(), n, …)` evaluates: `n` bytes, or if `n` is negative those before the first
NUL. -/
def scriptOf (v : Bytes) (n : Int) : Bytes := if n < 0 then cstr v else v.take n.toNat

/-- `set errorInfo` -/
def setErrorInfo : Bytes := [115, 101, 116, 32, 101, 114, 114, 111, 114, 73, 110, 102, 111]

/-- `eval` (`ScriptInterpTCL.cpp` 41-48): the length is converted to `int`; after an error the function calls itself.
At most `fuel` calls. -/
def eval {S : Type} (I : Interp S) : Nat → S → Bytes → Eff (S × Bytes)
  | 0, _, _ => .more
  | fuel + 1, s, script =>
    match I.evalEx s (scriptOf script (Rca.toInt32 script.length)) with
    | (s', .ok r) => .ret (s', r)
    | (s', .error _) => eval I fuel s' setErrorInfo

/-! ## Conversions -/

/-- A Tcl value: a text, a list or a truth value (with a text for each, see `Library`). -/
inductive Obj where
  | str (b : Bytes)
  | list (l : List Obj)
  | bool (b : Bool)

/-- What the Tcl library does with texts: writing lists, reading lists and truth values. -/
structure Library where
  formatList : List Bytes → Bytes
  parseList : Bytes → Option (List Bytes)
  /-- a list that was written is read back (Tcl_Merge(3), Tcl_SplitList(3)) -/
  parse_format : ∀ l, parseList (formatList l) = some l
  parseBool : Bytes → Option Bool
  /-- `0` and `1` are truth values (Tcl_GetBoolean(3)) -/
  parse_zero : parseBool [48] = some false
  parse_one : parseBool [49] = some true

mutual
/-- `Tcl_GetStringFromObj`: the text of a value. -/
def Library.text (C : Library) : Obj → Bytes
  | .str b => b
  | .list l => C.formatList (C.texts l)
  | .bool b => if b then [49] else [48]
def Library.texts (C : Library) : List Obj → List Bytes
  | [] => []
  | o :: os => C.text o :: C.texts os
end

/-- `Tcl_ListObjGetElements`: the elements, if the value is a list or its text is one. -/
def Library.elements (C : Library) : Obj → Option (List Obj)
  | .list l => some l
  | o => (C.parseList (C.text o)).map (·.map .str)

/-- `Tcl_GetBooleanFromObj`. -/
def Library.truth (C : Library) : Obj → Option Bool
  | .bool b => some b
  | o => C.parseBool (C.text o)

/-- `c_to_tcl_cast<const String&>::from` (`ScriptInterpTCL.h` 434-438); `none` is `nullptr`. -/
def ofString (v : Bytes) : Option Obj := if v.length < 2147483647 then some (.str v) else none

/-- `tcl_to_c_cast<String>::from` (`ScriptInterpTCL.cpp` 156-166). -/
def toString (C : Library) (o : Obj) : Bytes := C.text o

/-- `c_to_tcl_cast<const bool&>::from` (`ScriptInterpTCL.h` 445-448). -/
def ofBool (b : Bool) : Obj := .bool b

/-- `tcl_to_c_cast<bool>::from` (`ScriptInterpTCL.cpp` 293-300). -/
def toBool (C : Library) (o : Obj) : Bool :=
  match C.truth o with
  | some v => if v then true else false
  | none => false

/-- Loop of the conversions of arrays (`ScriptInterpTCL.cpp` 135-138, 147-150): `Tcl_ListObjAppendElement` with a null
pointer is undefined. -/
def appendAll {α : Type} (conv : α → Eff (Option Obj)) : List α → List Obj → Eff (List Obj)
  | [], acc => .ret acc
  | x :: xs, acc => do
    match ← conv x with
    | none => .ub
    | some o => appendAll conv xs (acc ++ [o])

/-- `c_to_tcl_cast<const Array<String>&>::from` (`ScriptInterpTCL.cpp` 131-141). -/
def ofArray (a : List Bytes) : Eff Obj := do
  return .list (← appendAll (fun v => .ret (ofString v)) a [])

/-- `c_to_tcl_cast<const Array<Array<String>>&>::from` (`ScriptInterpTCL.cpp` 143-153). -/
def ofTable (a : List (List Bytes)) : Eff Obj := do
  return .list (← appendAll (fun r => do return some (← ofArray r)) a [])

/-- Loop of the conversions to arrays (`ScriptInterpTCL.cpp` 328-329, 346-347). -/
def convAll {α : Type} (conv : Obj → Eff α) : List Obj → List α → Eff (List α)
  | [], acc => .ret acc
  | o :: os, acc => do convAll conv os (acc ++ [← conv o])

/-- `tcl_to_c_cast<Array<String>>::from` (`ScriptInterpTCL.cpp` 316-332).  `si`: was an interpreter given?  Its field is
read. -/
def toArray (C : Library) (si : Bool) (o : Obj) : Eff (List Bytes) :=
  if si then
    match C.elements o with
    | none => .ret []
    | some os => convAll (fun o => .ret (toString C o)) os []
  else .ub

/-- `tcl_to_c_cast<Array<Array<String>>>::from` (`ScriptInterpTCL.cpp` 334-350). -/
def toTable (C : Library) (si : Bool) (o : Obj) : Eff (List (List Bytes)) :=
  if si then
    match C.elements o with
    | none => .ret []
    | some os => convAll (toArray C si) os []
  else .ub

/-- Writing a linked `Array<String>` (`tcl_traceSet`, `ScriptInterpTCL.h` 229-245): the value is converted without an
interpreter. -/
def traceSetArray (C : Library) (o : Obj) : Eff (List Bytes) := toArray C false o

/-- What a script gets that reads a linked `Array<String>` (`tcl_traceGet`, `ScriptInterpTCL.h` 206-212, and `TraceGet`,
`ScriptInterpTCL.cpp` 113-121): the text of the list, as a C string. -/
def traceGetArray (C : Library) (a : List Bytes) : Eff Obj := do
  return .str (cstr (C.text (← ofArray a)))

end Bdlib.Tcl
