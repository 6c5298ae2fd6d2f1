import Verif.Machine.Basic

/-!
# Tcl values and who holds them

`Tcl_Obj` values have reference counts; `ScriptInterpTCL.{h,cpp}` creates, hands over and releases them.  This model keeps the counts and leaves
out what C55, C56, C63 and C68 say about the values themselves.
-/

namespace Bdlib.Tcl.Objs
open Bdlib

/-- What a value is: a text (also numbers, which Tcl keeps as such), or a list of values. -/
inductive Body where
  | text (b : List UInt8)
  | list (kids : List Nat)
deriving DecidableEq

/-- The values a value holds itself. -/
def Body.kids : Body → List Nat
  | .text _ => []
  | .list ks => ks

/-- A `Tcl_Obj`. -/
structure Node where
  refs : Nat
  body : Body
deriving DecidableEq

/-- All values made so far; released ones are `none`. Addresses are not used again. -/
abbrev Heap := List (Option Node)

/-- The value at an address, if it is alive. -/
def get (h : Heap) (x : Nat) : Option Node := (h[x]?).join

/-- How many values are alive. -/
def alive (h : Heap) : Nat := h.countP Option.isSome

/-- `Tcl_NewStringObj`, `Tcl_NewIntObj` ..., `Tcl_NewListObj` (objc, NULL): a new value held by nobody. -/
def new (b : Body) (h : Heap) : Nat × Heap := (h.length, h ++ [some ⟨0, b⟩])

/-- `Tcl_IncrRefCount`; undefined for a released value. -/
def incr (x : Nat) (h : Heap) : Option Heap :=
  match get h x with
  | none => none
  | some n => some (h.set x (some { n with refs := n.refs + 1 }))

theorem alive_set_none {h : Heap} {x : Nat} {n : Node} (hx : get h x = some n) : alive (h.set x none) + 1 = alive h := by
  induction h generalizing x with
  | nil => simp [get] at hx
  | cons o h ih =>
    cases x with
    | zero =>
      simp [get] at hx
      subst hx
      simp [alive]
    | succ x =>
      have := ih (x := x) (by simpa [get] using hx)
      simp only [alive, List.set_cons_succ, List.countP_cons] at this ⊢
      omega

theorem alive_set_some {h : Heap} {x : Nat} {n m : Node} (hx : get h x = some n) : alive (h.set x (some m)) = alive h := by
  induction h generalizing x with
  | nil => simp [get] at hx
  | cons o h ih =>
    cases x with
    | zero =>
      simp [get] at hx
      subst hx
      simp [alive]
    | succ x =>
      have := ih (x := x) (by simpa [get] using hx)
      simp only [alive, List.set_cons_succ, List.countP_cons] at this ⊢
      omega

/-- `Tcl_DecrRefCount` on each of these: a value with a count of at most one is freed, and what it held is released in turn; undefined for a released
value. -/
def release (xs : List Nat) (h : Heap) : Option Heap :=
  match xs with
  | [] => some h
  | x :: xs =>
    match hx : get h x with
    | none => none
    | some n =>
      if n.refs > 1 then release xs (h.set x (some { n with refs := n.refs - 1 }))
      else release (n.body.kids ++ xs) (h.set x none)
termination_by (alive h, xs.length)
decreasing_by
  · rw [alive_set_some hx]; exact Prod.Lex.right _ (by simp)
  · exact Prod.Lex.left _ _ (by have := alive_set_none hx; omega)

/-- `Tcl_ListObjAppendElement`: the list holds the element from now on. Tcl aborts if somebody else holds the list too. -/
def append (l x : Nat) (h : Heap) : Option Heap := do
  let h ← incr x h
  match get h l with
  | some ⟨r, .list ks⟩ => if r > 1 then none else some (h.set l (some ⟨r, .list (ks ++ [x])⟩))
  | _ => none

/-- The interpreter: its values, its result, its global variables, and the words of the commands that are running. -/
structure World where
  heap : Heap
  result : Nat
  vars : List (List UInt8 × Nat)
  frames : List (List Nat)

/-- A new interpreter: its result is the empty text. -/
def start : World := ⟨[some ⟨1, .text []⟩], 0, [], []⟩

/-- The value of a variable. -/
def World.var (w : World) (v : List UInt8) : Option Nat := (w.vars.find? (·.1 = v)).map (·.2)

/-- `Tcl_SetObjResult` (`tclResult.c`): holds the new result, lets go of the old one. -/
def setResult (x : Nat) (w : World) : Option World := do
  let h ← incr x w.heap
  let h ← release [w.result] h
  return { w with heap := h, result := x }

/-- `Tcl_ObjSetVar2`: the variable holds the new value and lets go of the old one. -/
def setVarObj (v : List UInt8) (x : Nat) (w : World) : Option World := do
  let h ← incr x w.heap
  match w.var v with
  | none => return { w with heap := h, vars := (v, x) :: w.vars }
  | some old =>
    let h ← release [old] h
    return { w with heap := h, vars := (v, x) :: w.vars.filter (·.1 ≠ v) }

/-- `Tcl_SetVar2`: makes a value of the text and puts it into the variable. -/
def setVar (v b : List UInt8) (w : World) : Option World :=
  let (x, h) := new (.text b) w.heap
  setVarObj v x { w with heap := h }

/-- `Tcl_UnsetVar`. -/
def unsetVar (v : List UInt8) (w : World) : Option World :=
  match w.var v with
  | none => some w
  | some old => do
    let h ← release [old] w.heap
    return { w with heap := h, vars := w.vars.filter (·.1 ≠ v) }

/-! ## What the library does -/

/-- What a C++ function gives: one of the scalar types, an `Array<String>` or an `Array<Array<String>>`. -/
inductive Value where
  | one (b : List UInt8)
  | arr (a : List (List UInt8))
  | arr2 (a : List (List (List UInt8)))

/-- `c_to_tcl_cast<const String&>::from` (`ScriptInterpTCL.h` 434-438): a null pointer for texts too long for Tcl. Numbers and truth values
(`ScriptInterpTCL.h` 389-432, 445-448) are made likewise and are never too long; neither is a text made from a `const char*` (440-443) unless it is. -/
def castText (b : List UInt8) (h : Heap) : Option Nat × Heap :=
  if b.length < 2147483647 then (some (new (.text b) h).1, (new (.text b) h).2) else (none, h)

/-- The loop in `c_to_tcl_cast<const Array<String>&>::from` (`ScriptInterpTCL.cpp` 135-138). Appending a null pointer is undefined. -/
def fillArr (l : Nat) : List (List UInt8) → Heap → Option Heap
  | [], h => some h
  | e :: es, h =>
    match castText e h with
    | (none, _) => none
    | (some x, h) => do
      let h ← append l x h
      fillArr l es h

/-- `c_to_tcl_cast<const Array<String>&>::from` (`ScriptInterpTCL.cpp` 131-141). -/
def castArr (a : List (List UInt8)) (h : Heap) : Option (Nat × Heap) := do
  let (l, h) := new (.list []) h
  let h ← fillArr l a h
  return (l, h)

/-- The loop in `c_to_tcl_cast<const Array<Array<String>>&>::from` (`ScriptInterpTCL.cpp` 147-150). -/
def fillArr2 (l : Nat) : List (List (List UInt8)) → Heap → Option Heap
  | [], h => some h
  | e :: es, h => do
    let (x, h) ← castArr e h
    let h ← append l x h
    fillArr2 l es h

/-- `c_to_tcl_cast<const T&>::from` for each type (`ScriptInterpTCL.h` 389-449, `ScriptInterpTCL.cpp` 131-153). -/
def cast : Value → Heap → Option (Option Nat × Heap)
  | .one b, h => some (castText b h)
  | .arr a, h => do
    let (l, h) ← castArr a h
    return (some l, h)
  | .arr2 a, h => do
    let (l, h) := new (.list []) h
    let h ← fillArr2 l a h
    return (some l, h)

/-- `ScriptCallbackDispatchTCL::dispatch` for a function with a result (`ScriptInterpTCLCallbacks.h` 14-17), and the error replies of
`_createCommand_callback` (`ScriptInterpTCL.cpp` 78-79, 86-93), whose value is a text. A null pointer as result is undefined. -/
def reply (v : Value) (w : World) : Option World := do
  match ← cast v w.heap with
  | (none, _) => none
  | (some x, h) => setResult x { w with heap := h }

/-- `tcl_traceGet`, `tcl_traceGetPtrData`, `tcl_traceGetPtr` with `TraceGet` (`ScriptInterpTCL.h` 206-227, `ScriptInterpTCL.cpp` 113-121). What text
Tcl makes of the value is `str`'s. -/
def traceGet (str : Heap → Nat → List UInt8) (v : List UInt8) (c : Value) (w : World) : Option World := do
  match ← cast c w.heap with
  | (none, h) => return { w with heap := h }
  | (some x, h) => do
    let w ← setVar v (str h x) { w with heap := h }
    let h ← release [x] w.heap
    return { w with heap := h }

/-- `TraceSet` (`ScriptInterpTCL.cpp` 123-129). The variable's traces do not fire while one of them runs. Looking up a null pointer is undefined. -/
def traceSet (v : List UInt8) (w : World) : Option (Option Nat × World) :=
  match castText v w.heap with
  | (none, _) => none
  | (some name, h) => do
    let value := w.var v
    let h ← release [name] h
    return (value, { w with heap := h })

/-- The texts a conversion from a value reads: that of the value, those of its elements (`Tcl_GetStringFromObj`, `Tcl_ListObjGetElements`;
`ScriptInterpTCL.cpp` 156-168, 313-349); undefined if one of them has been released. -/
def readObj (x : Nat) (h : Heap) : Option Unit := do
  let n ← get h x
  n.body.kids.forM fun k => do
    let m ← get h k
    m.body.kids.forM fun j => do
      let _ ← get h j
      return ()

/-- `tcl_traceSet` and `tcl_traceSetPtr` (`ScriptInterpTCL.h` 229-275), as far as Tcl values are concerned. -/
def onWrite (v : List UInt8) (w : World) : Option World := do
  let (value, w) ← traceSet v w
  match value with
  | none => return w
  | some x => do
    readObj x w.heap
    return w

/-- The result of `eval` and of a failed `loadScript` (`ScriptInterpTCL.cpp` 41-48, 55-58). -/
def evalResult (w : World) : Option World := do
  readObj w.result w.heap
  return w

/-- The arguments of a command (`ScriptInterpTCLCallbacks.h` 46-54, `ScriptInterpTCL.cpp` 68): the words of the innermost running command are
converted. -/
def readWords (w : World) : Option World :=
  match w.frames with
  | [] => none
  | f :: _ => do
    f.forM fun x => readObj x w.heap
    return w

/-- Holding all of these. -/
def incrAll : List Nat → Heap → Option Heap
  | [], h => some h
  | x :: xs, h => do
    let h ← incr x h
    incrAll xs h

/-- What happens in a history: steps of scripts, and steps of the library. -/
inductive Op where
  /-- A script sets a variable to a new text. -/
  | setText (v b : List UInt8)
  /-- A script sets a variable to the value of another one. -/
  | share (v u : List UInt8)
  /-- A script sets a variable to the list of the values of others. -/
  | setList (v : List UInt8) (us : List (List UInt8))
  /-- A script appends the value of a variable to the list in another one, as `lappend v $u` does: in place if nobody else holds the list. -/
  | lappend (v u : List UInt8)
  /-- A script sets a variable to the result of the last command. -/
  | keep (v : List UInt8)
  /-- A script unsets a variable, or `unlinkVar` does. -/
  | unset (v : List UInt8)
  /-- A command is called with the values of these variables as words. -/
  | enter (us : List (List UInt8))
  /-- The innermost command returns. -/
  | leave
  /-- A command leaves a value of a variable as its result, as `set x` does. -/
  | resultVar (v : List UInt8)
  /-- The library converts the words of the command, perhaps many times. -/
  | words
  /-- The library gives a result or an error text. -/
  | reply (v : Value)
  /-- A linked variable is read: the library puts the C++ value into it. -/
  | read (v : List UInt8) (c : Value)
  /-- A linked variable has been written: the library takes the value. -/
  | write (v : List UInt8)
  /-- The library reads the result of an evaluation. -/
  | result

/-- One step. Steps that do not apply (an unknown variable) do nothing. -/
def step (str : Heap → Nat → List UInt8) : Op → World → Option World
  | .setText v b, w => setVar v b w
  | .share v u, w => match w.var u with
    | none => some w
    | some x => setVarObj v x w
  | .setList v us, w => do
    let xs := us.filterMap w.var
    let h ← incrAll xs w.heap
    let (l, h) := new (.list xs) h
    setVarObj v l { w with heap := h }
  | .lappend v u, w => match w.var v, w.var u with
    | some l, some x =>
      match get w.heap l with
      | none => none
      | some ⟨_, .text _⟩ => some w
      | some ⟨r, .list ks⟩ =>
        if r ≤ 1 ∧ l ≠ x then do
          let h ← append l x w.heap
          return { w with heap := h }
        else do
          let h ← incrAll (ks ++ [x]) w.heap
          let (l, h) := new (.list (ks ++ [x])) h
          setVarObj v l { w with heap := h }
    | _, _ => some w
  | .keep v, w => setVarObj v w.result w
  | .unset v, w => unsetVar v w
  | .enter us, w => do
    let xs := us.filterMap w.var
    let h ← incrAll xs w.heap
    return { w with heap := h, frames := xs :: w.frames }
  | .leave, w => match w.frames with
    | [] => some w
    | f :: fs => do
      let h ← release f w.heap
      return { w with heap := h, frames := fs }
  | .resultVar v, w => match w.var v with
    | none => some w
    | some x => setResult x w
  | .words, w => match w.frames with
    | [] => some w
    | _ => readWords w
  | .reply c, w => reply c w
  | .read v c, w => traceGet str v c w
  | .write v, w => onWrite v w
  | .result, w => evalResult w

/-- A history. -/
def run (str : Heap → Nat → List UInt8) : List Op → World → Option World
  | [], w => some w
  | o :: os, w => do
    let w ← step str o w
    run str os w

end Bdlib.Tcl.Objs
