import Verif.Nest.TextSpec
import Verif.Rca.Debug

/-!
# Model of arrays of strings and of `split` with their assertions

The functions of `Model.lean` and `Text.lean` in a build in which `NDEBUG` is not defined.  A failed assertion ends the program: there is no
result and no later state, which is what `.ub` says.
-/

namespace Bdlib.Nest
open Bdlib Bdlib.Spec Bdlib.Rca Bdlib.Str
open P (strs arrs undef)

/-- `assert(b)`. -/
def check (b : Bool) : P Unit := if b then pure () else undef

/-! ## Arrays of strings -/

/-- `COW` (`ReferenceCountedArray.h` 383-392) with the assertion of line 387. -/
def cowDebug (c : Conf) (o n : Nat) : P Unit := do
  let sh ← arrs (Rca.isShared o)
  check sh
  cow c o n

/-- `AboutToModify` (`ReferenceCountedArray.h` 405-413). -/
def aboutToModifyDebug (c : Conf) (o n : Nat) : P Unit := do
  let ob ← arrs (getObj o)
  arrs (putObj o { ob with hash := 0 })
  if ← arrs (Rca.isShared o) then cowDebug c o n else reserve c o n c.scale

/-- `Array::shift` (`Array.h` 107-116) with the assertion of line 108. -/
def shiftDebug (c : Conf) (o : Nat) : P Nat := do
  let n ← arrs (Rca.length o)
  check (decide (n ≠ 0))
  shift c o

/-- `Array::pop` (`Array.h` 128-133) with the assertions of line 129 and of `pop_back`. -/
def popDebug (c : Conf) (o : Nat) : P Nat := do
  let n ← arrs (Rca.length o)
  check (decide (n ≠ 0))
  let ob ← arrs (getObj o)
  let t ← takeCell c o (sub64 ob.sublen 1)
  arrs (Rca.popBackDebug o)
  return t

/-- `operator>>(array, item)` (`Array.h` 144-148). -/
def popToDebug (c : Conf) (a h : Nat) : P Unit := do
  let t ← popDebug c a
  strs (Rca.moveAssign c.str h t)
  delete c t

/-- A call on the element itself, see `modify`. -/
def modifyDebug (c : Conf) (o i : Nat) (op : Nat → Op UInt8) : P (Out UInt8) := do
  getOwnCopy c o
  let h ← cell o i
  strs (Rca.runDebug c.str (op h))

/-- The code behind each call in a build with assertions.  Calls that are not mentioned have no assertion but that of
`COW`, which is `aboutToModifyDebug`. -/
def runDebug (c : Conf) : Call → P Ans
  | .str op => do let x ← strs (Rca.runDebug c.str op); return .s x
  | .arr (.popBack o) => do arrs (Rca.popBackDebug o); return .a .unit
  | .shift a => do let t ← shiftDebug c a; return .s (.obj t)
  | .pop a => do let t ← popDebug c a; return .s (.obj t)
  | .modify a i op => do let x ← modifyDebug c a i op; return .s x
  | k => run c k

/-! ## `split` -/

/-- The loop of `split` (`String.cpp` 207-220) with the assertions of lines 217 (`assert(++ref)`, which also counts) and 219
(`assert(it - delim.length() <= cend())`); returns `it` and `ref`. -/
def splitLoopDebug (c : Conf) (L : Libc) (o delim a cap : Nat) : Nat → Nat → Int → P (Nat × Int)
  | 0, _, _ => undef
  | fuel + 1, it, ref => do
    let n ← arrs (Rca.length a)
    if ¬ n < cap then return (it, ref)
    else do
      let v ← strs (contents o)
      let d ← strs (contents delim)
      let it := trimIt v d it
      if it ≥ v.length then return (it, ref)
      else do
        let pos ← strs (liftE (Str.find_ L v d it))
        let pos := if pos = npos then v.length - it else pos
        putPiece c o a it pos
        check (decide (ref + 1 ≠ 0))
        let it := it + pos + d.length
        check (decide (it - d.length ≤ v.length))
        splitLoopDebug c L o delim a cap fuel it (ref + 1)

/-- "Add on extra" (`String.cpp` 222-228) with the assertion of line 227; returns `ref`. -/
def splitRestDebug (c : Conf) (o delim a limit it : Nat) (ref : Int) : P Int := do
  if limit ≠ npos then do
    let v ← strs (contents o)
    let d ← strs (contents delim)
    putPiece c o a (trimIt v d it) (-1)
    check (decide (ref + 1 ≠ 0))
    return ref + 1
  else return ref

/-- `split(delim, limit)` (`String.cpp` 192-236): `ref` is `rcount()` at first (line 199), and the assertion of line 233 is
`ref == rcount()`.  The counter is converted to `size_t`; it is not negative. -/
def splitDebug (c : Conf) (L : Libc) (fuel o delim limit : Nat) : P Nat := do
  let n ← strs (Rca.length o)
  if n = 0 then arrs Rca.ctor
  else if limit = 1 then withString c (newCopy o) fun t => listCtor c [t]
  else do
    let ref ← strs (Rca.rcount o)
    withString c (strs (charCtor c.str 0 32)) fun _ =>
      buildArray c fun a => do
        let (it, ref) ← splitLoopDebug c L o delim a (sub64 limit 1) fuel 0 ref
        let ref ← splitRestDebug c o delim a limit it ref
        let now ← strs (Rca.rcount o)
        check (decide (ref = now))

/-- The code behind each act in a build with assertions. -/
def Act.runDebug (c : Conf) (L : Libc) (fuel : Nat) : Act → P End
  | .call k => do let x ← Nest.runDebug c k; return .called (.ret x)
  | .split s d limit => do let a ← splitDebug c L fuel s d limit; return .made a
  | .popTo a h => do popToDebug c a h; return .done
  | act => act.run c L fuel

/-- `Acts` (`TextSpec.lean`) for a build with assertions: none fails, whatever the program does within the contracts, and
the rest is as specified. -/
def ActsDebug (c : Conf) (L : Libc) (fuel : Nat) : Nat → World → Env UInt8 → Env Elem → Nat → Prop
  | 0, w, es, ea, lost => Sees w es ea lost
  | n + 1, w, es, ea, lost => Sees w es ea lost ∧ ∀ act : Act, act.Pre c (shared w.strs) (shared w.arrs) es ea →
      ∃ out w' es' ea', act.result (act.runDebug c L fuel w) = some (out, w') ∧
        act.Post c (shared w.strs) (shared w.arrs) es ea out es' ea' ∧
        ActsDebug c L fuel n w' es' ea' (lost + act.wasted ea out)

end Bdlib.Nest
