import Verif.Prog.Model

/-!
# Model of `operator<<(std::ostream&, String)`

The stream: what was written, the field width, fill character and adjustment, the state bits, and how many more bytes
the device takes.  Formatted output is modelled as the C++ standard describes it ([ostream.formatted]).
-/

namespace Bdlib.Ios
open Bdlib Bdlib.Str Bdlib.Rca

structure OStream where
  out : Bytes
  width : Nat
  fill : UInt8
  left : Bool
  bad : Bool
  fail : Bool
  /-- how many more bytes the device accepts; `none`: any number -/
  room : Option Nat
  deriving DecidableEq

/-- `os.good()` (end-of-file is not set by output). -/
def OStream.good (os : OStream) : Bool := !os.bad && !os.fail

/-- The text in its field. -/
def OStream.padded (os : OStream) (t : Bytes) : Bytes :=
  if os.width ≤ t.length then t
  else if os.left then t ++ List.replicate (os.width - t.length) os.fill
  else List.replicate (os.width - t.length) os.fill ++ t

/-- Giving bytes to the device; if it does not take all, the bad bit is set. -/
def OStream.send (os : OStream) (t : Bytes) : OStream :=
  match os.room with
  | none => { os with out := os.out ++ t }
  | some r => if t.length ≤ r then { os with out := os.out ++ t, room := some (r - t.length) }
    else { os with out := os.out ++ t.take r, room := some 0, bad := true }

/-- Formatted output of a text ([ostream.formatted.reqmts], [string.io]): this is `os << std::string(t)`, and for one
character `os << c`. -/
def OStream.insert (os : OStream) (t : Bytes) : OStream :=
  if os.good then { os.send (os.padded t) with width := 0 } else { os with fail := true }

/-- `operator<<(std::ostream&, const String&)` (`String.h` 603-608): one character after the other. -/
def print (os : OStream) : Bytes → OStream
  | [] => os
  | c :: v => print (os.insert [c]) v

/-- `os << s` for a String object. -/
def printP (os : OStream) (o : Nat) : SM OStream := do return print os (← contents o)

/-- `os << std::move(s)`, and `os << f()` for a function that returns a String (`String.h` 610-615); `debug`: the
program is built without `NDEBUG`.  `none`: the assertion fails. -/
def printMoveP (debug : Bool) (os : OStream) (o : Nat) : SM (Option OStream) := do
  if debug ∧ (← isShared o) then return none
  else return some (print os (← contents o))

end Bdlib.Ios
