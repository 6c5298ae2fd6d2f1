import Verif.Conc.Model

/-!
# What each thread should see

Every thread's objects behave as plain values of its own: no call of another thread changes them.
-/

namespace Bdlib.Conc
open Bdlib

variable {T : Type}

/-- Value of object `o` of thread `t`. -/
abbrev Vals (T : Type) := Nat → Nat → Option (List T)

def Vals.upd (v : Vals T) (t o : Nat) (x : Option (List T)) : Vals T :=
  fun t' o' => if t' = t ∧ o' = o then x else v t' o'

/-- Effect of starting a call on the values (`go` continues a call and has none of its own). -/
def effect (v : Vals T) (t : Nat) : Act T → Vals T
  | .make o xs => v.upd t o (some xs)
  | .dup o t' o' => v.upd t' o' (v t o)
  | .move o t' o' => (v.upd t o none).upd t' o' (v t o)
  | .window o off len => v.upd t o ((v t o).map fun xs => (xs.drop off).take len)
  | .get _ => v
  | .put o f => v.upd t o ((v t o).map f)
  | .clear o => v.upd t o (some [])
  | .drop o => v.upd t o none
  | .assign o o' => v.upd t o (v t o')
  | .go => v

/-- What a call lets the thread see. -/
def sees (v : Vals T) (t : Nat) : Act T → Option (List T)
  | .get o => v t o
  | _ => none

end Bdlib.Conc
