import Verif.Prog.Plain
import Verif.Spec.Values

/-!
# What code does to a list

`effect` is what the code returns and what it leaves of a plain list of elements.
-/

namespace Bdlib.Rca
open Bdlib Bdlib.Spec

variable {T : Type}

/-- The code stays between its iterators. -/
def Work.Ok : Work T → List T → Prop
  | .done _, _ | .raise _, _ => True
  | .load i k, l => ∃ x, l[i]? = some x ∧ (k x).Ok l
  | .store i x k, l => i < l.length ∧ k.Ok (l.set i x)

def Work.effect : Work T → List T → Outcome T × List T
  | .done r, l => (.ret (.num r), l)
  | .raise e, l => (.exc e, l)
  | .load i k, l => match l[i]? with
    | some x => (k x).effect l
    | none => (.exc .outOfRange, l)
  | .store i x k, l => k.effect (l.set i x)

end Bdlib.Rca
