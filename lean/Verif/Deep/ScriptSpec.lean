import Verif.Deep.Spec
import Verif.Deep.Script

/-!
# Specification: values of scripts as objects, for ever
-/

namespace Bdlib.Deep
open Bdlib Bdlib.Spec Bdlib.Rca Bdlib.Tcl

/-- What an object of depth `n` holds that was made from a value of a script: the text; or what was made from the
elements of the list the value is, and nothing if it is no list. -/
def made (C : Library) : (n : Nat) → Tcl.Obj → Slot (Ty n)
  | 0, o => (.val (C.text o) : Slot UInt8)
  | n + 1, o => match C.elements o with
    | some os => (.val (os.map (made C n)) : Slot (Slot (Ty n)))
    | none => (.val [] : Slot (Slot (Ty n)))

/-- The value of a script an object is: a text, or the list of what its elements are. -/
def valueOf : {n : Nat} → Slot (Ty n) → Tcl.Obj
  | 0, .val v => .str (show List UInt8 from v)
  | _ + 1, .val xs => .list (List.map valueOf xs)
  | _, _ => .str []

/-- Every string in it is short enough for Tcl. -/
def Short : {n : Nat} → Slot (Ty n) → Prop
  | 0, .val v => List.length v < 2 ^ 31 - 1
  | _ + 1, .val xs => ∀ x ∈ xs, Short x
  | _, _ => True

/-- Whatever calls are made from states in `I`, each is defined, has the effect the specification says and ends in a
state in `I`. -/
def Acts (p : Params) {n : Nat} (I : Mem p n → Envs n → Prop) : Prop :=
  ∀ w E, I w E → ∀ call, Pre p (shares p w) E call →
    ∃ out w' E', result (run p call w) = some (out, w') ∧ Post p (shares p w) E call out E' ∧ I w' E'

/-- Now and for ever, whichever calls the program makes: every call is defined and has the effect the specification
says, and everything can be observed as specified. -/
def Lives (p : Params) {n : Nat} (w : Mem p n) (E : Envs n) : Prop :=
  ∃ I : Mem p n → Envs n → Prop, I w E ∧ (∀ w E, I w E → Sees p w E) ∧ Acts p I

/-- Change what is known about one object that is `d` less than the greatest depth. -/
def Envs.updAt {n : Nat} : (d : Nat) → Envs (n + d) → Nat → Slot (Ty n) → Envs (n + d)
  | 0, E, t, y => Envs.upd (n := n) E t y
  | d + 1, E, t, y => (Envs.updAt d (Prod.fst E) t y, Prod.snd E)

/-- What is known about the objects that are `d` less than the greatest depth. -/
def Envs.topAt {n : Nat} : (d : Nat) → Envs (n + d) → Env (Ty n)
  | 0, E => Envs.top (n := n) E
  | d + 1, E => Envs.topAt d (Prod.fst E)

end Bdlib.Deep
