import Verif.Deep.Command
import Verif.Deep.ScriptSpec
import Verif.Deep.TableSpec

/-!
# Specification: commands whose functions take and return live objects
-/

namespace Bdlib.Deep
open Bdlib Bdlib.Spec Bdlib.Rca Bdlib.Tcl

variable {n : Nat}

/-- A function is within contract: whatever its calls do within their specification, each call it makes is one it may make, and at the
end what it returns and what all objects hold satisfy `Q`, or what it throws and what they hold satisfies `X`. -/
def Body.Meets (p : Params) : Body n → Envs n → (Nat → All → Prop) → (Exc → All → Prop) → Prop
  | .ret r, E, Q, _ => Q r E.all
  | .raise e, E, _, X => X e E.all
  | .call c k, E, Q, X => ∀ sh, Pre p sh E c ∧ ∀ out E', Post p sh E c out E' → (k out).Meets p E' Q X

/-- What parameter `i` holds: what the word of the script says, or nothing if there is no such word. -/
def given (C : Library) (d : Nat) (objv : List Tcl.Obj) (i : Nat) : Slot (Ty d) :=
  match objv[i + 1]? with
  | some o => made C d o
  | none => .val []

/-- An order of the arguments: each occurs once. -/
def Order (ks : List (Kind n)) (o : List Nat) : Prop := o.Nodup ∧ ∀ i, i ∈ o ↔ i < ks.length

/-- `x` is one of the objects `h 0`, `h 1`, … of the types `ks`. -/
def Among (ks : List (Kind n)) (h : Nat → Nat) (x : Name) : Prop := ∃ i k, ks[i]? = some k ∧ x = ⟨k.depth, h i⟩

/-- The objects in `S` are gone, no other has changed. -/
def Removed (S : Name → Prop) (V V' : All) : Prop := ∀ x, (S x → V' x = .dead) ∧ (¬ S x → V' x = V x)

/-- When the function begins there are new objects: its parameters `us`, which hold what the script gave, and the temporaries `ts`
they were moved from.  The others hold what they held. -/
structure Begun (p : Params) (C : Library) (ks : List (Kind n)) (objv : List Tcl.Obj) (V V1 : All) (ts us : Nat → Nat) : Prop where
  fresh : ∀ x, Among ks us x ∨ Among ks ts x → V x = .dead
  value : ∀ i k, ks[i]? = some k → V1 ⟨k.depth, us i⟩ = given C k.depth objv i
  temp : ∀ i k, ks[i]? = some k → V1 ⟨k.depth, ts i⟩ = left p k.depth
  apart : ∀ i j k l, ks[i]? = some k → ks[j]? = some l → i ≠ j → (⟨k.depth, us i⟩ : Name) ≠ ⟨l.depth, us j⟩ ∧ (⟨k.depth, ts i⟩ : Name) ≠ ⟨l.depth, ts j⟩
  differ : ∀ x, ¬ (Among ks us x ∧ Among ks ts x)
  rest : ∀ x, ¬ Among ks us x → ¬ Among ks ts x → V1 x = V x

/-- The function has not destroyed its parameters, nor the temporaries. -/
def Spared (ks : List (Kind n)) (ts us : Nat → Nat) (V : All) : Prop := ∀ x, Among ks us x ∨ Among ks ts x → V x ≠ .dead

/-- What a function returns: a new object, of which everything is known and which Tcl can take.  `Q` speaks of what it holds and of the
objects of the program once the call is over. -/
def Returns (ks : List (Kind n)) (res : Kind n) (ts us : Nat → Nat) (Q : Slot (Ty res.depth) → All → Prop) (r : Nat) (V : All) : Prop :=
  Spared ks ts us V ∧ ¬ Among ks us ⟨res.depth, r⟩ ∧ ¬ Among ks ts ⟨res.depth, r⟩ ∧ Known (V ⟨res.depth, r⟩) ∧ Short (V ⟨res.depth, r⟩) ∧
    ∀ V', Removed (fun x => x = ⟨res.depth, r⟩ ∨ Among ks us x ∨ Among ks ts x) V V' → Q (V ⟨res.depth, r⟩) V'

/-- The same without a result. -/
def Leaves (ks : List (Kind n)) (ts us : Nat → Nat) (Q : All → Prop) (V : All) : Prop :=
  Spared ks ts us V ∧ ∀ V', Removed (fun x => Among ks us x ∨ Among ks ts x) V V' → Q V'

end Bdlib.Deep
