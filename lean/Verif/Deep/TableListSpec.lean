import Verif.Deep.TableSpec

/-! # What a table made of a list has in it, for keys and values of any depth -/

namespace Bdlib.Deep
open Bdlib Bdlib.Spec

variable {i : Nat}

/-- The first pair whose key holds `k`. -/
def firstWith (V : All) (es : List (Nat × Nat)) (k : Slot (Ty i)) : Option (Nat × Nat) := es.find? fun e => decide (V ⟨i, e.1⟩ = k)

/-- The entries `f` are made of the pairs `es` of objects: one for each key, with the value of the first pair that has the key.  Their objects are new.
No other object has changed. -/
structure MadeOf (j : Nat) (V : All) (es : List (Nat × Nat)) (f : Slot (Ty i) → Option (Nat × Nat)) (V' : All) : Prop where
  keys : ∀ k, (f k).isSome = (firstWith V es k).isSome
  made : ∀ k a b, f k = some (a, b) → V ⟨i, a⟩ = .dead ∧ V ⟨j, b⟩ = .dead ∧ V' ⟨i, a⟩ = k ∧
    ∃ e, firstWith V es k = some e ∧ V' ⟨j, b⟩ = V ⟨j, e.2⟩
  rest : ∀ x, ¬ Owns j f x → V' x = V x

end Bdlib.Deep
