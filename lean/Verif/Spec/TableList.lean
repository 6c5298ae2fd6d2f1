import Verif.Spec.Tables

/-! # What a table made of a list has in it -/

namespace Bdlib.Spec
open Bdlib

/-- The first pair with the key `k`. -/
def firstOf (env : Env UInt8) (ps : List (Nat × Nat)) (k : Text) : Option (Nat × Nat) := ps.find? fun p => decide (env.get p.1 = k)

/-- The entries `f` are made of the pairs `ps` of Strings: one for each key, with the value of the first pair that has the key.  Their Strings are new.
No other String has changed. -/
structure MadeOf (env : Env UInt8) (ps : List (Nat × Nat)) (f : Text → Option (Nat × Nat)) (env' : Env UInt8) : Prop where
  keys : ∀ k, (f k).isSome = (firstOf env ps k).isSome
  made : ∀ k a b, f k = some (a, b) → env a = .dead ∧ env b = .dead ∧ env' a = .val k ∧ ∃ p, firstOf env ps k = some p ∧ env' b = env p.2
  rest : ∀ o, ¬ Of f o → env' o = env o

end Bdlib.Spec
