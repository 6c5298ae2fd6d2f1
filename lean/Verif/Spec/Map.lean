/-!
# Specification: finite maps

A map takes a key to its value, if it has one; keys that are equal are the same key.
-/

namespace Bdlib.Spec

section
variable {K V : Type} (eq : K → K → Bool)

/-- The map with `k` taken to `v`. -/
def mapSet (m : K → Option V) (k : K) (v : V) : K → Option V := fun x => if eq k x then some v else m x

/-- The map without `k`. -/
def mapDel (m : K → Option V) (k : K) : K → Option V := fun x => if eq k x then none else m x

/-- `l` has each entry of the map once. -/
structure Lists (m : K → Option V) (l : List (K × V)) : Prop where
  once : l.Pairwise fun p q => eq p.1 q.1 = false
  all : ∀ k v, m k = some v ↔ ∃ p ∈ l, eq p.1 k = true ∧ p.2 = v

/-- The map has `n` keys. -/
def Size (m : K → Option V) (n : Nat) : Prop := ∃ l, Lists eq m l ∧ l.length = n

end
end Bdlib.Spec
