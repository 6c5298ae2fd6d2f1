/-!
# Arrays of a class whose constructors and assignments may throw: what is specified

Arrays are lists of elements; they are numbered as they are made, and one that is gone is `none`.
-/

namespace Bdlib.Spec.Elems

variable {V : Type}

abbrev Arrays (V : Type) := List (Option (List V))

inductive Call (V : Type)
  | new
  | list (vs : List V)
  | copy (p : Nat)
  | assign (o p : Nat)
  | destroy (o : Nat)
  | slice (o start len : Nat)
  | clear (o : Nat)
  | popBack (o : Nat)
  | write (o i : Nat) (v : V)
  | assignList (o : Nat) (vs : List V)
  | insert (o pos : Nat) (v : V)
  | append (o : Nat) (v : V)
  | insertArr (o pos p : Nat)
  | replace (o pos : Nat) (v : V)
  | replaceArr (o pos p : Nat)
  | resize (o n : Nat)
  | insertMoved (o pos : Nat) (v : V)
  | shift (o : Nat)
  | pop (o : Nat)
  | swap (o p : Nat)
  | assignTemp (o p : Nat)
  | insertRange (o pos : Nat) (vs : List V)
  | insertTemp (o pos p : Nat)

/-- Array `o` has the elements `l`. -/
def Is (env : Arrays V) (o : Nat) (l : List V) : Prop := env[o]? = some (some l)

/-- What the program must see to: the arrays are there; indices are in range; the element behind the last is not replaced; an array is not
inserted into itself, and none at the beginning of a shorter one that is not empty. -/
def Pre (env : Arrays V) : Call V → Prop
  | .new => True
  | .list _ => True
  | .copy p => ∃ l, Is env p l
  | .assign o p => (∃ l, Is env o l) ∧ ∃ l, Is env p l
  | .destroy o => ∃ l, Is env o l
  | .slice o start len => ∃ l, Is env o l ∧ start < l.length ∧ start + len ≤ l.length
  | .clear o => ∃ l, Is env o l
  | .popBack o => ∃ l, Is env o l ∧ l ≠ []
  | .write o i _ => ∃ l, Is env o l ∧ i < l.length
  | .assignList o _ => ∃ l, Is env o l
  | .insert o _ _ => ∃ l, Is env o l
  | .append o _ => ∃ l, Is env o l
  | .insertArr o pos p => o ≠ p ∧ ∃ l m, Is env o l ∧ Is env p m ∧ (pos ≠ 0 ∨ l = [] ∨ m.length ≤ l.length)
  | .replace o pos _ => ∃ l, Is env o l ∧ pos ≠ l.length
  | .replaceArr o _ p => o ≠ p ∧ (∃ l, Is env o l) ∧ ∃ m, Is env p m
  | .resize o _ => ∃ l, Is env o l
  | .insertMoved o _ _ => ∃ l, Is env o l
  | .shift o => ∃ l, Is env o l ∧ l ≠ []
  | .pop o => ∃ l, Is env o l ∧ l ≠ []
  | .swap o p => (∃ l, Is env o l) ∧ ∃ m, Is env p m
  | .assignTemp o p => o ≠ p ∧ (∃ l, Is env o l) ∧ ∃ m, Is env p m
  | .insertRange o pos _ => ∃ l, Is env o l ∧ pos ≤ l.length
  | .insertTemp o pos p => o ≠ p ∧ ∃ l m, Is env o l ∧ Is env p m ∧ pos ≤ l.length ∧ (pos ≠ 0 ∨ l = [] ∨ m.length ≤ l.length)

/-- What a call that returns does.  `resize` to a greater length leaves open what the elements behind the old ones are. -/
def Ret (env : Arrays V) (env' : Arrays V) : Call V → Prop
  | .new => env' = env ++ [some []]
  | .list vs => env' = env ++ [some vs]
  | .copy p => ∃ l, Is env p l ∧ env' = env ++ [some l]
  | .assign o p => ∃ l, Is env p l ∧ env' = env.set o (some l)
  | .destroy o => env' = env.set o none
  | .slice o start len => ∃ l, Is env o l ∧ env' = env.set o (some ((l.drop start).take len))
  | .clear o => env' = env.set o (some [])
  | .popBack o => ∃ l, Is env o l ∧ env' = env.set o (some l.dropLast)
  | .write o i v => ∃ l, Is env o l ∧ env' = env.set o (some (l.set i v))
  | .assignList o vs => env' = env.set o (some vs)
  | .insert o pos v => ∃ l, Is env o l ∧ pos ≤ l.length ∧ env' = env.set o (some (l.take pos ++ v :: l.drop pos))
  | .append o v => ∃ l, Is env o l ∧ env' = env.set o (some (l ++ [v]))
  | .insertArr o pos p => ∃ l m, Is env o l ∧ Is env p m ∧ pos ≤ l.length ∧ env' = env.set o (some (l.take pos ++ m ++ l.drop pos))
  | .replace o pos v => ∃ l, Is env o l ∧ pos < l.length ∧ env' = env.set o (some (l.set pos v))
  | .replaceArr o pos p => ∃ l m, Is env o l ∧ Is env p m ∧ pos ≤ l.length ∧ env' = env.set o (some (l.take pos ++ m ++ l.drop (pos + m.length)))
  | .resize o n => ∃ l t, Is env o l ∧ t.length = n - l.length ∧ env' = env.set o (some (l.take n ++ t))
  | .insertMoved o pos v => ∃ l, Is env o l ∧ pos ≤ l.length ∧ env' = env.set o (some (l.take pos ++ v :: l.drop pos))
  | .shift o => ∃ l, Is env o l ∧ env' = env.set o (some l.tail)
  | .pop o => ∃ l, Is env o l ∧ env' = env.set o (some l.dropLast)
  | .swap o p => ∃ l m, Is env o l ∧ Is env p m ∧ env' = (env.set o (some m)).set p (some l)
  | .assignTemp o p => ∃ m, Is env p m ∧ env' = (env.set o (some m)).set p none
  | .insertRange o pos vs => ∃ l, Is env o l ∧ env' = env.set o (some (l.take pos ++ vs ++ l.drop pos))
  | .insertTemp o pos p => ∃ l m, Is env o l ∧ Is env p m ∧ env' = (env.set o (some (l.take pos ++ m ++ l.drop pos))).set p none

/-- What a call leaves that throws what an element or the memory threw: only its own array is concerned; that is as long as
before, or empty.  Elements are inserted one by one from iterators, some may be there already.  An array that goes with the call is gone.  The calls that are not
here throw nothing. -/
def Threw (env : Arrays V) (env' : Arrays V) : Call V → Prop
  | .list _ => env' = env ++ [none]
  | .assignList o _ => env' = env.set o (some [])
  | .write o _ _ | .insert o _ _ | .append o _ | .insertArr o _ _ | .replace o _ _ | .replaceArr o _ _ | .resize o _ | .insertMoved o _ _ |
  .shift o | .pop o =>
    ∃ l l', Is env o l ∧ env' = env.set o (some l') ∧ (l'.length = l.length ∨ l' = [])
  | .insertRange o _ vs => ∃ l l', Is env o l ∧ env' = env.set o (some l') ∧ (l.length ≤ l'.length ∧ l'.length ≤ l.length + vs.length ∨ l' = [])
  | .insertTemp o _ p => ∃ l l', Is env o l ∧ env' = (env.set o (some l')).set p none ∧ (l'.length = l.length ∨ l' = [])
  | _ => False

/-- The calls that throw `std::out_of_range`. -/
def Range (env : Arrays V) : Call V → Prop
  | .insert o pos _ => ∃ l, Is env o l ∧ l.length < pos
  | .insertMoved o pos _ => ∃ l, Is env o l ∧ l.length < pos
  | .insertArr o pos _ => ∃ l, Is env o l ∧ l.length < pos
  | .replace o pos _ => ∃ l, Is env o l ∧ l.length < pos
  | .replaceArr o pos _ => ∃ l, Is env o l ∧ l.length < pos
  | _ => False

/-- The array that a call writes to. -/
def target : Call V → Option Nat
  | .write o _ _ | .insert o _ _ | .append o _ | .insertArr o _ _ | .replace o _ _ | .replaceArr o _ _ | .resize o _ | .assignList o _ |
  .insertMoved o _ _ | .shift o | .pop o | .insertRange o _ _ | .insertTemp o _ _ => some o
  | _ => none

/-- What a call that throws keeps if nobody shares the elements and moving does not throw: all elements before those
written to, and as many as there were.  A list that is assigned replaces them first.
`shift` and `pop` throw nothing then. -/
def Kept (env : Arrays V) (env' : Arrays V) : Call V → Prop
  | .append _ _ | .resize _ _ => env' = env
  | .write o i _ | .replace o i _ | .insert o i _ | .insertMoved o i _ | .insertArr o i _ | .replaceArr o i _ =>
    ∃ l l', Is env o l ∧ env' = env.set o (some l') ∧ l'.length = l.length ∧ l'.take i = l.take i
  | .insertRange o i _ => ∃ l l', Is env o l ∧ env' = env.set o (some l') ∧ l.length ≤ l'.length ∧ l'.take i = l.take i
  | .insertTemp o i p => ∃ l l', Is env o l ∧ env' = (env.set o (some l')).set p none ∧ l'.length = l.length ∧ l'.take i = l.take i
  | .list _ => env' = env ++ [none]
  | .assignList o _ => env' = env.set o (some [])
  | _ => False

end Bdlib.Spec.Elems
