import Verif.Spec.Values

/-!
# Specification: tables of Strings

A program has Strings (`Env`) and tables.  A table takes a text to an entry: a String that is the key and a String that is
the value.  They are Strings like others: the key can be read, the value can be changed by any call on Strings.
-/

namespace Bdlib.Spec
open Bdlib

abbrev Text := List UInt8

/-- The tables of a program: the key and the value of each entry. -/
abbrev Tables := Nat → Text → Option (Nat × Nat)

def Tables.put (m : Tables) (i : Nat) (f : Text → Option (Nat × Nat)) : Tables := fun j => if j = i then f else m j

/-- `m i` with one entry more (or a new one for the key). -/
def Tables.add (m : Tables) (i : Nat) (k : Text) (p : Nat × Nat) : Tables := m.put i fun x => if x = k then some p else m i x

/-- `m i` without an entry. -/
def Tables.del (m : Tables) (i : Nat) (k : Text) : Tables := m.put i fun x => if x = k then none else m i x

/-- Calls on tables.  Strings are given by their handles.  `rk`, `rv`: is the key (the value) an rvalue? -/
inductive TCall
  | insert (i : Nat) (rk rv : Bool) (k v : Nat)
  | remove (i k : Nat)
  | contains (i k : Nat)
  | getValue (i k : Nat)
  | find (i k : Nat)
  /-- `table[key]`, which is a reference to the value -/
  | index (i : Nat) (rk : Bool) (k : Nat)
  | size (i : Nat)
  | isEmpty (i : Nat)
  /-- a loop over the entries -/
  | iterate (i : Nat)
  /-- `clear()`, or the end of the table -/
  | clear (i : Nat)
  /-- `i = j`, or the copy constructor -/
  | copy (i j : Nat)
  /-- `i = std::move(j)`, or the move constructor -/
  | move (i j : Nat)
  | swap (i j : Nat)

inductive TOut
  | unit
  | bool (b : Bool)
  /-- a String -/
  | obj (o : Nat)
  /-- an iterator; `none` is `end()` -/
  | entry (p : Option (Nat × Nat))
  | nat (n : Nat)
  | list (l : List (Nat × Nat))
deriving DecidableEq

/-- How a call ends. -/
inductive TOutcome
  | ret (x : TOut)
  | exc (e : Exc)
deriving DecidableEq

/-- `o` is the key of an entry. -/
def IsKey (m : Tables) (o : Nat) : Prop := ∃ i k b, m i k = some (o, b)
/-- `o` is the value of an entry. -/
def IsValue (m : Tables) (o : Nat) : Prop := ∃ i k a, m i k = some (a, o)
/-- `o` is a String of table `i`. -/
def Of (f : Text → Option (Nat × Nat)) (o : Nat) : Prop := ∃ k a b, f k = some (a, b) ∧ (o = a ∨ o = b)

/-- Contract of a call: keys are Strings with a value; values are Strings; the keys in tables are const, so they are not rvalues. -/
def TPre (env : Env UInt8) (m : Tables) : TCall → Prop
  | .insert _ rk rv k v => env.Has k ∧ env.Live v ∧ (rk = true → ¬ IsKey m k) ∧ (rv = true → ¬ IsKey m v)
  | .index _ rk k => env.Has k ∧ (rk = true → ¬ IsKey m k)
  | .remove _ k | .contains _ k | .getValue _ k | .find _ k => env.Has k
  | _ => True

/-- The Strings of a table are gone, no other has changed. -/
def Gone (f : Text → Option (Nat × Nat)) (env env' : Env UInt8) : Prop := ∀ o, (Of f o → env' o = .dead) ∧ (¬ Of f o → env' o = env o)

/-- A String passed as an rvalue is moved from. -/
def taken (cfg : Cfg UInt8) (env : Env UInt8) (r : Bool) (o : Nat) : Env UInt8 := if r then env.upd o (movedSlot cfg) else env

/-- A new entry for the text of `k` in table `i`: new Strings `a` and `b` with the text and no text. -/
def NewEntry (cfg : Cfg UInt8) (env : Env UInt8) (m : Tables) (i : Nat) (rk : Bool) (k a b : Nat) (env' : Env UInt8) (m' : Tables) : Prop :=
  env a = .dead ∧ env b = .dead ∧ a ≠ b ∧ env' = ((taken cfg env rk k).upd a (.val (env.get k))).upd b (.val []) ∧
    m' = m.add i (env.get k) (a, b)

/-- `b = v`, or `b = std::move(v)`. -/
def Assigned (cfg : Cfg UInt8) (rv : Bool) (b v : Nat) (env env' : Env UInt8) : Prop := env' = (taken cfg env rv v).upd b (env v)

/-- No memory for an entry: the tables are as they were, and so are all Strings, except perhaps for a key passed as an rvalue. -/
def NoEntry (cfg : Cfg UInt8) (env : Env UInt8) (m : Tables) (rk : Bool) (k : Nat) (out : TOutcome) (env' : Env UInt8) (m' : Tables) : Prop :=
  out = .exc .badAlloc ∧ m' = m ∧ (env' = env ∨ rk = true ∧ env' = env.upd k (movedSlot cfg))

/-- No two entries have a String in common, nor has one twice the same. -/
structure Apart (m : Tables) : Prop where
  keyValue : ∀ {i j k l a b c d}, m i k = some (a, b) → m j l = some (c, d) → a ≠ d
  keys : ∀ {i j k l a b d}, m i k = some (a, b) → m j l = some (a, d) → i = j ∧ k = l
  values : ∀ {i j k l a b c}, m i k = some (a, b) → m j l = some (c, b) → i = j ∧ k = l

/-- Effect of a call. -/
def TPost (cfg : Cfg UInt8) (env : Env UInt8) (m : Tables) (call : TCall) (out : TOutcome) (env' : Env UInt8) (m' : Tables) : Prop :=
  match call with
  | .insert i rk rv k v => match m i (env.get k) with
    | some _ => out = .ret (.bool false) ∧ env' = env ∧ m' = m
    | none => (∃ a b env1, NewEntry cfg env m i rk k a b env1 m' ∧ Assigned cfg rv b v env1 env' ∧ out = .ret (.bool true)) ∨
        NoEntry cfg env m rk k out env' m'
  | .index i rk k => match m i (env.get k) with
    | some (_, b) => out = .ret (.obj b) ∧ env' = env ∧ m' = m
    | none => (∃ a b, NewEntry cfg env m i rk k a b env' m' ∧ out = .ret (.obj b)) ∨ NoEntry cfg env m rk k out env' m'
  | .remove i k => match m i (env.get k) with
    | some (a, b) => out = .ret (.bool true) ∧ env' = (env.upd b .dead).upd a .dead ∧ m' = m.del i (env.get k)
    | none => out = .ret (.bool false) ∧ env' = env ∧ m' = m
  | .contains i k => out = .ret (.bool (m i (env.get k)).isSome) ∧ env' = env ∧ m' = m
  | .getValue i k => ∃ o, env o = .dead ∧ out = .ret (.obj o) ∧ m' = m ∧
      env' = env.upd o (match m i (env.get k) with | some (_, b) => env b | none => .val [])
  | .find i k => out = .ret (.entry (m i (env.get k))) ∧ env' = env ∧ m' = m
  | .size i => ∃ l : List Text, l.Nodup ∧ (∀ k, k ∈ l ↔ (m i k).isSome) ∧ out = .ret (.nat l.length) ∧ env' = env ∧ m' = m
  | .isEmpty i => ∃ b, out = .ret (.bool b) ∧ (b = true ↔ ∀ k, m i k = none) ∧ env' = env ∧ m' = m
  | .iterate i => ∃ l, out = .ret (.list l) ∧ l.Nodup ∧ (∀ p, p ∈ l ↔ ∃ k, m i k = some p) ∧ env' = env ∧ m' = m
  | .clear i => out = .ret .unit ∧ Gone (m i) env env' ∧ m' = m.put i fun _ => none
  | .copy i j => if i = j then out = .ret .unit ∧ env' = env ∧ m' = m else
      (∃ env1 f, out = .ret .unit ∧ Gone (m i) env env1 ∧ m' = m.put i f ∧ (∀ k, (f k).isSome = (m j k).isSome) ∧
        (∀ k a b a' b', m j k = some (a, b) → f k = some (a', b') → env1 a' = .dead ∧ env1 b' = .dead ∧ env' a' = .val k ∧ env' b' = env b) ∧
        (∀ o, ¬ Of f o → env' o = env1 o)) ∨
      (out = .exc .badAlloc ∧ ((env' = env ∧ m' = m) ∨ (Gone (m i) env env' ∧ m' = m.put i fun _ => none)))
  | .move i j => if i = j then out = .ret .unit ∧ env' = env ∧ m' = m else
      out = .ret .unit ∧ Gone (m i) env env' ∧ m' = (m.put i (m j)).put j fun _ => none
  | .swap i j => out = .ret .unit ∧ env' = env ∧ m' = (m.put i (m j)).put j (m i)

end Bdlib.Spec
