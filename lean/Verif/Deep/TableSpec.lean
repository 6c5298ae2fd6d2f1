import Verif.Deep.Spec
import Verif.Deep.Table

/-!
# Specification: tables whose keys and values are `String`s or arrays nested to any depth

A table takes what a key holds to an entry: an object that is the key and an object that is the value.  They are objects like
others: the key can be read, the value can be changed by any call.  Objects of different depths may have the same handle, so
an object is named by its depth and its handle.  This is `Spec/Tables.lean` with such names.
-/

namespace Bdlib.Deep
open Bdlib Bdlib.Spec

/-- An object of the program. -/
structure Name where
  depth : Nat
  handle : Nat
  deriving DecidableEq

/-- What is known about each object. -/
abbrev All : Type := (x : Name) → Slot (Ty x.depth)

/-- Change what is known about one object. -/
def All.upd (V : All) (x : Name) (y : Slot (Ty x.depth)) : All := fun z => if h : z = x then h ▸ y else V z

/-- The objects of depth `i`. -/
def At.env {i n : Nat} : At i n → Envs n → Env (Ty i)
  | .here, E => E.top
  | .up q, E => q.env E.1

/-- Is `i` one of the depths `0`, …, `n`? -/
def at? (i : Nat) : (n : Nat) → Option (At i n)
  | 0 => if h : i = 0 then some (h ▸ .here) else none
  | n + 1 => if h : i = n + 1 then some (h ▸ .here) else (at? i n).map .up

/-- What is known about each object; there are none of depth more than `n`. -/
def Envs.all {n : Nat} (E : Envs n) : All := fun x =>
  match at? x.depth n with
  | some q => q.env E x.handle
  | none => .dead

variable {i j n : Nat}

/-- The tables of a program: by what the key holds, the key and the value of each entry. -/
abbrev Maps (i : Nat) : Type := Nat → Slot (Ty i) → Option (Nat × Nat)

def Maps.put (m : Maps i) (t : Nat) (f : Slot (Ty i) → Option (Nat × Nat)) : Maps i := fun u => if u = t then f else m u

/-- `m t` with one entry more (or a new one for the key). -/
def Maps.add (m : Maps i) (t : Nat) (k : Slot (Ty i)) (e : Nat × Nat) : Maps i := m.put t fun x => if x = k then some e else m t x

/-- `m t` without an entry. -/
def Maps.del (m : Maps i) (t : Nat) (k : Slot (Ty i)) : Maps i := m.put t fun x => if x = k then none else m t x

/-- `x` is the key of an entry. -/
def KeyIn (m : Maps i) (x : Name) : Prop := ∃ t k a b, m t k = some (a, b) ∧ x = ⟨i, a⟩
/-- `x` is the value of an entry; values are of depth `j`. -/
def ValueIn (j : Nat) (m : Maps i) (x : Name) : Prop := ∃ t k a b, m t k = some (a, b) ∧ x = ⟨j, b⟩
/-- `x` is an object of a table. -/
def Owns (j : Nat) (f : Slot (Ty i) → Option (Nat × Nat)) (x : Name) : Prop :=
  ∃ k a b, f k = some (a, b) ∧ (x = ⟨i, a⟩ ∨ x = ⟨j, b⟩)

/-- Contract of a call: everything is known about keys; values are objects; the keys in tables are const, so they are not rvalues. -/
def TablePre (j : Nat) (V : All) (m : Maps i) : TCall → Prop
  | .insert _ rk rv k v => Known (V ⟨i, k⟩) ∧ V ⟨j, v⟩ ≠ .dead ∧ (rk = true → ¬ KeyIn m ⟨i, k⟩) ∧ (rv = true → ¬ KeyIn m ⟨j, v⟩)
  | .index _ rk k => Known (V ⟨i, k⟩) ∧ (rk = true → ¬ KeyIn m ⟨i, k⟩)
  | .remove _ k | .contains _ k | .getValue _ k | .find _ k => Known (V ⟨i, k⟩)
  | _ => True

/-- The objects of a table are gone, no other has changed. -/
def GoneWith (j : Nat) (f : Slot (Ty i) → Option (Nat × Nat)) (V V' : All) : Prop :=
  ∀ x, (Owns j f x → V' x = .dead) ∧ (¬ Owns j f x → V' x = V x)

/-- An object passed as an rvalue is moved from. -/
def took (p : Params) (V : All) (r : Bool) (x : Name) : All := if r then V.upd x (left p x.depth) else V

/-- A new entry for what `k` holds in table `t`: a new key `a` that holds it and a new value `b` that holds nothing. -/
def AddsEntry (p : Params) (j : Nat) (V : All) (m : Maps i) (t : Nat) (rk : Bool) (k a b : Nat) (V' : All) (m' : Maps i) : Prop :=
  V ⟨i, a⟩ = .dead ∧ V ⟨j, b⟩ = .dead ∧ (⟨i, a⟩ : Name) ≠ ⟨j, b⟩ ∧
    V' = ((took p V rk ⟨i, k⟩).upd ⟨i, a⟩ (V ⟨i, k⟩)).upd ⟨j, b⟩ (.val []) ∧ m' = m.add t (V ⟨i, k⟩) (a, b)

/-- `b = v`, or `b = std::move(v)`. -/
def Gives (p : Params) (j : Nat) (rv : Bool) (b v : Nat) (V V' : All) : Prop := V' = (took p V rv ⟨j, v⟩).upd ⟨j, b⟩ (V ⟨j, v⟩)

/-- No memory for an entry: the tables are as they were, and so are all objects, except perhaps for a key passed as an rvalue. -/
def AddsNone (p : Params) (V : All) (m : Maps i) (rk : Bool) (k : Nat) (out : TOutcome) (V' : All) (m' : Maps i) : Prop :=
  out = .exc .badAlloc ∧ m' = m ∧ (V' = V ∨ rk = true ∧ V' = V.upd ⟨i, k⟩ (left p i))

/-- No two entries have an object in common, nor has one twice the same. -/
structure Separate (j : Nat) (m : Maps i) : Prop where
  keyValue : ∀ {t u k l a b c d}, m t k = some (a, b) → m u l = some (c, d) → (⟨i, a⟩ : Name) ≠ ⟨j, d⟩
  keys : ∀ {t u k l a b d}, m t k = some (a, b) → m u l = some (a, d) → t = u ∧ k = l
  values : ∀ {t u k l a b c}, m t k = some (a, b) → m u l = some (c, b) → t = u ∧ k = l

/-- Effect of a call. -/
def TablePost (p : Params) (j : Nat) (V : All) (m : Maps i) (call : TCall) (out : TOutcome) (V' : All) (m' : Maps i) : Prop :=
  match call with
  | .insert t rk rv k v => match m t (V ⟨i, k⟩) with
    | some _ => out = .ret (.bool false) ∧ V' = V ∧ m' = m
    | none => (∃ a b V1, AddsEntry p j V m t rk k a b V1 m' ∧ Gives p j rv b v V1 V' ∧ out = .ret (.bool true)) ∨
        AddsNone p V m rk k out V' m'
  | .index t rk k => match m t (V ⟨i, k⟩) with
    | some (_, b) => out = .ret (.obj b) ∧ V' = V ∧ m' = m
    | none => (∃ a b, AddsEntry p j V m t rk k a b V' m' ∧ out = .ret (.obj b)) ∨ AddsNone p V m rk k out V' m'
  | .remove t k => match m t (V ⟨i, k⟩) with
    | some (a, b) => out = .ret (.bool true) ∧ V' = (V.upd ⟨j, b⟩ .dead).upd ⟨i, a⟩ .dead ∧ m' = m.del t (V ⟨i, k⟩)
    | none => out = .ret (.bool false) ∧ V' = V ∧ m' = m
  | .contains t k => out = .ret (.bool (m t (V ⟨i, k⟩)).isSome) ∧ V' = V ∧ m' = m
  | .getValue t k => ∃ o, V ⟨j, o⟩ = .dead ∧ out = .ret (.obj o) ∧ m' = m ∧
      V' = V.upd ⟨j, o⟩ (match m t (V ⟨i, k⟩) with | some (_, b) => V ⟨j, b⟩ | none => .val [])
  | .find t k => out = .ret (.entry (m t (V ⟨i, k⟩))) ∧ V' = V ∧ m' = m
  | .size t => ∃ l : List (Slot (Ty i)), l.Nodup ∧ (∀ k, k ∈ l ↔ (m t k).isSome) ∧ out = .ret (.nat l.length) ∧ V' = V ∧ m' = m
  | .isEmpty t => ∃ b, out = .ret (.bool b) ∧ (b = true ↔ ∀ k, m t k = none) ∧ V' = V ∧ m' = m
  | .iterate t => ∃ l, out = .ret (.list l) ∧ l.Nodup ∧ (∀ e, e ∈ l ↔ ∃ k, m t k = some e) ∧ V' = V ∧ m' = m
  | .clear t => out = .ret .unit ∧ GoneWith j (m t) V V' ∧ m' = m.put t fun _ => none
  | .copy t u => if t = u then out = .ret .unit ∧ V' = V ∧ m' = m else
      (∃ V1 f, out = .ret .unit ∧ GoneWith j (m t) V V1 ∧ m' = m.put t f ∧ (∀ k, (f k).isSome = (m u k).isSome) ∧
        (∀ k a b a' b', m u k = some (a, b) → f k = some (a', b') →
          V1 ⟨i, a'⟩ = .dead ∧ V1 ⟨j, b'⟩ = .dead ∧ V' ⟨i, a'⟩ = k ∧ V' ⟨j, b'⟩ = V ⟨j, b⟩) ∧
        (∀ x, ¬ Owns j f x → V' x = V1 x)) ∨
      (out = .exc .badAlloc ∧ ((V' = V ∧ m' = m) ∨ (GoneWith j (m t) V V' ∧ m' = m.put t fun _ => none)))
  | .move t u => if t = u then out = .ret .unit ∧ V' = V ∧ m' = m else
      out = .ret .unit ∧ GoneWith j (m t) V V' ∧ m' = (m.put t (m u)).put u fun _ => none
  | .swap t u => out = .ret .unit ∧ V' = V ∧ m' = (m.put t (m u)).put u (m t)

/-- The keys of all tables are as they were, and the values are still there. -/
def EntriesKept (j : Nat) (m : Maps i) (V V' : All) : Prop := (∀ x, KeyIn m x → V' x = V x) ∧ ∀ x, ValueIn j m x → V' x ≠ .dead

/-- How a call ended, and the tables and objects after it; `none`: undefined. -/
def tableResult {p : Params} : Res (Desk p n) TOut → Option (TOutcome × Desk p n)
  | .ok x d => some (.ret x, d)
  | .throw e d => some (.exc e, d)
  | .ub => none

/-- In this state the objects of the program show what `E` says, the tables are `m`, entries have no objects in common, and
whatever the next `r` calls on objects of any depth and on tables are, as long as they keep the contracts, they are defined, do
what is specified, and those on tables throw only if memory is refused. -/
def Serves (p : Params) (c : Shelf i j n) : Nat → Desk p n → Envs n → Maps i → Prop
  | 0, _, _, _ => True
  | r + 1, d, E, m => Sees p d.mem E ∧ Separate j m ∧
      (∀ t k a b, m t k = some (a, b) → Known k ∧ E.all ⟨i, a⟩ = k ∧ E.all ⟨j, b⟩ ≠ .dead) ∧
      (∀ call, Pre p (shares p d.mem) E call → ∃ out s E', result (run p call d.mem) = some (out, s) ∧
        Post p (shares p d.mem) E call out E' ∧ (EntriesKept j m E.all E'.all → Serves p c r { d with mem := s } E' m)) ∧
      (∀ call, TablePre j E.all m call → ∃ out d' E' m', tableResult (callD p c call d) = some (out, d') ∧
        TablePost p j E.all m call out E'.all m' ∧ (∀ e, out = .exc e → ∃ q, c.fits q = false) ∧ Serves p c r d' E' m')

end Bdlib.Deep
