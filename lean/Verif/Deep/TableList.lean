import Verif.Deep.Table

/-!
# `HashTable<K, V>` made of a list, for `String`s and arrays nested to any depth

`Prog/TableList.lean` with keys of depth `i` and values of depth `j`: `HashTable<K, V> t{{k1, v1}, {k2, v2}, …}`.  The pairs are copies of the objects, in
an array behind the `std::initializer_list`; the table copies them again; then the array goes.
-/

namespace Bdlib.Deep
open Bdlib Bdlib.Spec Bdlib.Hash
open Bdlib.Rca (putAt)

variable (p : Params) {i j n : Nat} (c : Shelf i j n)

/-- `std::unordered_map::insert(pair)`, for a pair that is not an rvalue: nothing if the key is there, or else a node with copies of the key and the value;
then the array of buckets grows if it has to. -/
def emplaceD (t : Nat) (e : Nat × Nat) : Pg (Desk p n) Unit := do
  let u ← getTab t
  let h ← onMem (c.key.lift (hashAt p i e.1))
  match ← onMem (scanD p c e.1 (u.bkt (h.toNat % u.n))) with
  | some _ => return ()
  | none =>
    ask c.fits
    let a ← onMem (c.key.lift ((tower p i).newCopy e.1))
    let b ← onMem (c.value.lift ((tower p j).newCopy e.2))
    match c.grow u.count u.n with
    | none => setTab t (putAt u (h.toNat % u.n) (a, b))
    | some r =>
      Pg.onThrow (ask c.fits) (onMem (dropD p c (a, b)))
      let u' ← onMem (refillD p c u.entries (UMap.empty r))
      setTab t (putAt u' (h.toNat % u'.n) (a, b))

/-- One after the other. -/
def emplaceAllD (t : Nat) : List (Nat × Nat) → Pg (Desk p n) Unit
  | [] => return ()
  | e :: l => do
    emplaceD p c t e
    emplaceAllD t l

/-- `HashTable(std::initializer_list)` (`HashTable.h` 72) and the constructor of `std::unordered_map`: an array of buckets as large as the list, then the
pairs; if memory runs out the nodes made so far are destroyed. -/
def listD (t : Nat) (es : List (Nat × Nat)) : Pg (Desk p n) Unit := do
  ask c.fits
  setTab t (UMap.empty es.length)
  Pg.onThrow (emplaceAllD p c t es) (clearD p c t)

/-- The pairs of the list: each a copy of a key and a copy of a value. -/
def pairsD : List (Nat × Nat) → Pg (tower p n).Mem (List (Nat × Nat))
  | [] => return []
  | e :: l => do
    let a ← c.key.lift ((tower p i).newCopy e.1)
    let b ← c.value.lift ((tower p j).newCopy e.2)
    let qs ← pairsD l
    return (a, b) :: qs

/-- `HashTable<K, V> t{{k, v}, …}`; the array of pairs is destroyed from its end. -/
def bracedD (t : Nat) (es : List (Nat × Nat)) : Pg (Desk p n) Unit := do
  let qs ← onMem (pairsD p c es)
  Pg.onThrow (listD p c t qs) (onMem (dropAllD p c qs.reverse))
  onMem (dropAllD p c qs.reverse)

end Bdlib.Deep
