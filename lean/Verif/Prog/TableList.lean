import Verif.Prog.Table

/-!
# `HashTable<String, String>` made of a list

`HashTable<String, String> t{{k1, v1}, {k2, v2}, …}`: the pairs are copies of the Strings, in an array behind the
`std::initializer_list`; the table copies them again; then the array goes.
-/

namespace Bdlib.Rca
open Bdlib Bdlib.Spec Bdlib.Str Bdlib.Hash

variable (cfg : Cfg UInt8) (lib : Lib)

/-- `std::unordered_map::insert(pair)`, for a pair that is not an rvalue: nothing if the key is there, or else a node with copies of the key and the value;
then the array of buckets grows if it has to. -/
def emplaceT (i : Nat) (p : Nat × Nat) : TM Unit := do
  let t ← TM.get i
  let h ← TM.lift (hash cfg p.1)
  match ← TM.lift (scanP lib p.1 (t.bkt (h.toNat % t.n))) with
  | some _ => return ()
  | none =>
    TM.alloc lib.fits
    let a ← TM.lift (copyCtor p.1)
    let b ← TM.lift (copyCtor p.2)
    match lib.grow t.count t.n with
    | none => TM.set i (putAt t (h.toNat % t.n) (a, b))
    | some n =>
      TM.onThrow (TM.alloc lib.fits) (TM.lift do destroy cfg b; destroy cfg a)
      let u ← TM.lift (refillP cfg t.entries (UMap.empty n))
      TM.set i (putAt u (h.toNat % u.n) (a, b))

/-- One after the other. -/
def emplaceAllT (i : Nat) : List (Nat × Nat) → TM Unit
  | [] => return ()
  | p :: l => do
    emplaceT cfg lib i p
    emplaceAllT i l

/-- `HashTable(std::initializer_list)` (`HashTable.h` 72) and the constructor of `std::unordered_map`: an array of buckets as large as the list, then the
pairs; if memory runs out the nodes made so far are destroyed. -/
def listT (i : Nat) (ps : List (Nat × Nat)) : TM Unit := do
  TM.alloc lib.fits
  TM.set i (UMap.empty ps.length)
  TM.onThrow (emplaceAllT cfg lib i ps) (clearT cfg i)

/-- The pairs of the list: each a copy of a key and a copy of a value. -/
def pairsP : List (Nat × Nat) → SM (List (Nat × Nat))
  | [] => return []
  | p :: l => do
    let a ← copyCtor p.1
    let b ← copyCtor p.2
    let qs ← pairsP l
    return (a, b) :: qs

/-- `HashTable<String, String> i{{k, v}, …}`; the array of pairs is destroyed from its end. -/
def bracedT (i : Nat) (ps : List (Nat × Nat)) : TM Unit := do
  let qs ← TM.lift (pairsP ps)
  TM.onThrow (listT cfg lib i qs) (TM.lift (dropAllP cfg qs.reverse))
  TM.lift (dropAllP cfg qs.reverse)

end Bdlib.Rca
