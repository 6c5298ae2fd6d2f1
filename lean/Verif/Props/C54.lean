import Verif.Props.C53
import Verif.Props.C04

/-!
# C54: Strings (and Arrays) as hash keys

What a table uses of a key object are its elements (`==`) and the answer of its `hash()`.  A key is any object
in any state that a history of in-contract calls leads to (`Reach`); the copy in the table stays as it is
whatever is done to other objects (`c01_history_partial`).  Partial: keys written to through `front()`,
`back()` or `read()` are not in contract, see `c54_refuted_front`.
-/

namespace Bdlib.Hash
open Bdlib Bdlib.Rca Bdlib.Spec

/-- What a table sees of a key. -/
structure Key (T : Type) where
  elems : List T
  hash : Nat

variable {T V : Type} [DecidableEq T]

/-- Object `o` in state `s` as a key. -/
def KeyOf (cfg : Cfg T) (s : St T) (o : Nat) (k : Key T) : Prop := Shows s o k.elems ∧ HashIs cfg s o k.hash

/-- Keys that in-contract histories produce. -/
def Proper (cfg : Cfg T) (k : Key T) : Prop :=
  ∃ s env o v, Reach cfg s env ∧ env o = .val v ∧ KeyOf cfg s o k

/-- Tables with any such keys. -/
def keyTypes (P : Key T → Prop) (dflt : V) (grow : Nat → Nat → Option Nat) : Types { k // P k } V :=
  ⟨fun a b => a.1.elems = b.1.elems, fun k => k.1.hash, dflt, grow⟩

variable {cfg : Cfg T}

theorem shows_unique {s : St T} {o : Nat} {v w : List T} (h1 : Shows s o v) (h2 : Shows s o w) : v = w := by
  have hl : v.length = w.length := by
    have := h1.1.symm.trans h2.1
    simpa using this
  apply List.ext_getElem? fun i => ?_
  by_cases hi : i < v.length
  · have := (h1.2 i hi).symm.trans (h2.2 i (hl ▸ hi))
    simpa using this
  · rw [List.getElem?_eq_none (by omega), List.getElem?_eq_none (by omega)]

theorem proper_hash (hv : cfg.Valid) (hp : cfg.Physical) {k : Key T} (hk : Proper cfg k) :
    k.hash = djb (fun x => (cfg.hasher x).toNat) k.elems := by
  obtain ⟨s, env, o, v, hr, ho, h1, t, h2⟩ := hk
  obtain ⟨t', h3⟩ := hash_of_reach hv hp hr ho
  rw [shows_unique h1 (hr.shows hv hp ho)]
  rw [h2] at h3
  simp only [Res.ok.injEq, Out.hash.injEq] at h3
  exact h3.1

/-- Equal keys hash equally: the table's requirements are met. -/
theorem c54_lawful_partial (hv : cfg.Valid) (hp : cfg.Physical) (dflt : V) (grow : Nat → Nat → Option Nat) :
    (keyTypes (Proper cfg) dflt grow).Lawful where
  refl := by simp [keyTypes]
  symm := by simp only [keyTypes, decide_eq_true_iff]; intro a b _ _ h; exact h.symm
  trans := by simp only [keyTypes, decide_eq_true_iff]; intro a b d _ _ _ h h'; exact h.trans h'
  hash := by
    simp only [keyTypes, decide_eq_true_iff]
    intro a b _ _ h
    rw [proper_hash hv hp a.2, proper_hash hv hp b.2, h]

/-- So every table with such keys, after every sequence of calls, answers like an ideal map whose keys are
the sequences of elements. -/
theorem c54_map_partial (hv : cfg.Valid) (hp : cfg.Physical) (dflt : V) (grow : Nat → Nat → Option Nat)
    (ops : List (Op { k // Proper cfg k } V)) :
    ∃ g, Right (fun a b => decide (a.1.elems = b.1.elems)) dflt (fun _ _ => none) g ops
      (runs (keyTypes (Proper cfg) dflt grow) ops fun _ => UMap.empty 100).1 :=
  c53_map (c54_lawful_partial hv hp dflt grow) ops

theorem runs_append {K : Type} {c : Types K V} : ∀ (ops : List (Op K V)) (op : Op K V) (s : Nat → UMap K V),
    (runs c (ops ++ [op]) s).2 = (run c (runs c ops s).2 op).2
  | [], _, _ => rfl
  | _ :: ops, op, s => runs_append ops op _

/-- What was stored under one object is found with any other that has the same elements, in whatever table
and whatever way the two objects came to be. -/
theorem c54_found_partial (hv : cfg.Valid) (hp : cfg.Physical) (dflt : V) (grow : Nat → Nat → Option Nat)
    (ops : List (Op { k // Proper cfg k } V)) {s1 s2 : St T} {env1 env2 : Env T} (h1 : Reach cfg s1 env1) (h2 : Reach cfg s2 env2)
    {o1 o2 : Nat} {v : List T} (ho1 : env1 o1 = .val v) (ho2 : env2 o2 = .val v)
    {k1 k2 : Key T} (hk1 : KeyOf cfg s1 o1 k1) (hk2 : KeyOf cfg s2 o2 k2) (i : Nat) (x : V) :
    ∃ p, ((runs (keyTypes (Proper cfg) dflt grow) (ops ++ [.set i ⟨k1, ⟨s1, env1, o1, v, h1, ho1, hk1⟩⟩ x]) fun _ => UMap.empty 100).2 i).find
        (keyTypes (Proper cfg) dflt grow) ⟨k2, ⟨s2, env2, o2, v, h2, ho2, hk2⟩⟩ = some p ∧ p.2 = x ∧ p.1.1.elems = v := by
  have hl := c54_lawful_partial (V := V) hv hp dflt grow
  have his : ∃ m, Is (keyTypes (Proper cfg) dflt grow) ((runs (keyTypes (Proper cfg) dflt grow) ops fun _ => UMap.empty 100).2 i) m := by
    have : ∀ {s : Nat → UMap _ V} {g : Nat → { k // Proper cfg k } → Option V}, (∀ i, Is (keyTypes (Proper cfg) dflt grow) (s i) (g i)) →
        ∀ i, ∃ m, Is (keyTypes (Proper cfg) dflt grow) ((runs (keyTypes (Proper cfg) dflt grow) ops s).2 i) m := by
      clear hk1 hk2
      induction ops with
      | nil => intro s g h i; exact ⟨_, h i⟩
      | cons op ops ih => intro s g h i; exact ih (run_right hl h op).2 i
    exact this (fun _ => is_empty 100) i
  obtain ⟨m, hm⟩ := his
  have e1 := shows_unique hk1.1 (h1.shows hv hp ho1)
  have e2 := shows_unique hk2.1 (h2.shows hv hp ho2)
  have hset := hm.set hl ⟨k1, ⟨s1, env1, o1, v, h1, ho1, hk1⟩⟩ x
  rw [runs_append]
  simp only [run, setFn_same]
  have hlook := congrFun hset.look ⟨k2, ⟨s2, env2, o2, v, h2, ho2, hk2⟩⟩
  have heq : (keyTypes (Proper cfg) dflt grow).eq ⟨k1, ⟨s1, env1, o1, v, h1, ho1, hk1⟩⟩ ⟨k2, ⟨s2, env2, o2, v, h2, ho2, hk2⟩⟩ = true := by
    simp [keyTypes, e1, e2]
  unfold look mapSet at hlook
  rw [if_pos heq, Option.map_eq_some_iff] at hlook
  obtain ⟨p, hp1, hp2⟩ := hlook
  refine ⟨p, hp1, hp2, ?_⟩
  have := ((find_some hl hset.wf trivial).1 hp1).2
  simp only [keyTypes, decide_eq_true_iff] at this
  rw [this, e2]

/-- A case: `{2,3,4}` made directly and as part of `{1,2,3,4,5}`. -/
example : ∃ k, KeyOf arrCfg stA 1 k ∧ Proper arrCfg k := by
  have hr := reachA
  have ho : envA 1 = .val [2, 3, 4] := rfl
  have h1 := hr.shows arrCfg_valid arrCfg_physical ho
  have h2 := hash_of_reach arrCfg_valid arrCfg_physical hr ho
  exact ⟨⟨_, _⟩, ⟨h1, h2⟩, stA, envA, 1, _, hr, ho, h1, h2⟩

/-- Refutation for all histories: a key that was hashed and then changed through `front()` has the elements
`{9,2,3,4,5}` but the old hash.  In a table with 100 buckets what is stored under it is not found with an
honest `{9,2,3,4,5}`. -/
theorem c54_refuted_front : ∃ s1 s2 n, Rca.run arrCfg (.hash 0) stA = .ok (.hash 135413428) s1 ∧
    writeThrough 0 0 9 s1 = .ok () s2 ∧ KeyOf arrCfg s2 0 ⟨[9, 2, 3, 4, 5], n⟩ ∧
    ∀ t : UMap { _k : Key Nat // True } Nat, t = set (keyTypes (fun _ => True) 0 fun _ _ => none) (UMap.empty 100) ⟨⟨[9, 2, 3, 4, 5], n⟩, trivial⟩ 1 →
      t.find (keyTypes (fun _ => True) 0 fun _ _ => none) ⟨⟨[9, 2, 3, 4, 5], djb (fun x => (arrCfg.hasher x).toNat) [9, 2, 3, 4, 5]⟩, trivial⟩ = none := by
  obtain ⟨s1, s2, h1, h2, h3, h4, -⟩ := c04_refuted_front
  refine ⟨s1, s2, 135413428, h1, h2, ⟨h3, h4⟩, ?_⟩
  rintro t rfl
  have : djb (fun x => (arrCfg.hasher x).toNat) [9, 2, 3, 4, 5] % 100 ≠ 135413428 % 100 := by decide
  revert this
  generalize djb (fun x => (arrCfg.hasher x).toNat) [9, 2, 3, 4, 5] = d
  intro hd
  simp [set, UMap.index, UMap.find, UMap.empty, UMap.insertNew, UMap.push, UMap.assign, keyTypes, setFn] at hd ⊢
  simp [hd]

end Bdlib.Hash
