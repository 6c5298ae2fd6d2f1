import Verif.Props.C01

/-!
# C04 hash() is a function of the contents only
-/

namespace Bdlib.Rca
open Bdlib Bdlib.Spec

variable {T : Type} [DecidableEq T] {cfg : Cfg T}

/-- After any history of in-contract calls (including earlier `hash()` calls, which cache), `hash()`
returns DJB's hash of the current elements: start with 5381, `h = h * 33 + hash(x)`, reduced to 31 bits.

Partial: writing through a reference obtained from `front()`, `back()` or non-const `read()` is not an
in-contract call, see `c04_refuted_front`. -/
theorem c04_hash_partial (hv : cfg.Valid) (hp : cfg.Physical) {s : St T} {env : Env T} (h : Reach cfg s env)
    {o : Nat} {v : List T} (ho : env o = .val v) :
    HashIs cfg s o (v.foldl (fun acc x => acc * 33 + (cfg.hasher x).toNat) 5381 % 2147483648) :=
  hash_of_reach hv hp h ho

/-- Equal contents give equal hashes, whatever the histories of the two objects. -/
theorem c04_equal_partial (hv : cfg.Valid) (hp : cfg.Physical) {s1 s2 : St T} {env1 env2 : Env T} (h1 : Reach cfg s1 env1)
    (h2 : Reach cfg s2 env2) {o1 o2 : Nat} {v : List T} (ho1 : env1 o1 = .val v) (ho2 : env2 o2 = .val v)
    {n1 n2 : Nat} (hn1 : HashIs cfg s1 o1 n1) (hn2 : HashIs cfg s2 o2 n2) : n1 = n2 := by
  obtain ⟨t1, e1⟩ := hash_of_reach hv hp h1 ho1
  obtain ⟨t2, e2⟩ := hash_of_reach hv hp h2 ho2
  obtain ⟨u1, f1⟩ := hn1
  obtain ⟨u2, f2⟩ := hn2
  rw [e1] at f1
  rw [e2] at f2
  simp only [Res.ok.injEq, Out.hash.injEq] at f1 f2
  rw [← f1.1, ← f2.1]

/-- The cached hash of object 1 is dropped by a write. -/
example : ∃ s1 s2, run arrCfg (.hash 1) stA = .ok (.hash 193379278) s1 ∧ run arrCfg (.write 1 0 9) s1 = .ok .unit s2 ∧
    ∃ s3, run arrCfg (.hash 1) s2 = .ok (.hash 193386901) s3 := ⟨_, _, rfl, rfl, _, rfl⟩

/-- `a.hash(); a.front() = 9; a.hash()` returns the old hash although the contents changed to `{9,2,3,4,5}`. -/
theorem c04_refuted_front : ∃ s1 s2, run arrCfg (.hash 0) stA = .ok (.hash 135413428) s1 ∧
    writeThrough 0 0 9 s1 = .ok () s2 ∧ Shows s2 0 [9, 2, 3, 4, 5] ∧ HashIs arrCfg s2 0 135413428 ∧
    djb (fun x => (arrCfg.hasher x).toNat) [9, 2, 3, 4, 5] ≠ 135413428 := by
  refine ⟨_, _, rfl, rfl, ⟨rfl, fun i hi => ?_⟩, ⟨_, rfl⟩, by decide⟩
  match i, hi with
  | 0, _ => rfl
  | 1, _ => rfl
  | 2, _ => rfl
  | 3, _ => rfl
  | 4, _ => rfl

end Bdlib.Rca
