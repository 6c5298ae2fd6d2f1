import Verif.Props.Common

/-!
# C01 Value semantics: copies are isolated from each other
-/

namespace Bdlib.Rca
open Bdlib Bdlib.Spec

variable {T : Type} [DecidableEq T] {cfg : Cfg T}

/-- `hash()` of object `o` answers `n` in state `s`. -/
def HashIs (cfg : Cfg T) (s : St T) (o n : Nat) : Prop := ∃ t, run cfg (.hash o) s = .ok (.hash n) t

theorem hash_of_reach (hv : cfg.Valid) (hp : cfg.Physical) {s : St T} {env : Env T} (h : Reach cfg s env)
    {o : Nat} {v : List T} (ho : env o = .val v) : HashIs cfg s o (djb (fun x => (cfg.hasher x).toNat) v) := by
  obtain ⟨out, s', env', hres, hpost, _⟩ := h.call hv hp (op := .hash o) (has_val ho)
  have : out = .ret (.hash (djb (fun x => (cfg.hasher x).toNat) (env.get o))) := hpost.1
  subst this
  rw [get_val ho] at hres
  exact ⟨s', result_ok hres⟩

/-- After any history of in-contract calls, whatever in-contract call is made next, and however it ends,
every object that is neither its receiver nor an rvalue/swap argument shows the same elements, length
and hash before and after.

Partial: the contract excludes `reserve()` on shared storage, see `c01_refuted_reserve`, and writing
through references kept from `front()`/`back()`/`read()`, see `Props/C19.lean`. -/
theorem c01_isolation_partial (hv : cfg.Valid) (hp : cfg.Physical) {s s' : St T} {env : Env T} (h : Reach cfg s env)
    {op : Op T} {out : Outcome T} (hpre : Pre cfg (shared s) env op)
    (hrun : result (run cfg op s) = some (out, s')) {p : Nat} {w : List T} (hw : env p = .val w)
    (ht : ¬ op.Touches p) :
    Shows s p w ∧ Shows s' p w ∧ ∃ n, HashIs cfg s p n ∧ HashIs cfg s' p n := by
  obtain ⟨out1, s1, env1, hres, hpost, hr⟩ := h.call hv hp hpre
  rw [hrun] at hres
  cases hres
  have hw' : env1 p = .val w := by
    rw [post_frame hpost ht (by rw [hw]; intro hc; cases hc)]; exact hw
  exact ⟨h.shows hv hp hw, hr.shows hv hp hw', _, hash_of_reach hv hp h hw, hash_of_reach hv hp hr hw'⟩

/-- In the state reached by `a = {1,2,3,4,5}; b = a.subarray(1,3)`, writing to `b` is a call the theorem
covers, and `a` is an object it speaks about. -/
example : Pre arrCfg (shared stA) envA (.write 1 0 9) ∧ envA 0 = .val [1, 2, 3, 4, 5] ∧
    ¬ (Op.write 1 0 9 : Op Nat).Touches 0 := ⟨⟨⟨_, rfl⟩, by decide⟩, rfl, by intro h; cases h⟩

/-- ... and it really changes the object it is applied to. -/
example : ∃ s', run arrCfg (.write 1 0 9) stA = .ok .unit s' ∧ Shows s' 1 [9, 3, 4] := by
  refine ⟨_, rfl, rfl, fun i hi => ?_⟩
  match i, hi with
  | 0, _ => rfl
  | 1, _ => rfl
  | 2, _ => rfl

/-- A whole history between two looks at `p`: none of its calls touches `p`. -/
inductive History (cfg : Cfg T) (p : Nat) : St T → Env T → St T → Env T → Prop
  | nil {s : St T} {env : Env T} : History cfg p s env s env
  | cons {s s1 s2 : St T} {env env1 env2 : Env T} {op : Op T} {out : Outcome T} : Pre cfg (shared s) env op →
      ¬ op.Touches p → result (run cfg op s) = some (out, s1) → Post cfg (shared s) env op out env1 → Agrees s1 env1 →
      History cfg p s1 env1 s2 env2 → History cfg p s env s2 env2

/-- An object keeps its value and hash through every history of in-contract calls on other objects. -/
theorem c01_history_partial (hv : cfg.Valid) (hp : cfg.Physical) {s s' : St T} {env env' : Env T} (h : Reach cfg s env)
    {p : Nat} {w : List T} (hw : env p = .val w) (hh : History cfg p s env s' env') :
    Shows s p w ∧ Shows s' p w ∧ ∃ n, HashIs cfg s p n ∧ HashIs cfg s' p n := by
  have key : Reach cfg s' env' ∧ env' p = .val w := by
    induction hh with
    | nil => exact ⟨h, hw⟩
    | cons hpre ht hres hpost hag _ ih =>
      refine ih (.step h hpre hres hpost hag) ?_
      rw [post_frame hpost ht (by rw [hw]; intro hc; cases hc)]; exact hw
  exact ⟨h.shows hv hp hw, key.1.shows hv hp key.2, _, hash_of_reach hv hp h hw, hash_of_reach hv hp key.1 key.2⟩

example : ∃ s' env', History arrCfg 0 stA envA s' env' ∧ Shows s' 1 [2, 3, 4, 7] := by
  refine ⟨_, _, .cons (op := .append 1 7) (out := .ret .unit) ⟨_, rfl⟩ (by intro h; cases h) rfl
    (Or.inl ⟨rfl, rfl⟩) ?_ .nil, rfl, fun i hi => ?_⟩
  · have hr := Reach.next arrCfg_valid arrCfg_physical reachA (op := .append 1 7) (x := .unit) ⟨_, rfl⟩ rfl (fun h => h)
      (Or.inl ⟨rfl, rfl⟩)
    exact hr.agrees arrCfg_valid arrCfg_physical
  · match i, hi with
    | 0, _ => rfl
    | 1, _ => rfl
    | 2, _ => rfl
    | 3, _ => rfl

/-- The full statement fails: `b.reserve(100)` on a subarray that shares its storage moves the elements
under the other object, which then shows `{2,3,4,junk,junk}` instead of `{1,2,3,4,5}`. -/
theorem c01_refuted_reserve : ∃ s', Reach arrCfg stA envA ∧ envA 0 = .val [1, 2, 3, 4, 5] ∧
    run arrCfg (.reserve 1 100) stA = .ok .unit s' ∧ Shows s' 0 [2, 3, 4, 777, 777] ∧
    ¬ Shows s' 0 [1, 2, 3, 4, 5] := by
  have h : Shows ((exec arrCfg stA [.reserve 1 100]).getD {}) 0 [2, 3, 4, 777, 777] := by
    refine ⟨rfl, fun i hi => ?_⟩
    match i, hi with
    | 0, _ => rfl
    | 1, _ => rfl
    | 2, _ => rfl
    | 3, _ => rfl
    | 4, _ => rfl
  exact ⟨(exec arrCfg stA [.reserve 1 100]).getD {}, reachA, rfl, rfl, h, fun h' => by
    have := shows_unique h h'; simp at this⟩

end Bdlib.Rca
