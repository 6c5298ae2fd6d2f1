import Verif.Rca.Reach

/-!
# Concrete configurations and histories

Used to show that the hypotheses of the property theorems are met by non-trivial programs, and as the
starting points of the counterexamples.
-/

namespace Bdlib.Rca
open Bdlib Bdlib.Spec

variable {T : Type} {cfg : Cfg T}

/-- Extending a history by one call that returned. -/
theorem Reach.next [DecidableEq T] (hv : cfg.Valid) (hp : cfg.Physical) {s s' : St T} {env env' : Env T} {op : Op T}
    {x : Out T} (h : Reach cfg s env) (hpre : Pre cfg (shared s) env op) (hrun : run cfg op s = .ok x s')
    (hop : ¬ IsResize op) (hpost : Post cfg (shared s) env op (.ret x) env') : Reach cfg s' env' := by
  obtain ⟨out, s1, env1, h1, h2, h3⟩ := h.call hv hp hpre
  rw [hrun] at h1
  cases h1
  rw [post_det hop hpost h2]
  exact h3

/-- `Array<Nat>` on a machine where every sensible allocation succeeds; fresh memory holds 777, moved-from
elements 888. -/
def arrCfg : Cfg Nat where
  nul := none
  junk := fun _ _ => 777
  moved := fun _ => 888
  scale := fun n => n + n / 2
  allocOk := fun _ n => decide (n < maxCells)
  resetMoved := false
  hasher := fun x => x.toUInt64
  wipe := fun _ i => i

/-- `String`; every string owns a spare cell (no exact-size constructor is used). -/
def strCfg : Cfg Nat := { arrCfg with nul := some 0, slack := 1, moved := id }

/-- `String`, any constructor. -/
def strCfg0 : Cfg Nat := { strCfg with slack := 0 }

theorem arrCfg_valid : arrCfg.Valid := Or.inl rfl
theorem strCfg_valid : strCfg.Valid := Or.inr ⟨rfl, rfl⟩
theorem strCfg0_valid : strCfg0.Valid := Or.inl rfl

theorem arrCfg_physical : arrCfg.Physical := by
  intro g n h
  simp [arrCfg]; exact h
theorem strCfg_physical : strCfg.Physical := by
  intro g n h
  simp [strCfg, arrCfg]; exact h
theorem strCfg0_physical : strCfg0.Physical := by
  intro g n h
  simp [strCfg0, strCfg, arrCfg]; exact h

/-- State after a list of calls, stopping at undefined behaviour. -/
def exec [DecidableEq T] (cfg : Cfg T) (s : St T) : List (Op T) → Option (St T)
  | [] => some s
  | op :: ops =>
    match run cfg op s with
    | .ok _ s' => exec cfg s' ops
    | .throw _ s' => exec cfg s' ops
    | .ub => none

/-- Object 0 is `hello` (1 2 3 4 5), object 1 the subarray `(1, 3)` of it. -/
def stA : St Nat := (exec arrCfg {} [.listCtor [1, 2, 3, 4, 5], .substring 0 1 3]).getD {}

def envA : Env Nat := (Env.empty.upd 0 (.val [1, 2, 3, 4, 5])).upd 1 (.val [2, 3, 4])

theorem reachA : Reach arrCfg stA envA := by
  have h1 : Reach arrCfg ((exec arrCfg {} [.listCtor [1, 2, 3, 4, 5]]).getD {})
      (Env.empty.upd 0 (.val [1, 2, 3, 4, 5])) :=
    Reach.next arrCfg_valid arrCfg_physical (.init) (op := .listCtor [1, 2, 3, 4, 5]) (x := .obj 0) rfl rfl (fun h => h)
      (Or.inl ⟨0, rfl, rfl, rfl⟩)
  refine Reach.next arrCfg_valid arrCfg_physical h1 (op := .substring 0 1 3) (x := .obj 1) ?_ rfl (fun h => h) ⟨1, rfl, rfl, rfl⟩
  exact ⟨⟨_, rfl⟩, by decide⟩

end Bdlib.Rca
